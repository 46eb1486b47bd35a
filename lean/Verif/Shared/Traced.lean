import Verif.Shared.Props
/-!
# Several problems of one model with the backend 'jax' (lumos/optimal_control/scaled_mesh_ocp.py:78-135, 1281-1293; lumos/models/base.py:476-480,
732-754; lumos/optimal_control/nlp.py:235-281)

The constructor of a problem assigns the model's constraint outputs, and compiles nothing: the constraints and the Jacobian are traced when they are
evaluated for the first time, with the constraint outputs that the model has then. The parameters are an argument of the traced functions (C81).
-/

namespace Lumos.Shared

open Lumos Lumos.Ocp

variable {P : Type}

/-- A problem: its own constraint outputs (the layout of its decision variables), and the constraint outputs that its constraints and its Jacobian
were traced with, if they were evaluated. -/
structure JProb where
  con : List String
  conT : Option (List String) := none
  jacT : Option (List String) := none

/-- The model's constraint outputs, and the problems. -/
structure JWorld where
  con : List String
  probs : List JProb

/-- What is done with the problems. -/
inductive JOp where
  /-- `ScaledMeshOCP(model, config)` with `con_output_names` in the configuration (scaled_mesh_ocp.py:100). -/
  | new (con : List String)
  /-- `model.set_con_outputs(con)`. -/
  | setCon (con : List String)
  /-- An evaluation of the constraints, or of the Jacobian, of problem `i`. -/
  | constraints (i : Nat)
  | jacobian (i : Nat)

/-- One action: `jax.jit` traces at the first call (nlp.py:276-280). -/
def JWorld.step (w : JWorld) : JOp → JWorld
  | .new con => { con := con, probs := w.probs ++ [{ con := con }] }
  | .setCon con => { w with con := con }
  | .constraints i => { w with probs := w.probs.modify i fun q => { q with conT := some (q.conT.getD w.con) } }
  | .jacobian i => { w with probs := w.probs.modify i fun q => { q with jacT := some (q.jacT.getD w.con) } }

/-- A history. -/
def JWorld.run (w : JWorld) : List JOp → JWorld
  | [] => w
  | op :: ops => (w.step op).run ops

/-- The constraints of problem `i` at one stage (base.py:532-595). Simplified: when the numbers of constraint outputs differ it is an error here (jax
subtracts arrays of different lengths if one of them has a single element). -/
noncomputable def JWorld.stage (m : Mdl P) (p : P) (w : JWorld) (i : Nat) (x : List ℝ) (μ : ℝ) : Py (List ℝ) :=
  match w.probs[i]? with
  | none => .error .indexError
  | some q =>
    if (q.conT.getD w.con).length = q.con.length then .ok ((m.explicit p (q.conT.getD w.con)).flatImplicit x μ) else .error .typeError

/-- The Jacobian of problem `i` at one stage. -/
def JWorld.stageJac (jac : ExplicitModel → List ℝ → ℝ → List ℝ) (m : Mdl P) (p : P) (w : JWorld) (i : Nat) (x : List ℝ) (μ : ℝ) : Py (List ℝ) :=
  match w.probs[i]? with
  | none => .error .indexError
  | some q =>
    if (q.jacT.getD w.con).length = q.con.length then .ok (jac (m.explicit p (q.jacT.getD w.con)) x μ) else .error .typeError

/-! ## The property -/

/-- The action gives the model other constraint outputs than `con`. -/
def JOp.Other (con : List String) : JOp → Prop
  | .new c => c ≠ con
  | .setCon c => c ≠ con
  | _ => False

/-- The problem computes with its own constraint outputs. -/
def Own (con : List String) (q : JProb) : Prop := q.con = con ∧ (∀ c ∈ q.conT, c = con) ∧ ∀ c ∈ q.jacT, c = con

theorem own_step {w : JWorld} {con : List String} (hw : w.con = con) {op : JOp} (ho : ¬op.Other con) {i : Nat} {q : JProb}
    (h : w.probs[i]? = some q) (hq : Own con q) : (w.step op).con = con ∧ ∃ q', (w.step op).probs[i]? = some q' ∧ Own con q' := by
  have hi : i < w.probs.length := (List.getElem?_eq_some_iff.mp h).1
  have get : ∀ o : Option (List String), (∀ c ∈ o, c = con) → o.getD w.con = con := fun o ho => by
    cases o with
    | none => exact hw
    | some c => exact ho c rfl
  cases op with
  | new c =>
    have : c = con := Classical.not_not.mp ho
    subst this
    exact ⟨rfl, q, (List.getElem?_append_left hi).trans h, hq⟩
  | setCon c => exact ⟨Classical.not_not.mp ho, q, h, hq⟩
  | constraints j =>
    refine ⟨hw, ?_⟩
    by_cases e : j = i
    · subst e
      refine ⟨{ q with conT := some (q.conT.getD w.con) }, by simp [JWorld.step, h], hq.1, fun c hc => ?_, hq.2.2⟩
      cases hc
      exact get _ hq.2.1
    · exact ⟨q, by simp [JWorld.step, h, e], hq⟩
  | jacobian j =>
    refine ⟨hw, ?_⟩
    by_cases e : j = i
    · subst e
      refine ⟨{ q with jacT := some (q.jacT.getD w.con) }, by simp [JWorld.step, h], hq.1, hq.2.1, fun c hc => ?_⟩
      cases hc
      exact get _ hq.2.2
    · exact ⟨q, by simp [JWorld.step, h, e], hq⟩

theorem own_run (ops : List JOp) {w : JWorld} {con : List String} (hw : w.con = con) (ho : ∀ op ∈ ops, ¬op.Other con) {i : Nat} {q : JProb}
    (h : w.probs[i]? = some q) (hq : Own con q) : (w.run ops).con = con ∧ ∃ q', (w.run ops).probs[i]? = some q' ∧ Own con q' := by
  induction ops generalizing w q with
  | nil => exact ⟨hw, q, h, hq⟩
  | cons op ops ih =>
    obtain ⟨h1, q', h2, h3⟩ := own_step hw (ho op List.mem_cons_self) h hq
    exact ih h1 (fun o m => ho o (List.mem_cons_of_mem _ m)) h2 h3

/-- **C118** (problems, jax). A problem computes its own stage constraints and their Jacobian in every history in which the model is given no other
constraint outputs. -/
theorem C118_problem (m : Mdl P) (p : P) (w : JWorld) (con : List String) (ops : List JOp) (ho : ∀ op ∈ ops, ¬op.Other con) (x : List ℝ) (μ : ℝ)
    (jac : ExplicitModel → List ℝ → ℝ → List ℝ) :
    (w.run (.new con :: ops)).stage m p w.probs.length x μ = .ok ((m.explicit p con).flatImplicit x μ)
    ∧ (w.run (.new con :: ops)).stageJac jac m p w.probs.length x μ = .ok (jac (m.explicit p con) x μ) := by
  obtain ⟨h1, q, h2, h3, h4, h5⟩ := own_run ops (w := w.step (.new con)) (con := con) (i := w.probs.length) (q := { con := con }) rfl ho
    (by simp [JWorld.step]) ⟨rfl, fun c hc => (by cases hc), fun c hc => (by cases hc)⟩
  have get : ∀ o : Option (List String), (∀ c ∈ o, c = con) → o.getD (w.run (.new con :: ops)).con = con := fun o ho => by
    cases o with
    | none => exact h1
    | some c => exact ho c rfl
  have e : (w.run (.new con :: ops)).probs[w.probs.length]? = some q := h2
  constructor
  · unfold JWorld.stage
    simp only [e]
    rw [get _ h4, h3, if_pos rfl]
  · unfold JWorld.stageJac
    simp only [e]
    rw [get _ h5, h3, if_pos rfl]

/-- What a problem was traced with never changes. -/
theorem traced_run (ops : List JOp) {w : JWorld} {i : Nat} {q : JProb} (h : w.probs[i]? = some q) :
    ∃ q', (w.run ops).probs[i]? = some q' ∧ q'.con = q.con ∧ (∀ c, q.conT = some c → q'.conT = some c) ∧ ∀ c, q.jacT = some c → q'.jacT = some c := by
  induction ops generalizing w q with
  | nil => exact ⟨q, h, rfl, fun _ h => h, fun _ h => h⟩
  | cons op ops ih =>
    have one : ∃ q', (w.step op).probs[i]? = some q' ∧ q'.con = q.con ∧ (∀ c, q.conT = some c → q'.conT = some c)
        ∧ ∀ c, q.jacT = some c → q'.jacT = some c := by
      have hi : i < w.probs.length := (List.getElem?_eq_some_iff.mp h).1
      cases op with
      | new c => exact ⟨q, (List.getElem?_append_left hi).trans h, rfl, fun _ h => h, fun _ h => h⟩
      | setCon c => exact ⟨q, h, rfl, fun _ h => h, fun _ h => h⟩
      | constraints j =>
        by_cases e : j = i
        · subst e
          exact ⟨{ q with conT := some (q.conT.getD w.con) }, by simp [JWorld.step, h], rfl, fun c hc => by simp [hc], fun _ h => h⟩
        · exact ⟨q, by simp [JWorld.step, h, e], rfl, fun _ h => h, fun _ h => h⟩
      | jacobian j =>
        by_cases e : j = i
        · subst e
          exact ⟨{ q with jacT := some (q.jacT.getD w.con) }, by simp [JWorld.step, h], rfl, fun _ h => h, fun c hc => by simp [hc]⟩
        · exact ⟨q, by simp [JWorld.step, h, e], rfl, fun _ h => h, fun _ h => h⟩
    obtain ⟨q1, h1, h2, h3, h4⟩ := one
    obtain ⟨q2, k1, k2, k3, k4⟩ := ih h1
    exact ⟨q2, k1, k2.trans h2, fun c hc => k3 c (h3 c hc), fun c hc => k4 c (h4 c hc)⟩

/-- **C118** (problems, jax: once evaluated). A problem whose constraints are evaluated right after its construction keeps them, whatever other problems
are constructed for the model afterwards. -/
theorem C118_problem_evaluated (m : Mdl P) (p : P) (w : JWorld) (con : List String) (ops : List JOp) (x : List ℝ) (μ : ℝ) :
    (w.run (.new con :: .constraints w.probs.length :: ops)).stage m p w.probs.length x μ = .ok ((m.explicit p con).flatImplicit x μ) := by
  obtain ⟨q, h1, h2, h3, -⟩ := traced_run ops (w := (w.step (.new con)).step (.constraints w.probs.length)) (i := w.probs.length)
    (q := { con := con, conT := some con }) (by simp [JWorld.step])
  have e : (w.run (.new con :: .constraints w.probs.length :: ops)).probs[w.probs.length]? = some q := h1
  unfold JWorld.stage
  simp only [e]
  rw [h3 con rfl, h2]
  exact if_pos rfl

/-- **C118** (finding: problems, jax). When a second problem is constructed for the same model before the first is evaluated, the constraints and the
Jacobian of the first are from then on, for as many constraint outputs, those of the second: its decision variables with the names `a` are held equal to
the outputs `b`, without an error. If its constraints, but not its Jacobian, were evaluated before, the two belong to different outputs. -/
theorem C118_problem_late (m : Mdl P) (p : P) (w : JWorld) (a b : List String) (hl : b.length = a.length) (ops : List JOp) (x : List ℝ) (μ : ℝ)
    (jac : ExplicitModel → List ℝ → ℝ → List ℝ) :
    let i := w.probs.length
    (w.run (.new a :: .new b :: .constraints i :: .jacobian i :: ops)).stage m p i x μ = .ok ((m.explicit p b).flatImplicit x μ)
    ∧ (w.run (.new a :: .new b :: .constraints i :: .jacobian i :: ops)).stageJac jac m p i x μ = .ok (jac (m.explicit p b) x μ)
    ∧ (w.run (.new a :: .constraints i :: .new b :: .jacobian i :: ops)).stage m p i x μ = .ok ((m.explicit p a).flatImplicit x μ)
    ∧ (w.run (.new a :: .constraints i :: .new b :: .jacobian i :: ops)).stageJac jac m p i x μ = .ok (jac (m.explicit p b) x μ) := by
  intro i
  obtain ⟨q, h1, h2, h3, h4⟩ := traced_run ops (w := (((w.step (.new a)).step (.new b)).step (.constraints i)).step (.jacobian i)) (i := i)
    (q := { con := a, conT := some b, jacT := some b }) (by simp [JWorld.step, i])
  obtain ⟨r, k1, k2, k3, k4⟩ := traced_run ops (w := (((w.step (.new a)).step (.constraints i)).step (.new b)).step (.jacobian i)) (i := i)
    (q := { con := a, conT := some a, jacT := some b }) (by simp [JWorld.step, i])
  have e : (w.run (.new a :: .new b :: .constraints i :: .jacobian i :: ops)).probs[i]? = some q := h1
  have e' : (w.run (.new a :: .constraints i :: .new b :: .jacobian i :: ops)).probs[i]? = some r := k1
  refine ⟨?_, ?_, ?_, ?_⟩
  · unfold JWorld.stage
    simp only [e]
    rw [h3 b rfl, h2]
    exact if_pos hl
  · unfold JWorld.stageJac
    simp only [e]
    rw [h4 b rfl, h2]
    exact if_pos hl
  · unfold JWorld.stage
    simp only [e']
    rw [k3 a rfl, k2]
    exact if_pos rfl
  · unfold JWorld.stageJac
    simp only [e']
    rw [k4 b rfl, k2]
    exact if_pos hl

/-- At `x = 1`, `x_dot = 3`, `a = 1` the problem for the output `a` is satisfied if it is evaluated before the problem for `b` is constructed, and violated
if it is evaluated afterwards. -/
example : (JWorld.run ⟨[], []⟩ [.new ["a"], .constraints 0, .new ["b"]]).stage exM 3 0 ([1] ++ [] ++ ([3] ++ [1])) 0 = .ok [0, 0]
    ∧ (JWorld.run ⟨[], []⟩ [.new ["a"], .new ["b"], .constraints 0, .jacobian 0]).stage exM 3 0 ([1] ++ [] ++ ([3] ++ [1])) 0 = .ok [0, 1] := by
  constructor
  · refine (C118_problem_evaluated exM 3 ⟨[], []⟩ ["a"] [.new ["b"]] _ 0).trans ?_
    rw [flat_parts _ rfl rfl rfl]
    simp [exM, Mdl.explicit]
  · refine (C118_problem_late exM 3 ⟨[], []⟩ ["a"] ["b"] rfl [] _ 0 (fun _ _ _ => [])).1.trans ?_
    rw [flat_parts _ rfl rfl rfl]
    simp [exM, Mdl.explicit]
    norm_num

end Lumos.Shared
