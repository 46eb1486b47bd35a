import Verif.Shared.Model
import Verif.Solver.Inv
/-!
# C118: several solvers of one model
-/

namespace Lumos.Shared

open Lumos Lumos.Ocp

variable {P : Type}

/-! ## Specification: what is asked for, in the order of the history -/

/-- The model accepts these constraint outputs: they are outputs, and no two variables of the solver have the same name. -/
def Accepts (m : Mdl P) (con : List String) : Prop :=
  (m.states.Nodup ∧ m.inputs.Nodup ∧ con.Nodup) ∧ ∀ n ∈ con, n ∈ m.outputs

/-- The constraint outputs that an action constructs a solver for. -/
def Op.wants : Op P → Option (List String)
  | .new con => some (con.getD [])
  | _ => none

/-! ## Names and the flat vector -/

theorem names_nodup {M : ExplicitModel} (h : M.states.Nodup ∧ M.inputs.Nodup ∧ M.conOutputs.Nodup) : (Solver.inputNames M).Nodup := by
  obtain ⟨h1, h2, h3⟩ := h
  rw [Solver.inputNames_eq]
  refine List.Nodup.map_on (fun p hp q hq h => Solver.key_inj (Solver.mem_allVars hp) (Solver.mem_allVars hq) h) ?_
  rw [Solver.allVars_eq]
  have inj : ∀ g : String, Function.Injective (fun n : String => (g, n)) := fun g a b h => by
    simpa using h
  simp only [List.nodup_append, List.mem_append, List.mem_map]
  refine ⟨h1.map (inj _), ⟨h2.map (inj _), ⟨h1.map (inj _), h3.map (inj _), ?_⟩, ?_⟩, ?_⟩
  · rintro _ ⟨n, _, rfl⟩ _ ⟨m, _, rfl⟩ h; simp at h
  · rintro _ ⟨n, _, rfl⟩ _ (⟨m, _, rfl⟩ | ⟨m, _, rfl⟩) h <;> simp at h
  · rintro _ ⟨n, _, rfl⟩ _ (⟨m, _, rfl⟩ | ⟨m, _, rfl⟩ | ⟨m, _, rfl⟩) h <;> simp at h

theorem flat_parts (M : ExplicitModel) {x u xd y : List ℝ} (hx : x.length = M.nx) (hu : u.length = M.nu) (hd : xd.length = M.nx) (μ : ℝ) :
    M.flatImplicit (x ++ u ++ (xd ++ y)) μ
      = List.zipWith (· - ·) (M.f x u μ) xd ++ (List.zipWith (· - ·) (M.h x u μ) y ++ M.r x u μ) := by
  have hc : (Np.cumsum (M.groups.map fun g => g.2.length)).dropLast = [M.nx, M.nx + M.nu, M.nx + M.nu + M.nx] := by
    simp only [ExplicitModel.groups, List.map_cons, List.map_nil, Np.cumsum, ExplicitModel.nx, ExplicitModel.nu, List.dropLast]
    simp [Nat.add_assoc]
  have t1 : (x ++ u ++ (xd ++ y)).take M.nx = x := by
    rw [List.append_assoc, List.take_left' hx]
  have t2 : ((x ++ u ++ (xd ++ y)).take (M.nx + M.nu)).drop M.nx = u := by
    rw [List.take_left' (by simp [hx, hu]), List.drop_left' hx]
  have t3 : ((x ++ u ++ (xd ++ y)).take (M.nx + M.nu + M.nx)).drop (M.nx + M.nu) = xd := by
    rw [← List.append_assoc, List.take_left' (by simp [hx, hu, hd]; omega), List.drop_left' (by simp [hx, hu])]
  have t4 : (x ++ u ++ (xd ++ y)).drop (M.nx + M.nu + M.nx) = y := by
    rw [← List.append_assoc, List.drop_left' (by simp [hx, hu, hd]; omega)]
  unfold ExplicitModel.flatImplicit
  rw [hc]
  simp only [Np.split, Np.splitFrom, List.getD_cons_zero, List.getD_cons_succ, List.drop_zero]
  rw [t1, t2, t3, t4]

/-! ## One action -/

theorem new_some (m : Mdl P) {w : World P} {p : P} (hp : w.params = some p) {con : List String}
    (h1 : (Solver.inputNames (m.explicit p con)).Nodup) (h2 : ∀ n ∈ con, n ∈ m.outputs) :
    new m w con = ({ w with con := con, algebra := some con, solvers := w.solvers ++ [⟨con, p⟩] }, .ok w.solvers.length) := by
  unfold new
  simp only [hp]
  rw [if_neg (not_not.mpr h1), if_neg (not_not.mpr h2)]

/-- Solvers stay as they are, and the algebra changes only to what is asked for. -/
theorem step_keeps (m : Mdl P) (w : World P) (op : Op P) {i : Nat} {s : Sol P} (h : w.solvers[i]? = some s) :
    (step m w op).solvers[i]? = some s ∧ ((step m w op).algebra = w.algebra ∨ ∃ con, op.wants = some con ∧ (step m w op).algebra = some con) := by
  cases op with
  | setParams p => exact ⟨h, .inl rfl⟩
  | setCon con => exact ⟨h, .inl rfl⟩
  | new con =>
    have hi : i < w.solvers.length := (List.getElem?_eq_some_iff.mp h).1
    show (new m w (con.getD [])).1.solvers[i]? = some s ∧ ((new m w (con.getD [])).1.algebra = w.algebra
      ∨ ∃ c, some (con.getD []) = some c ∧ (new m w (con.getD [])).1.algebra = some c)
    unfold new
    simp only
    cases w.params with
    | none => exact ⟨h, .inl rfl⟩
    | some p =>
      simp only
      split_ifs
      · exact ⟨(List.getElem?_append_left hi).trans h, .inr ⟨_, rfl, rfl⟩⟩
      · exact ⟨h, .inl rfl⟩
      · exact ⟨h, .inl rfl⟩

theorem run_keeps (m : Mdl P) (ops : List (Op P)) {w : World P} {i : Nat} {s : Sol P} (h : w.solvers[i]? = some s) {con : List String}
    (ha : w.algebra = some con) (ho : ∀ op ∈ ops, ∀ c, op.wants = some c → c = con) :
    (run m w ops).solvers[i]? = some s ∧ (run m w ops).algebra = some con := by
  induction ops generalizing w with
  | nil => exact ⟨h, ha⟩
  | cons op ops ih =>
    obtain ⟨h1, h2⟩ := step_keeps m w op h
    refine ih h1 ?_ fun o m' => ho o (List.mem_cons_of_mem _ m')
    rcases h2 with h2 | ⟨c, h3, h4⟩
    · exact h2.trans ha
    · rw [h4, ho op List.mem_cons_self c h3]

theorem run_solver (m : Mdl P) (ops : List (Op P)) {w : World P} {i : Nat} {s : Sol P} (h : w.solvers[i]? = some s) :
    (run m w ops).solvers[i]? = some s := by
  induction ops generalizing w with
  | nil => exact h
  | cons op ops ih => exact ih (step_keeps m w op h).1

/-! ## The property -/

/-- **C118** (construction). A solver is made for every list of outputs that the model accepts, whatever was done with the model before; it is
the next one. -/
theorem C118_construct (m : Mdl P) {w : World P} {p : P} (hp : w.params = some p) {con : List String} (h : Accepts m con) :
    (new m w con).2 = .ok w.solvers.length ∧ (new m w con).1.solvers[w.solvers.length]? = some ⟨con, p⟩
      ∧ (new m w con).1.algebra = some con ∧ (new m w con).1.params = some p := by
  have h1 : (Solver.inputNames (m.explicit p con)).Nodup := names_nodup h.1
  rw [new_some m hp h1 h.2]
  exact ⟨rfl, by simp, rfl, hp⟩

/-- **C118** (a solver of its own). A solver keeps its constraints and its Jacobian, with the parameters at its construction, in every history of
assignments of parameters and of names to the model, and of other solvers for the same constraint outputs: the constraints are
`f - x_dot`, the constraint outputs less their variables, and the residuals. -/
theorem C118_own (m : Mdl P) {w : World P} {p : P} (hp : w.params = some p) {con : List String} (h : Accepts m con) (ops : List (Op P))
    (ho : ∀ op ∈ ops, ∀ c, op.wants = some c → c = con) {x u xd y : List ℝ} (hx : x.length = m.states.length) (hu : u.length = m.inputs.length)
    (hxd : xd.length = m.states.length) (hy : y.length = con.length) (jac : ExplicitModel → List ℝ → List ℝ) :
    (run m w (.new (some con) :: ops)).constraints m w.solvers.length (x ++ u ++ (xd ++ y))
        = .ok (List.zipWith (· - ·) (m.f p x u 0) xd ++ (List.zipWith (· - ·) (con.map fun n => m.out p n x u 0) y ++ m.r p x u 0))
      ∧ (run m w (.new (some con) :: ops)).jacobian jac m w.solvers.length (x ++ u ++ (xd ++ y))
        = .ok (jac (m.explicit p con) (x ++ u ++ (xd ++ y))) := by
  obtain ⟨-, h2, h3, -⟩ := C118_construct m hp h
  obtain ⟨k1, k2⟩ := run_keeps m ops h2 h3 ho
  have e : run m w (.new (some con) :: ops) = run m (new m w con).1 ops := rfl
  rw [e]
  have hlen : (x ++ u ++ (xd ++ y)).length = (m.explicit p con).numVar := by
    rw [ExplicitModel.numVar_eq]
    simp [hx, hu, hxd, hy, Mdl.explicit, ExplicitModel.nx, ExplicitModel.nu, ExplicitModel.ny]
    omega
  constructor
  · unfold World.constraints
    rw [k1, k2]
    simp only
    rw [if_pos hlen, flat_parts _ hx hu hxd]
    rfl
  · unfold World.jacobian
    rw [k1]

/-- **C118** (finding: the last solver decides). After another solver is constructed for the same model, the constraints of every earlier solver are
those of the later one's constraint outputs: silently if there are as many, with a RuntimeError if there are not; its Jacobian is still that of
its own constraint outputs. -/
theorem C118_last {m : Mdl P} {w : World P} {p : P} (hp : w.params = some p) {con : List String} (h : Accepts m con) {i : Nat} {s : Sol P}
    (hs : w.solvers[i]? = some s) {x : List ℝ} (hx : x.length = (m.explicit s.params s.con).numVar) (jac : ExplicitModel → List ℝ → List ℝ) :
    (con.length = s.con.length →
      (step m w (.new (some con))).constraints m i x = .ok ((m.explicit s.params con).flatImplicit x 0))
    ∧ (con.length ≠ s.con.length → (step m w (.new (some con))).constraints m i x = .error .runtimeError)
    ∧ (step m w (.new (some con))).jacobian jac m i x = .ok (jac (m.explicit s.params s.con) x) := by
  obtain ⟨-, -, h3, -⟩ := C118_construct m hp h
  have k1 : (step m w (.new (some con))).solvers[i]? = some s := (step_keeps m w (.new (some con)) hs).1
  have k2 : (step m w (.new (some con))).algebra = some con := h3
  have n1 : (m.explicit s.params con).numVar + s.con.length = (m.explicit s.params s.con).numVar + con.length := by
    rw [ExplicitModel.numVar_eq, ExplicitModel.numVar_eq]
    simp only [Mdl.explicit, ExplicitModel.nx, ExplicitModel.nu, ExplicitModel.ny]
    omega
  refine ⟨fun e => ?_, fun e => ?_, ?_⟩
  · unfold World.constraints
    rw [k1, k2]
    simp only
    rw [if_pos (by omega)]
  · unfold World.constraints
    rw [k1, k2]
    simp only
    rw [if_neg (by omega)]
  · unfold World.jacobian
    rw [k1]

/-- **C118** (finding: a refused construction). A construction that is refused because of an unknown output leaves the model with the names that were
refused and with symbols instead of its parameters; the constraints of the earlier solvers stay, but setting a scale on them raises KeyError. -/
theorem C118_refused {m : Mdl P} {w : World P} {p : P} (hp : w.params = some p) {con : List String} {n : String}
    (hd : m.states.Nodup ∧ m.inputs.Nodup ∧ con.Nodup) (hn : n ∈ con) (hm : n ∉ m.outputs) :
    (new m w con).2 = .error .keyError ∧ (new m w con).1.con = con ∧ (new m w con).1.params = none
    ∧ ∀ i s, w.solvers[i]? = some s → (∀ k ∈ s.con, k ∈ m.outputs) →
      (∀ x, (new m w con).1.constraints m i x = w.constraints m i x) ∧ ∃ e, (new m w con).1.conScales i = .error e := by
  have h1 : (Solver.inputNames (m.explicit p con)).Nodup := names_nodup hd
  have e : new m w con = ({ w with con := con, params := none }, .error .keyError) := by
    unfold new
    simp only [hp]
    rw [if_neg (not_not.mpr h1), if_pos fun h => hm (h n hn)]
  rw [e]
  refine ⟨rfl, rfl, rfl, fun i s hs hk => ⟨fun x => rfl, ?_⟩⟩
  unfold World.conScales
  simp only [hs]
  have hne : n ∉ s.con := fun hc => hm (hk n hc)
  clear e h1 hd
  induction con with
  | nil => cases hn
  | cons c con ih =>
    rw [List.mapM_cons]
    by_cases hc : c ∈ s.con
    · have hn' : n ∈ con := by
        rcases List.mem_cons.mp hn with rfl | h
        · exact absurd hc hne
        · exact h
      obtain ⟨e, he⟩ := ih hn'
      exact ⟨e, by rw [if_pos hc, he]; rfl⟩
    · exact ⟨.keyError, by rw [if_neg hc]; rfl⟩

/-! ## Example -/

/-- One state `x` with `x_dot = k x`, and the outputs `a = x` and `b = 2 x`. -/
noncomputable def exM : Mdl ℝ where
  states := ["x"]
  inputs := []
  outputs := ["a", "b"]
  residuals := []
  f k x _ _ := [k * x.getD 0 0]
  out _ n x _ _ := if n = "a" then x.getD 0 0 else 2 * x.getD 0 0
  r _ _ _ _ := []

/-- A solver for the output `a` at `x = 1`, `x_dot = 3`, `a = 1`: satisfied, also after the parameter is assigned. -/
example (jac : ExplicitModel → List ℝ → List ℝ) :
    (run exM (fresh [] 3) (.new (some ["a"]) :: [.setParams 5, .new (some ["a"]), .setCon []])).constraints exM 0 ([1] ++ [] ++ ([3] ++ [1]))
      = .ok [0, 0] := by
  refine (C118_own exM (w := fresh [] 3) (p := 3) rfl (con := ["a"]) (by simp [Accepts, exM]) [.setParams 5, .new (some ["a"]), .setCon []]
    (by simp [Op.wants]) (x := [1]) (u := []) (xd := [3]) (y := [1]) rfl rfl rfl rfl jac).1.trans ?_
  simp [exM]

/-- After a solver for `b` is constructed, the same point violates the constraints of the solver for `a`. -/
example : (step exM (run exM (fresh [] 3) [.new (some ["a"])]) (.new (some ["b"]))).constraints exM 0 ([1] ++ [] ++ ([3] ++ [1])) = .ok [0, 1] := by
  have ha : Accepts exM ["a"] := by simp [Accepts, exM]
  obtain ⟨-, h2, -, h4⟩ := C118_construct exM (w := fresh [] 3) (p := 3) rfl ha
  have hs : (run exM (fresh [] 3) [.new (some ["a"])]).solvers[0]? = some ⟨["a"], 3⟩ := h2
  have hp : (run exM (fresh [] 3) [.new (some ["a"])]).params = some 3 := h4
  rw [(C118_last hp (con := ["b"]) (by simp [Accepts, exM]) hs (x := [1] ++ [] ++ ([3] ++ [1])) (by rfl) (fun _ _ => [])).1 rfl,
    flat_parts _ rfl rfl rfl]
  simp [exM, Mdl.explicit]
  norm_num

end Lumos.Shared
