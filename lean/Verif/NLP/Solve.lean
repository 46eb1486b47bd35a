import Verif.NLP.CompositeProps
import Mathlib.Data.EReal.Inv
/-!
# `NLPFunction.solve` and C17

The interior-point solver is a parameter: any function from the problem handed over (bounds, starting point,
callbacks) to a point and a status.
-/

namespace Lumos.NLP

open Lumos

/-- What is handed to `cyipopt.Problem` / `nlp.solve`. nlp.py:527-535, 616. -/
structure SolverInput where
  n : Nat
  m : Nat
  lb : List EReal
  ub : List EReal
  x0 : List ℝ

/-- `bounds / scales` with IEEE semantics for infinities (`±inf / positive = ±inf`). nlp.py:531-532. -/
noncomputable def scaleBounds (b : List EReal) (s : List ℝ) : List EReal :=
  List.zipWith (fun (v : EReal) (a : ℝ) => v / (a : EReal)) b s

/-- The constant objective of a feasibility solve. nlp.py:591-598. -/
noncomputable def constObj (n : Nat) : Obj :=
  Obj.stateOf n (fun _ => 0) (fun _ => List.replicate n 0) (fun _ => []) ([], []) (List.replicate n 1)

/-- `NLPFunction.solve`. nlp.py:581-649 (IPOPT options and the parsing of IPOPT's timing file are left out).
Returns the problem after the call and the result: `(solution, status)` or the exception. -/
noncomputable def Prob.solve (p : Prob) (lb ub : List EReal) (initGuess : Option (List ℝ))
    (defaultGuess : List ℝ) (solver : Prob → SolverInput → List ℝ × Int) : Prob × Py (List ℝ × Int) :=
  let r : Prob × Option PyErr :=
    if p.objs.isEmpty then p.addObjective "const_obj" (constObj p.numDec) else (p, none)
  match r with
  | (q, some e) => (q, .error e)
  | (q, none) =>
    let x0 := match initGuess with
      | none => defaultGuess
      | some x => x
    let input : SolverInput :=
      { n := q.numDec, m := q.numCon, lb := scaleBounds lb q.scales, ub := scaleBounds ub q.scales
        x0 := vdiv x0 q.scales }
    let out := solver q input
    if out.2 = -13 then (q, .error .runtimeError)
    else (q, .ok (vmul out.1 q.scales, out.2))

/-! ## C17 -/

/-- `x` satisfies the bounds, entry by entry. -/
def Within (lb ub : List EReal) (x : List ℝ) : Prop :=
  ∀ j, j < x.length → lb.getD j 0 ≤ ((x.getD j 0 : ℝ) : EReal) ∧ ((x.getD j 0 : ℝ) : EReal) ≤ ub.getD j 0

theorem getD_scaleBounds {b : List EReal} {s : List ℝ} (h : b.length = s.length) {j : Nat} (hj : j < s.length) :
    (scaleBounds b s).getD j 0 = b.getD j 0 / ((s.getD j 0 : ℝ) : EReal) := by
  have hb : j < b.length := by omega
  simp [scaleBounds, hj, hb]

/-- **C17** (bounds). For positive scales a scaled point is within the bounds handed to the solver iff the
unscaled point is within the user's bounds. -/
theorem C17_bounds {lb ub : List EReal} {s x : List ℝ} (hs : ∀ a ∈ s, 0 < a) (h1 : lb.length = s.length)
    (h2 : ub.length = s.length) (hx : x.length = s.length) :
    Within (scaleBounds lb s) (scaleBounds ub s) x ↔ Within lb ub (vmul x s) := by
  have key : ∀ j, j < x.length → (((scaleBounds lb s).getD j 0 ≤ ((x.getD j 0 : ℝ) : EReal)
      ∧ ((x.getD j 0 : ℝ) : EReal) ≤ (scaleBounds ub s).getD j 0)
      ↔ (lb.getD j 0 ≤ (((vmul x s).getD j 0 : ℝ) : EReal) ∧ (((vmul x s).getD j 0 : ℝ) : EReal) ≤ ub.getD j 0)) := by
    intro j hj
    have hj' : j < s.length := by omega
    have hpos : 0 < s.getD j 0 := by
      have := hs _ (List.getElem_mem hj')
      simpa [hj'] using this
    have hposE : (0 : EReal) < ((s.getD j 0 : ℝ) : EReal) := by exact_mod_cast hpos
    rw [getD_scaleBounds h1 hj', getD_scaleBounds h2 hj', getD_vmul hx,
      EReal.div_le_iff_le_mul hposE (EReal.coe_ne_top _), EReal.le_div_iff_mul_le hposE (EReal.coe_ne_top _),
      EReal.coe_mul, mul_comm ((s.getD j 0 : ℝ) : EReal)]
  have hl : (vmul x s).length = x.length := by simp [hx]
  constructor
  · intro h j hj
    rw [hl] at hj
    exact (key j hj).mp (h j hj)
  · intro h j hj
    exact (key j hj).mpr (h j (by rw [hl]; exact hj))

variable {D : List ℝ → Prop}

theorem constObj_good (n : Nat) : GoodObj n (List.replicate n 1) (constObj n) D := by
  refine ⟨_, _, _, _, rfl, ⟨by simp [StructIn], ?_⟩, ones_good n⟩
  intro y hy
  refine ⟨by simp, ?_, rfl, fun _ => ?_⟩
  · intro _ j hj
    simpa [hj] using hasDerivAt_const (y.getD j 0) (0 : ℝ)
  · refine (IsHessianAt.zero (n := n) (x := y) (P := Upper) 0).congr hy (fun _ _ => rfl) ?_
    intro i j _ _ _
    simp [assemble]

/-- The problem the solver actually sees: the given one, plus the constant objective if it had none. -/
noncomputable def solvedProb (p : Prob) : Prob :=
  if p.objs.isEmpty then (p.addObjective "const_obj" (constObj p.numDec)).1 else p

theorem solve_eq {n : Nat} {p : Prob} (hp : Reachable n p D) (lb ub : List EReal) (guess : Option (List ℝ))
    (dflt : List ℝ) (solver : Prob → SolverInput → List ℝ × Int) :
    ∃ input : SolverInput,
      input = ⟨n, p.numCon, scaleBounds lb p.scales, scaleBounds ub p.scales, vdiv (guess.getD dflt) p.scales⟩
      ∧ p.solve lb ub guess dflt solver = (solvedProb p,
        if (solver (solvedProb p) input).2 = -13 then .error .runtimeError
        else .ok (vmul (solver (solvedProb p) input).1 p.scales, (solver (solvedProb p) input).2)) := by
  have hI := hp.inv
  have hg : (match guess with | none => dflt | some x => x) = guess.getD dflt := by cases guess <;> rfl
  refine ⟨_, rfl, ?_⟩
  unfold Prob.solve solvedProb
  by_cases he : p.objs.isEmpty = true
  · have ho : p.objs = [] := by simpa using he
    have hgood := constObj_good (D := D) n
    obtain ⟨a1, a2⟩ := hgood.setInput hI.scales
    have e : (constObj n).setInputScales p.scales = (((constObj n).setInputScales p.scales).1, none) := by rw [← a1]
    have e2 : p.addObjective "const_obj" (constObj p.numDec)
        = ({ p with objs := p.objs ++ [("const_obj", ((constObj n).setInputScales p.scales).1)] }, none) := by
      unfold Prob.addObjective
      rw [if_neg (by simp [hasKey, ho]), hI.dec, e]
    rw [if_pos he, if_pos he, e2]
    have hn : ∀ os, ({ p with objs := os } : Prob).numCon = p.numCon := fun _ => rfl
    have hd := hI.dec
    obtain ⟨nd, pc, po, pi, psc⟩ := p
    dsimp only at hd hn ⊢
    subst hd
    simp only [hg, hn]
    split <;> rfl
  · rw [if_neg he, if_neg he]
    simp only [hg, hI.dec]
    split <;> rfl

/-- **C17** (solve). For a reachable problem with positive scales: the starting point handed to the solver
unscales to the user's guess; unless the status is −13, the returned solution is the solver's point unscaled;
if the solver's point respects the bounds it was given, the returned solution respects the user's bounds. -/
theorem C17_solve {n : Nat} {p : Prob} (hp : Reachable n p D) (hpos : ∀ a ∈ p.scales, 0 < a)
    (lb ub : List EReal) (hlb : lb.length = n) (hub : ub.length = n) (x0 : List ℝ) (hx0 : x0.length = n)
    (dflt : List ℝ) (solver : Prob → SolverInput → List ℝ × Int)
    (hlen : ∀ q i, (solver q i).1.length = n) :
    ∃ input : SolverInput,
      vmul input.x0 p.scales = x0 ∧ input.n = n ∧ input.m = p.numCon
      ∧ (∀ z : List ℝ, z.length = n → (Within input.lb input.ub z ↔ Within lb ub (vmul z p.scales)))
      ∧ ((solver (solvedProb p) input).2 ≠ -13 →
          (p.solve lb ub (some x0) dflt solver).2
            = .ok (vmul (solver (solvedProb p) input).1 p.scales, (solver (solvedProb p) input).2)
          ∧ (Within input.lb input.ub (solver (solvedProb p) input).1 →
              ∀ sol st, (p.solve lb ub (some x0) dflt solver).2 = .ok (sol, st) → Within lb ub sol))
      ∧ ((solver (solvedProb p) input).2 = -13 →
          (p.solve lb ub (some x0) dflt solver).2 = .error .runtimeError) := by
  have hI := hp.inv
  obtain ⟨input, hin, hs⟩ := solve_eq hp lb ub (some x0) dflt solver
  have hb : ∀ z : List ℝ, z.length = n → (Within input.lb input.ub z ↔ Within lb ub (vmul z p.scales)) := by
    intro z hz
    rw [hin]
    exact C17_bounds hpos (by rw [hlb, hI.scales.1]) (by rw [hub, hI.scales.1]) (by rw [hz, hI.scales.1])
  refine ⟨input, ?_, by rw [hin], by rw [hin], hb, ?_, ?_⟩
  · rw [hin]
    exact vmul_vdiv_cancel (by simp [hx0, hI.scales.1]) hI.scales.2
  · intro hst
    rw [hs]
    refine ⟨by simp [hst], ?_⟩
    intro hw sol st he
    simp only [hst, if_false, Except.ok.injEq, Prod.mk.injEq] at he
    rw [← he.1]
    exact (hb _ (hlen _ _)).mp hw
  · intro hst
    rw [hs]
    simp [hst]

/-- **C17** (default guess). Without a guess the default one is used, scaled in the same way. -/
theorem C17_default_guess {n : Nat} {p : Prob} (hp : Reachable n p D) (lb ub : List EReal) (dflt : List ℝ)
    (solver : Prob → SolverInput → List ℝ × Int) :
    p.solve lb ub none dflt solver = p.solve lb ub (some dflt) dflt solver := by
  obtain ⟨_, h1, h2⟩ := solve_eq hp lb ub none dflt solver
  obtain ⟨_, h3, h4⟩ := solve_eq hp lb ub (some dflt) dflt solver
  rw [h2, h4, h1, h3]
  rfl

/-- **C15** (feasibility solve). Solving a problem without objectives gives it exactly one objective, whose
value, gradient and Hessian are zero everywhere; solving again adds nothing. -/
theorem C15_feasibility_solve {n : Nat} {p : Prob} (hp : Reachable n p D) (h : p.objs = []) (lb ub : List EReal)
    (guess : Option (List ℝ)) (dflt : List ℝ) (solver : Prob → SolverInput → List ℝ × Int) :
    let q := (p.solve lb ub guess dflt solver).1
    q.objs.map Prod.fst = ["const_obj"] ∧ q.cons = p.cons ∧ q.scales = p.scales
      ∧ (∀ x : List ℝ, q.objective x = .ok 0)
      ∧ (∀ x : List ℝ, x.length = n → q.gradient x = .ok (List.replicate n 0))
      ∧ (∀ o ∈ q.objs, ∀ x, o.2.hessian x = [])
      ∧ Reachable n q D ∧ solvedProb q = q := by
  have hI := hp.inv
  obtain ⟨_, _, hs⟩ := solve_eq hp lb ub guess dflt solver
  have e : (constObj n).setInputScales p.scales
      = (Obj.stateOf n (fun _ => 0) (fun _ => List.replicate n 0) (fun _ => []) ([], []) p.scales, none) :=
    obj_set_eq (by simp [StructIn]) hI.scales.1
  have hq : (p.solve lb ub guess dflt solver).1 = { p with objs := [("const_obj",
      Obj.stateOf n (fun _ => 0) (fun _ => List.replicate n 0) (fun _ => []) ([], []) p.scales)] } := by
    rw [hs]
    unfold solvedProb Prob.addObjective
    rw [if_pos (by simp [h]), if_neg (by simp [hasKey, h]), hI.dec, e]
    simp [h]
  intro q
  have hq' : q = { p with objs := [("const_obj",
      Obj.stateOf n (fun _ => 0) (fun _ => List.replicate n 0) (fun _ => []) ([], []) p.scales)] } := hq
  rw [hq']
  refine ⟨rfl, rfl, rfl, ?_, ?_, ?_, ?_, ?_⟩
  · intro x; simp [Prob.objective, Obj.objective, Obj.stateOf]
  · intro x hx
    simp only [Prob.gradient, List.isEmpty_cons, Bool.false_eq_true, if_false, List.map_cons, List.map_nil, sumRows,
      List.foldl_cons, List.foldl_nil, Obj.gradient, Obj.stateOf, hI.dec]
    congr 1
    have hsl := hI.scales.1
    apply List.ext_getElem
    · simp [vmul, hsl]
    · intro i _ _
      simp [vmul]
  · intro o ho x
    simp only [List.mem_singleton] at ho
    subst ho
    simp [Obj.hessian, Obj.stateOf, vdiv]
  · obtain ⟨ops, ho, rfl⟩ := hp
    refine ⟨ops ++ [.addObj "const_obj" (constObj n)], ?_, ?_⟩
    · have happ : ∀ (p : Prob) (a b : List Op), GoodHistory p a D → GoodHistory (p.runAll a) b D →
          GoodHistory p (a ++ b) D := by
        intro p a
        induction a generalizing p with
        | nil => intro b _ hb; exact hb
        | cons o os ih => intro b ha hb; exact ⟨ha.1, ih _ b ha.2 hb⟩
      refine happ _ _ _ ho ⟨⟨List.replicate n 1, ?_⟩, trivial⟩
      rw [hI.dec]
      exact constObj_good n
    · have e3 : (Prob.init n).runAll (ops ++ [.addObj "const_obj" (constObj n)])
          = (((Prob.init n).runAll ops).addObjective "const_obj" (constObj n)).1 := by
        unfold Prob.runAll
        rw [List.foldl_append]
        rfl
      rw [e3]
      generalize (Prob.init n).runAll ops = r at *
      unfold Prob.addObjective
      rw [if_neg (by simp [hasKey, h]), e]
      simp [h]
  · simp [solvedProb]

/-- Non-vacuity: positive non-unit scales, one-sided bounds. -/
example : Within (scaleBounds [⊥, (2 : ℝ)] [4, 2]) (scaleBounds [(8 : ℝ), ⊤] [4, 2]) [1, 5] := by
  refine (C17_bounds (s := [4, 2]) (x := [1, 5]) (by simp) (by simp) (by simp) (by simp)).mpr ?_
  intro j hj
  have hj' : j = 0 ∨ j = 1 := by
    have : j < 2 := by simpa [vmul] using hj
    omega
  rcases hj' with rfl | rfl
  · simp only [vmul, List.zipWith_cons_cons, List.getD_cons_zero]
    refine ⟨bot_le, ?_⟩
    norm_cast
  · simp only [vmul, List.zipWith_cons_cons, List.getD_cons_succ, List.getD_cons_zero]
    refine ⟨?_, le_top⟩
    norm_cast

end Lumos.NLP
