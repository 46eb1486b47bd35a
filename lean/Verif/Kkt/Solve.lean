import Verif.Kkt.More
/-!
# C94: the answer of `solve`, and the multipliers it returns
-/

namespace Lumos.Kkt

open Lumos Lumos.NLP

variable {n : Nat} {p : Prob} {A : List ℝ → Prop}

/-- Leaving the multipliers out gives `Prob.solve`. -/
theorem solveWarm_forget (p : Prob) (lb ub : List EReal) (guess : Option (List ℝ)) (w : Mult) (dflt : List ℝ)
    (solver : Prob → SolverInput → Mult → List ℝ × Mult × Int) :
    (p.solve lb ub guess dflt fun q i => ((solver q i w).1, (solver q i w).2.2)) =
      ((solveWarm p lb ub guess w dflt solver).1,
        (solveWarm p lb ub guess w dflt solver).2.map fun r => (r.1, r.2.2)) := by
  unfold Prob.solve solveWarm
  dsimp only
  generalize (if p.objs.isEmpty = true then p.addObjective "const_obj" (constObj p.numDec) else (p, none)) = r
  obtain ⟨q, e⟩ := r
  cases e with
  | some e => rfl
  | none =>
    cases guess <;>
    · simp only [Option.getD_none, Option.getD_some]
      split <;> simp only [Except.map]

/-- The problem the solver sees is reachable, has an objective, and is the user's problem. -/
theorem solved_facts (hp : Reachable n p A) : Reachable n (solvedProb p) A ∧ (solvedProb p).objs ≠ [] ∧
    (solvedProb p).cons = p.cons ∧ (solvedProb p).scales = p.scales ∧ ∀ x, cost (solvedProb p) x = cost p x := by
  by_cases he : p.objs = []
  · have h := C15_feasibility_solve hp he [] [] none [] fun _ _ => ([], 0)
    obtain ⟨_, _, e⟩ := solve_eq hp [] [] none [] fun _ _ => ([], 0)
    rw [e] at h
    dsimp only at h
    refine ⟨h.2.2.2.2.2.2.1, ?_, h.2.1, h.2.2.1, fun x => ?_⟩
    · intro h0
      have := h.1
      rw [h0] at this
      simp at this
    · have hI := hp.inv
      have e : (constObj n).setInputScales p.scales
          = (Obj.stateOf n (fun _ => 0) (fun _ => List.replicate n 0) (fun _ => []) ([], []) p.scales, none) :=
        obj_set_eq (by simp [StructIn]) hI.scales.1
      unfold solvedProb Prob.addObjective
      rw [if_pos (by simp [he]), if_neg (by simp [hasKey, he]), hI.dec, e]
      simp [cost, he, Obj.stateOf]
  · have e : solvedProb p = p := by
      unfold solvedProb
      rw [if_neg (by simpa using he)]
    rw [e]
    exact ⟨hp, he, rfl, rfl, fun _ => rfl⟩

theorem solveWarm_eq (hp : Reachable n p A) (lb ub : List EReal) (guess : Option (List ℝ)) (w : Mult)
    (dflt : List ℝ) (solver : Prob → SolverInput → Mult → List ℝ × Mult × Int) :
    ∃ input : SolverInput,
      input = ⟨n, p.numCon, scaleBounds lb p.scales, scaleBounds ub p.scales, vdiv (guess.getD dflt) p.scales⟩
      ∧ solveWarm p lb ub guess w dflt solver = (solvedProb p,
        if (solver (solvedProb p) input w).2.2 = -13 then .error .runtimeError
        else .ok (vmul (solver (solvedProb p) input w).1 p.scales, (solver (solvedProb p) input w).2.1,
          (solver (solvedProb p) input w).2.2)) := by
  have hI := hp.inv
  have hf := solved_facts hp
  refine ⟨_, rfl, ?_⟩
  unfold solveWarm
  have hr : (if p.objs.isEmpty then p.addObjective "const_obj" (constObj p.numDec) else (p, none)) = (solvedProb p, none) := by
    unfold solvedProb
    split
    · rename_i he
      have ho : p.objs = [] := by simpa using he
      have a1 := ((constObj_good (D := A) n).setInput hI.scales).1
      have e : (constObj n).setInputScales p.scales = (((constObj n).setInputScales p.scales).1, none) := by rw [← a1]
      unfold Prob.addObjective
      rw [if_neg (by simp [hasKey, ho]), hI.dec, e]
    · rfl
  have hnum : (solvedProb p).numCon = p.numCon := by unfold Prob.numCon; rw [hf.2.2.1]
  have hdec : (solvedProb p).numDec = n := hf.1.inv.dec
  rw [hr]
  dsimp only
  rw [hnum, hdec, hf.2.2.2.1]
  split <;> rfl

/-- **C94** (solve). If the point and multipliers that IPOPT stops at pass its test, then `solve` returns the point
in the user's units, and with the returned multipliers taken to the user's units it satisfies the optimality
conditions of the user's problem. If IPOPT's point is a (local) minimiser, so is the returned point. -/
theorem C94_solve (hp : Reachable n p A) (hpos : ∀ a ∈ p.scales, 0 < a) (hc : p.cons ≠ []) {lb ub : List EReal}
    (hlb : lb.length = n) (hub : ub.length = n) (guess : Option (List ℝ)) (w0 : Mult) (dflt : List ℝ)
    (solver : Prob → SolverInput → Mult → List ℝ × Mult × Int) :
    ∃ input : SolverInput, ∃ z w st, solver (solvedProb p) input w0 = (z, w, st) ∧
      (st ≠ -13 → (solveWarm p lb ub guess w0 dflt solver).2 = .ok (vmul z p.scales, w, st)) ∧
      ∀ dual prim comp, z.length = n → w.lam.length = p.numCon → w.zl.length = n → w.zu.length = n →
      (A (vmul z p.scales) → Accepted (solvedProb p) dual prim comp input.lb input.ub z w →
        Stationary n p.numCon (fun j => dual j / p.scales.getD j 0) (fun r => prim r * |(conScale p).getD r 0|) comp
          (cost p) (residual p) lb ub (vmul z p.scales) (inUnits p w)) ∧
      ∃ f : List ℝ → ℝ, (∀ y, (solvedProb p).objective y = .ok (f y)) ∧
        (Best n f (Admitted (solvedProb p) lb ub) z → Best n (cost p) (Wanted p lb ub) (vmul z p.scales)) ∧
        (LocallyBest n f (Admitted (solvedProb p) lb ub) z → LocallyBest n (cost p) (Wanted p lb ub) (vmul z p.scales)) := by
  obtain ⟨input, hin, hs⟩ := solveWarm_eq hp lb ub guess w0 dflt solver
  obtain ⟨r1, r2, r3, r4, r5⟩ := solved_facts hp
  have hcost : cost (solvedProb p) = cost p := funext r5
  have hres : residual (solvedProb p) = residual p := by unfold residual; rw [r3]
  have hcs : conScale (solvedProb p) = conScale p := by unfold conScale; rw [r3]
  have hnum : (solvedProb p).numCon = p.numCon := by unfold Prob.numCon; rw [r3]
  have hun : ∀ w, inUnits (solvedProb p) w = inUnits p w := by intro w; unfold inUnits; rw [hcs, r4]
  have hwant : Wanted (solvedProb p) lb ub = Wanted p lb ub := by funext x; unfold Wanted; rw [hres]
  refine ⟨input, _, _, _, rfl, ?_, ?_⟩
  · intro hst
    rw [hs]
    dsimp only
    rw [if_neg hst]
  · intro dual prim comp hz h1 h2 h3
    constructor
    · intro hA ha
      have hl : input.lb = scaleBounds lb (solvedProb p).scales := by rw [hin, r4]
      have hu : input.ub = scaleBounds ub (solvedProb p).scales := by rw [hin, r4]
      rw [hl, hu] at ha
      have := (C94_first_order r1 (by rw [r4]; exact hpos) (by rw [r3]; exact hc) r2 hlb hub hz (by rw [r4]; exact hA) (by rw [hnum]; exact h1) h2 h3
        dual prim comp).mp ha
      rwa [hcost, hres, hcs, hnum, hun, r4] at this
    · obtain ⟨f, a1, a2, a3⟩ := C94_best r1 (by rw [r4]; exact hpos) (by rw [r3]; exact hc) r2 hlb hub hz
      rw [hcost, hwant, r4] at a2 a3
      exact ⟨f, a1, a2.mp, a3.mp⟩

/-- **C94** (warm start). Solving again from the returned point and the returned multipliers hands IPOPT the very
point and multipliers it stopped at. -/
theorem C94_warm_start (hp : Reachable n p A) (lb ub : List EReal) (guess : Option (List ℝ)) (w0 : Mult) (dflt : List ℝ)
    (solver : Prob → SolverInput → Mult → List ℝ × Mult × Int) {x : List ℝ} {w : Mult} {st : Int}
    (h : (solveWarm p lb ub guess w0 dflt solver).2 = .ok (x, w, st))
    (hlen : ∀ q i v, (solver q i v).1.length = n) (solver' : Prob → SolverInput → Mult → List ℝ × Mult × Int) :
    ∃ i i' : SolverInput, i'.x0 = (solver (solvedProb p) i w0).1 ∧ w = (solver (solvedProb p) i w0).2.1 ∧
      i'.lb = i.lb ∧ i'.ub = i.ub ∧
      solveWarm p lb ub (some x) w dflt solver' = (solvedProb p,
        if (solver' (solvedProb p) i' w).2.2 = -13 then .error .runtimeError
        else .ok (vmul (solver' (solvedProb p) i' w).1 p.scales, (solver' (solvedProb p) i' w).2.1,
          (solver' (solvedProb p) i' w).2.2)) := by
  obtain ⟨i, hi, hs⟩ := solveWarm_eq hp lb ub guess w0 dflt solver
  obtain ⟨i', hi', hs'⟩ := solveWarm_eq hp lb ub (some x) w dflt solver'
  rw [hs] at h
  dsimp only at h
  split at h
  · exact absurd h (fun h => nomatch h)
  · have e := Except.ok.inj h
    have e1 : vmul (solver (solvedProb p) i w0).1 p.scales = x := congrArg Prod.fst e
    have e2 : (solver (solvedProb p) i w0).2.1 = w := congrArg (fun q => q.2.1) e
    refine ⟨i, i', ?_, e2.symm, by rw [hi, hi'], by rw [hi, hi'], hs'⟩
    rw [hi']
    dsimp only [Option.getD_some]
    rw [← e1]
    exact vdiv_vmul_cancel (by rw [hlen, hp.inv.scales.1]) hp.inv.scales.2

end Lumos.Kkt
