import Verif.Kkt.Solve
import Mathlib.Tactic.NormNum
/-!
# C94: the multipliers that `solve` returns are in the solver's units (witness), and a concrete problem

Minimise `a + b` subject to `b = 1` and `a ≥ 1`.
-/

namespace Lumos.Kkt

open Lumos Lumos.NLP

noncomputable def sumObj (s : List ℝ) : Obj :=
  Obj.stateOf 2 (fun y => y.getD 0 0 + y.getD 1 0) (fun _ => [1, 1]) (fun _ => []) ([], []) s

noncomputable def oneCons (s k : List ℝ) : Cons :=
  Cons.stateOf 2 1 (fun y => [y.getD 1 0 - 1]) (fun _ => [1]) (fun _ _ => []) ([0], [1]) ([], []) s k

theorem two {j : Nat} (h : j < 2) : j = 0 ∨ j = 1 := by omega

theorem pair {y : List ℝ} (h : y.length = 2) : ∃ a b, y = [a, b] := by
  match y, h with
  | [a, b], _ => exact ⟨a, b, rfl⟩

theorem sum_user : UserObj 2 (fun y => y.getD 0 0 + y.getD 1 0) (fun _ => [1, 1]) (fun _ => []) ([], []) Upper := by
  have hg : ∀ y : List ℝ, y.length = 2 → IsGradientAt 2 (fun y => y.getD 0 0 + y.getD 1 0) y
      (fun j => ([1, 1] : List ℝ).getD j 0) := by
    intro y hy j hj
    obtain ⟨a, b, rfl⟩ := pair hy
    rcases two hj with rfl | rfl
    · simpa using (hasDerivAt_id a).add_const b
    · simpa using (hasDerivAt_id b).const_add a
  refine ⟨by simp [StructIn], fun y hy => ⟨rfl, fun _ => hg y hy, rfl, fun _ => IsHessianAt.of_global hy ⟨fun _ j => ([1, 1] : List ℝ).getD j 0, hg, ?_⟩⟩⟩
  intro i j _ _ _
  simpa [assemble] using hasDerivAt_const (y.getD j 0) (([1, 1] : List ℝ).getD i 0)

theorem one_jac : UserJac 2 1 (fun y => [y.getD 1 0 - 1]) (fun _ => [1]) ([0], [1]) := by
  refine ⟨by simp [StructIn], fun y hy => ⟨rfl, rfl, ?_⟩⟩
  intro _ r hr j hj
  obtain ⟨a, b, rfl⟩ := pair hy
  have hr' : r = 0 := by omega
  subst hr'
  rcases two hj with rfl | rfl
  · simpa [assemble] using hasDerivAt_const a (b - 1)
  · simpa [assemble] using (hasDerivAt_id b).sub_const 1

theorem one_hess : UserHess 2 1 (fun y => [y.getD 1 0 - 1]) (fun _ _ => []) ([], []) Upper := by
  refine ⟨by simp [StructIn], fun y lam hy hlam => ⟨rfl, fun _ => IsHessianAt.of_global hy ⟨fun _ j => if j = 1 then lam.getD 0 0 else 0, ?_, ?_⟩⟩⟩
  · intro v hv j hj
    obtain ⟨a, b, rfl⟩ := pair hv
    obtain ⟨l, rfl⟩ : ∃ l, lam = [l] := by
      match lam, hlam with
      | [l], _ => exact ⟨l, rfl⟩
    rcases two hj with rfl | rfl
    · simpa [dot] using hasDerivAt_const a (l * (b - 1))
    · simpa [dot] using ((hasDerivAt_id b).sub_const 1).const_mul l
  · intro i j _ _ _
    simpa [assemble] using hasDerivAt_const (y.getD j 0) (if i = 1 then lam.getD 0 0 else 0)

/-- The problem, with its scales. -/
noncomputable def exProb (s k : List ℝ) : Prob :=
  { Prob.init 2 with objs := [("sum", sumObj s)], cons := [("one", oneCons s k)], scales := s }

theorem ex_reachable {s k : List ℝ} (hs : s.length = 2 ∧ ∀ a ∈ s, a ≠ 0) (hk : k.length = 1 ∧ ∀ a ∈ k, a ≠ 0) :
    Reachable 2 (exProb s k) := by
  have h1 : (List.replicate 2 (1 : ℝ)).length = 2 ∧ ∀ a ∈ List.replicate 2 (1 : ℝ), a ≠ 0 := ones_good 2
  have h11 : (List.replicate 1 (1 : ℝ)).length = 1 ∧ ∀ a ∈ List.replicate 1 (1 : ℝ), a ≠ 0 := ones_good 1
  have go : GoodObj 2 (List.replicate 2 1) (sumObj (List.replicate 2 1)) := ⟨_, _, _, _, rfl, sum_user, h1⟩
  have gc : GoodCons 2 (List.replicate 2 1) (oneCons (List.replicate 2 1) k) :=
    ⟨_, _, _, _, _, _, rfl, one_jac, one_hess, h1, hk⟩
  have so : ∀ s0 s : List ℝ, s.length = 2 → (sumObj s0).setInputScales s = (sumObj s, none) :=
    fun s0 s h => obj_set_eq (by simp [StructIn]) h
  have sc : ∀ s0 s : List ℝ, s0.length = 2 → (s.length = 2 ∧ ∀ a ∈ s, a ≠ 0) →
      (oneCons s0 k).setInputScales s = (oneCons s k, none) :=
    fun s0 s h0 h => run_eq one_jac.1 one_hess.1 h0 hk.1 (.setInput s) h
  have e1 : ((Prob.init 2).step (.addObj "sum" (sumObj (List.replicate 2 1)))).1
      = { Prob.init 2 with objs := [("sum", sumObj (List.replicate 2 1))] } := by
    have := so (List.replicate 2 1) (List.replicate 2 1) h1.1
    simp only [Prob.step, Prob.addObjective, hasKey, Prob.init, List.any_nil, Bool.false_eq_true, if_false, this]
    rfl
  have e2 : (({ Prob.init 2 with objs := [("sum", sumObj (List.replicate 2 1))] } : Prob).step
      (.addCon "one" (oneCons (List.replicate 2 1) k))).1
      = { Prob.init 2 with objs := [("sum", sumObj (List.replicate 2 1))], cons := [("one", oneCons (List.replicate 2 1) k)] } := by
    have := sc (List.replicate 2 1) (List.replicate 2 1) h1.1 h1
    have hn : (oneCons (List.replicate 2 1) k).numIn = 2 := rfl
    simp only [Prob.step, Prob.addConstraints, hasKey, Prob.init, List.any_nil, Bool.false_eq_true, if_false, this, hn, ne_eq,
      not_true_eq_false]
    rfl
  have e3 : (({ Prob.init 2 with objs := [("sum", sumObj (List.replicate 2 1))]
                                 cons := [("one", oneCons (List.replicate 2 1) k)] } : Prob).step (.setScales s)).1
      = exProb s k := by
    simp only [Prob.step, Prob.setScales, applyAll, so _ s hs.1, sc _ s h1.1 hs]
    rfl
  refine ⟨[.addObj "sum" (sumObj (List.replicate 2 1)), .addCon "one" (oneCons (List.replicate 2 1) k), .setScales s],
    ⟨⟨_, go⟩, ⟨_, gc⟩, ?_, trivial⟩, ?_⟩
  · rw [e1, e2]
    exact hs
  unfold Prob.runAll
  simp only [List.foldl_cons, List.foldl_nil]
  rw [e1, e2, e3]

noncomputable def exLb : List EReal := [((1 : ℝ) : EReal), ⊥]
noncomputable def exUb : List EReal := [⊤, ⊤]

theorem ex_cost (s k x : List ℝ) : cost (exProb s k) x = x.getD 0 0 + x.getD 1 0 := by
  simp [cost, exProb, sumObj, Obj.stateOf]

theorem ex_residual (s k x : List ℝ) : residual (exProb s k) x = [x.getD 1 0 - 1] := by
  simp [residual, exProb, oneCons, Cons.stateOf]

theorem ex_conScale (s k : List ℝ) : conScale (exProb s k) = k := by
  simp [conScale, exProb, oneCons, Cons.stateOf]

/-- The exact optimality conditions of the example at `[1, 1]` pin down its multipliers. -/
theorem ex_stationary (s k : List ℝ) (l a b c d : ℝ) :
    Stationary 2 1 (fun _ => 0) (fun _ => 0) (fun _ => 0) (cost (exProb s k)) (residual (exProb s k)) exLb exUb [1, 1]
      ⟨[l], [a, b], [c, d]⟩ ↔ l = -1 ∧ a = 1 ∧ b = 0 ∧ c = 0 ∧ d = 0 := by
  have hc : cost (exProb s k) = fun y => y.getD 0 0 + y.getD 1 0 := funext (ex_cost s k)
  have hr : residual (exProb s k) = fun y => [y.getD 1 0 - 1] := funext (ex_residual s k)
  rw [hc, hr]
  have hg := (sum_user.2 [1, 1] rfl).2.1 trivial
  have hJ := (one_jac.2 [1, 1] rfl).2.2 trivial
  constructor
  · rintro ⟨g, J, h1, h2, h3⟩
    have g0 : g 0 = 1 := by simpa using grad_unique h1 hg (j := 0) (by omega)
    have g1 : g 1 = 1 := by simpa using grad_unique h1 hg (j := 1) (by omega)
    have J0 : J 0 0 = 0 := by simpa [assemble] using jac_unique h2 hJ (r := 0) (j := 0) (by omega) (by omega)
    have J1 : J 0 1 = 1 := by simpa [assemble] using jac_unique h2 hJ (r := 0) (j := 1) (by omega) (by omega)
    have s0 := h3.stationary 0 (by omega)
    have s1 := h3.stationary 1 (by omega)
    have b0 : b = 0 := by
      rcases h3.lower 1 (by omega) with h | ⟨x, h, _⟩
      · simpa using h
      · exact absurd h (by simp [exLb])
    have c0 : c = 0 := by
      rcases h3.upper 0 (by omega) with h | ⟨x, h, _⟩
      · simpa using h
      · exact absurd h (by simp [exUb])
    have d0 : d = 0 := by
      rcases h3.upper 1 (by omega) with h | ⟨x, h, _⟩
      · simpa using h
      · exact absurd h (by simp [exUb])
    have z0 := abs_nonpos_iff.mp s0
    have z1 := abs_nonpos_iff.mp s1
    simp [g0, g1, J0, J1] at z0 z1
    refine ⟨by linarith, by linarith, b0, c0, d0⟩
  · rintro ⟨rfl, rfl, rfl, rfl, rfl⟩
    refine ⟨_, _, hg, hJ, ?_⟩
    refine ⟨⟨rfl, rfl, rfl, rfl⟩, ⟨rfl, ?_⟩, ?_, ?_, ?_, ?_, ?_⟩
    · intro r hr
      have : r = 0 := by omega
      subst this
      simp
    · intro j hj
      rcases two (by simpa using hj) with rfl | rfl
      · simp [exLb, exUb]
      · simp [exLb, exUb]
    · intro j hj
      rcases two hj with rfl | rfl <;> simp
    · intro j hj
      rcases two hj with rfl | rfl <;> simp [assemble]
    · intro j hj
      rcases two hj with rfl | rfl
      · exact Or.inr ⟨1, by simp [exLb], by simp⟩
      · exact Or.inl (by simp)
    · intro j hj
      rcases two hj with rfl | rfl <;> exact Or.inl (by simp)

theorem ex_vmul : vmul [1 / 2, 1 / 5] [2, 5] = ([1, 1] : List ℝ) := by norm_num [vmul]

theorem ex_scales : (([2, 5] : List ℝ).length = 2 ∧ ∀ a ∈ ([2, 5] : List ℝ), a ≠ 0) ∧ ∀ a ∈ ([2, 5] : List ℝ), 0 < a := by
  refine ⟨⟨rfl, ?_⟩, ?_⟩ <;> intro a ha <;> simp only [List.mem_cons, List.not_mem_nil, or_false] at ha <;>
    rcases ha with rfl | rfl <;> norm_num

theorem ex_four : ([4] : List ℝ).length = 1 ∧ ∀ a ∈ ([4] : List ℝ), a ≠ 0 := by
  refine ⟨rfl, ?_⟩
  intro a ha
  simp only [List.mem_cons, List.not_mem_nil, or_false] at ha
  rw [ha]
  norm_num

/-- Non-vacuity of `C94_first_order`: with scales 2, 5 and 4 IPOPT accepts the point `[1/2, 1/5]` with the multipliers
−4 and 2, exactly. -/
theorem ex_accepted : Accepted (exProb [2, 5] [4]) (fun _ => 0) (fun _ => 0) (fun _ => 0) (scaleBounds exLb [2, 5])
    (scaleBounds exUb [2, 5]) [1 / 2, 1 / 5] ⟨[-4], [2, 0], [0, 0]⟩ := by
  have h := C94_first_order (ex_reachable ex_scales.1 ex_four) ex_scales.2 (by simp [exProb]) (by simp [exProb]) (lb := exLb)
    (ub := exUb) rfl rfl (z := [1 / 2, 1 / 5]) rfl trivial (w := ⟨[-4], [2, 0], [0, 0]⟩) rfl rfl rfl (fun _ => 0) (fun _ => 0) (fun _ => 0)
  refine h.mpr ?_
  have e1 : vmul [1 / 2, 1 / 5] (exProb [2, 5] [4]).scales = [1, 1] := ex_vmul
  have e2 : inUnits (exProb [2, 5] [4]) ⟨[-4], [2, 0], [0, 0]⟩ = ⟨[-1], [1, 0], [0, 0]⟩ := by
    unfold inUnits
    rw [ex_conScale]
    norm_num [vdiv, exProb]
  have e3 : (exProb [2, 5] [4]).numCon = 1 := rfl
  rw [e1, e2, e3]
  have := (ex_stationary [2, 5] [4] (-1) 1 0 0 0).mpr ⟨rfl, rfl, rfl, rfl, rfl⟩
  simpa only [zero_div, zero_mul] using this

/-- **C94** (finding). The multipliers in the `info` that `solve` returns are those of the scaled problem: here IPOPT
stops at an exact optimum, and the returned point with the returned multipliers does not satisfy the optimality
conditions of the user's problem. -/
theorem C94_info_is_scaled : ∃ (p : Prob) (lb ub : List EReal) (solver : Prob → SolverInput → Mult → List ℝ × Mult × Int)
    (x : List ℝ) (w : Mult), Reachable 2 p ∧ (∀ a ∈ p.scales, 0 < a) ∧
    (∀ input w0, ∃ z, solver p input w0 = (z, w, 0) ∧
      Accepted p (fun _ => 0) (fun _ => 0) (fun _ => 0) (scaleBounds lb p.scales) (scaleBounds ub p.scales) z w) ∧
    (solveWarm p lb ub none ⟨[], [], []⟩ [0, 0] solver).2 = .ok (x, w, 0) ∧
    Stationary 2 p.numCon (fun _ => 0) (fun _ => 0) (fun _ => 0) (cost p) (residual p) lb ub x (inUnits p w) ∧
    ¬ Stationary 2 p.numCon (fun _ => 0) (fun _ => 0) (fun _ => 0) (cost p) (residual p) lb ub x w := by
  have hr := ex_reachable ex_scales.1 ex_four
  have e2 : inUnits (exProb [2, 5] [4]) ⟨[-4], [2, 0], [0, 0]⟩ = ⟨[-1], [1, 0], [0, 0]⟩ := by
    unfold inUnits
    rw [ex_conScale]
    norm_num [vdiv, exProb]
  refine ⟨exProb [2, 5] [4], exLb, exUb, fun _ _ _ => ([1 / 2, 1 / 5], ⟨[-4], [2, 0], [0, 0]⟩, 0), [1, 1],
    ⟨[-4], [2, 0], [0, 0]⟩, hr, ex_scales.2, fun _ _ => ⟨_, rfl, ex_accepted⟩, ?_, ?_, ?_⟩
  · obtain ⟨input, _, h⟩ := solveWarm_eq hr exLb exUb none ⟨[], [], []⟩ [0, 0]
      (fun _ _ _ => ([1 / 2, 1 / 5], ⟨[-4], [2, 0], [0, 0]⟩, 0))
    rw [h]
    dsimp only
    rw [if_neg (by decide)]
    have e1 : vmul [1 / 2, 1 / 5] (exProb [2, 5] [4]).scales = [1, 1] := ex_vmul
    rw [e1]
  · rw [e2]
    exact (ex_stationary [2, 5] [4] (-1) 1 0 0 0).mpr ⟨rfl, rfl, rfl, rfl, rfl⟩
  · intro h
    have := (ex_stationary [2, 5] [4] (-4) 2 0 0 0).mp h
    exact absurd this.1 (by norm_num)

/-- **C94** (finding). Multipliers saved from a solve are not optimal for the same problem after `set_scales`: a warm
start hands IPOPT the optimal point with multipliers that fail its test. -/
theorem C94_scales_changed : ∃ (s s' z z' : List ℝ) (w : Mult),
    Reachable 2 (exProb s [4]) ∧ exProb s' [4] = ((exProb s [4]).setScales s').1 ∧
    Accepted (exProb s [4]) (fun _ => 0) (fun _ => 0) (fun _ => 0) (scaleBounds exLb s) (scaleBounds exUb s) z w ∧
    vmul z s = vmul z' s' ∧
    ¬ Accepted (exProb s' [4]) (fun _ => 0) (fun _ => 0) (fun _ => 0) (scaleBounds exLb s') (scaleBounds exUb s') z' w := by
  have h3 : (([4, 5] : List ℝ).length = 2 ∧ ∀ a ∈ ([4, 5] : List ℝ), a ≠ 0) ∧ ∀ a ∈ ([4, 5] : List ℝ), 0 < a := by
    refine ⟨⟨rfl, ?_⟩, ?_⟩ <;> intro a ha <;> simp only [List.mem_cons, List.not_mem_nil, or_false] at ha <;>
      rcases ha with rfl | rfl <;> norm_num
  refine ⟨[2, 5], [4, 5], [1 / 2, 1 / 5], [1 / 4, 1 / 5], ⟨[-4], [2, 0], [0, 0]⟩, ex_reachable ex_scales.1 ex_four, ?_,
    ex_accepted, by norm_num [vmul], ?_⟩
  · have so : (sumObj [2, 5]).setInputScales [4, 5] = (sumObj [4, 5], none) := obj_set_eq (by simp [StructIn]) rfl
    have sc : (oneCons [2, 5] [4]).setInputScales [4, 5] = (oneCons [4, 5] [4], none) :=
      run_eq one_jac.1 one_hess.1 rfl ex_four.1 (.setInput [4, 5]) h3.1
    simp only [Prob.setScales, exProb, applyAll, so, sc]
  · intro h
    have h' := (C94_first_order (ex_reachable h3.1 ex_four) h3.2 (by simp [exProb]) (by simp [exProb]) (lb := exLb)
      (ub := exUb) rfl rfl (z := [1 / 4, 1 / 5]) rfl trivial (w := ⟨[-4], [2, 0], [0, 0]⟩) rfl rfl rfl (fun _ => 0) (fun _ => 0)
      (fun _ => 0)).mp h
    have e1 : vmul [1 / 4, 1 / 5] (exProb [4, 5] [4]).scales = [1, 1] := by norm_num [vmul, exProb]
    have e2 : inUnits (exProb [4, 5] [4]) ⟨[-4], [2, 0], [0, 0]⟩ = ⟨[-1], [1 / 2, 0], [0, 0]⟩ := by
      unfold inUnits
      rw [ex_conScale]
      norm_num [vdiv, exProb]
    have e3 : (exProb [4, 5] [4]).numCon = 1 := rfl
    rw [e1, e2, e3] at h'
    simp only [zero_div, zero_mul] at h'
    have := (ex_stationary [4, 5] [4] (-1) (1 / 2) 0 0 0).mp h'
    exact absurd this.2.1 (by norm_num)

end Lumos.Kkt
