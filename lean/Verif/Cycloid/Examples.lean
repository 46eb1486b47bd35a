import Verif.Cycloid.Upper
/-!
# C93: the target of the example
-/

namespace Lumos.Cycloid

open Lumos DecVar DecVar.Layout Bounds Ocp Lumos.Trans NLP Sim Real Set

/-- **C93** (the example). For the target of the example, one metre ahead and 0.65 below, the angle is below half a turn, so the bead goes
down all the way, and the time lies strictly within the bounds of the problem: with Newton's method returning the angle, on enough intervals
the least objective is within any tolerance of the time that `cycloid` returns. -/
theorem C93_example : ∃ (newton : (ℝ → ℝ) → ℝ → Py ℝ) (xs ys : List ℝ) (T : ℝ), cycloid newton 1 (-0.65) 100 9.81 = .ok (xs, ys, T) ∧
    (∀ φ, newton (equation 1 (-0.65)) (π / 2) = .ok φ → equation 1 (-0.65) φ = 0 ∧ 0 < φ ∧ φ < π) ∧ 0.36 < T ∧ T < 0.58 ∧
    ∀ ε, 0 < ε → ∃ n0 : Nat, ∀ n, n0 ≤ n → ∃ S b, brachSetup 9.81 true (fun v _ => timeJac 9.81 v) (fun v lam _ => timeHess 9.81 v lam)
        "jax" "Trapezoidal" [] n none 1 (-0.65) = .ok S ∧ S.build = .ok b ∧
      (∀ x : List ℝ, x.length = S.c.o.L.numDec → b.Feasible (vdiv x b.prob.scales) → Within b.bounds.lb b.bounds.ub x →
        ∃ T', b.prob.objective (vdiv x b.prob.scales) = .ok T' ∧ T - ε < T') ∧
      ∃ (x : List ℝ) (T' : ℝ), x.length = S.c.o.L.numDec ∧ b.Feasible (vdiv x b.prob.scales) ∧ Within b.bounds.lb b.bounds.ub x ∧
        b.prob.objective (vdiv x b.prob.scales) = .ok T' ∧ |T' - T| < ε := by
  have hp := pi_pos
  have hd : (-0.65 : ℝ) < 0 := by norm_num
  obtain ⟨φ, ⟨⟨h0, h1⟩, hr⟩, -⟩ := C93_root (dx := 1) one_pos hd
  obtain ⟨q0, e1, f1⟩ := root_facts one_pos hd h0 hr
  have hφ : φ < π := by
    by_contra hc
    push Not at hc
    have := ratio_mono.monotoneOn (show π ∈ Ioo 0 (2 * π) from ⟨hp, by linarith⟩) ⟨h0, h1⟩ hc
    have hq : ratio π = π / 2 := by unfold ratio; simp; ring
    rw [hq] at this
    nlinarith [pi_gt_d2]
  set T := φ * √(-(-0.65) / (1 - cos φ) / 9.81) with hT
  have hT2 : T ^ 2 = φ ^ 2 / (1 - cos φ) * (0.65 / 9.81) := by
    rw [hT, mul_pow, sq_sqrt (by positivity)]
    ring
  have T0 : 0 ≤ T := by positivity
  have lo : 2 ≤ φ ^ 2 / (1 - cos φ) := by
    rw [le_div_iff₀ q0]
    nlinarith [one_sub_sq_div_two_le_cos (x := φ)]
  have hi : φ ^ 2 / (1 - cos φ) ≤ 5 := by
    have e := cos_half φ
    have hs := mul_le_sin (x := φ / 2) (by linarith) (by linarith)
    rw [div_le_iff₀ q0]
    have h2 : φ / π ≤ sin (φ / 2) := by
      refine le_trans (le_of_eq ?_) hs
      field_simp
    have h3 : (φ / π) ^ 2 ≤ sin (φ / 2) ^ 2 := pow_le_pow_left₀ (by positivity) h2 2
    have h4 : φ ^ 2 = π ^ 2 * (φ / π) ^ 2 := by field_simp
    have h5 : π ^ 2 ≤ 10 := by nlinarith [pi_lt_d2, pi_gt_three]
    rw [e, h4]
    nlinarith [sq_nonneg (φ / π)]
  have b0 : 0.36 < T := by
    refine lt_of_pow_lt_pow_left₀ 2 T0 ?_
    rw [hT2]
    calc (0.36 : ℝ) ^ 2 < 2 * (0.65 / 9.81) := by norm_num
      _ ≤ _ := mul_le_mul_of_nonneg_right lo (by norm_num)
  have b1 : T < 0.58 := by
    refine lt_of_pow_lt_pow_left₀ 2 (by norm_num) ?_
    rw [hT2]
    calc _ ≤ 5 * (0.65 / 9.81) := mul_le_mul_of_nonneg_right hi (by norm_num)
      _ < (0.58 : ℝ) ^ 2 := by norm_num
  have hc : cycloid (fun _ _ => .ok φ) 1 (-0.65) 100 9.81 = .ok ((linspace φ 100).map fun t => -(-0.65) / (1 - cos φ) * (t - sin t),
      (linspace φ 100).map fun t => -(-(-0.65) / (1 - cos φ) * (1 - cos t)), T) := by
    unfold cycloid
    rw [if_neg one_ne_zero]
    rfl
  refine ⟨fun _ _ => .ok φ, _, _, T, hc, ?_, b0, b1, ?_⟩
  · intro ψ e
    cases e
    exact ⟨hr, h0, hφ⟩
  · intro ε hε
    refine C93_converges (time_DenseJac _) (time_DenseHess _) (by norm_num) one_pos hd (Or.inl rfl) hc ?_ (by linarith) (by linarith) hε
    intro ψ e
    cases e
    exact ⟨hr, h0, h1⟩

/-- A target for which the equation has a solution above a full turn: the curve of one and a half arches. -/
example : equation (3 * π) (-2) (3 * π) = 0 ∧ 2 * π ≤ 3 * π := by
  have hp := pi_pos
  have h1 : cos (3 * π) = -1 := by rw [show 3 * π = π + 2 * π by ring, cos_add_two_pi, cos_pi]
  have h2 : sin (3 * π) = 0 := by rw [show 3 * π = π + 2 * π by ring, sin_add_two_pi, sin_pi]
  refine ⟨?_, by linarith⟩
  unfold equation
  rw [h1, h2]
  field_simp
  ring

/-- **C93** (a target straight down). With `dx = 0` the function raises ZeroDivisionError. -/
theorem C93_straight_down (newton : (ℝ → ℝ) → ℝ → Py ℝ) (dy g : ℝ) (N : Nat) : cycloid newton 0 dy N g = .error .zeroDivisionError := by
  unfold cycloid
  rw [if_pos rfl]

end Lumos.Cycloid
