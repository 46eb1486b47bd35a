import Mathlib.Analysis.SpecialFunctions.Trigonometric.Bounds
import Mathlib.Analysis.SpecialFunctions.Trigonometric.Deriv
import Mathlib.Analysis.Calculus.Deriv.MeanValue
import Mathlib.Analysis.Real.Pi.Bounds
/-!
# The equation of the cycloid through a point (lemmas for C93)
-/

namespace Lumos.Cycloid

open Real Set

theorem one_sub_cos_pos {ψ : ℝ} (h0 : 0 < ψ) (h1 : ψ < 2 * π) : 0 < 1 - cos ψ := by
  have hs : 0 < sin (ψ / 2) := sin_pos_of_pos_of_lt_pi (by linarith) (by linarith)
  have e : cos ψ = 1 - 2 * sin (ψ / 2) ^ 2 := by
    have := cos_two_mul (ψ / 2)
    rw [mul_div_cancel₀ ψ two_ne_zero] at this
    rw [this, cos_sq']; ring
  rw [e]
  nlinarith [pow_pos hs 2]

theorem mul_cos_lt_sin {t : ℝ} (h0 : 0 < t) (h1 : t < π) : t * cos t < sin t := by
  by_cases h : t < π / 2
  · have hc : 0 < cos t := cos_pos_of_mem_Ioo ⟨by linarith, h⟩
    have := lt_tan h0 h
    rwa [tan_eq_sin_div_cos, lt_div_iff₀ hc] at this
  · have hc : cos t ≤ 0 := cos_nonpos_of_pi_div_two_le_of_le (by linarith) (by linarith)
    have hs : 0 < sin t := sin_pos_of_pos_of_lt_pi h0 h1
    nlinarith

/-- The horizontal over the vertical extent of an arc of a cycloid. -/
noncomputable def ratio (ψ : ℝ) : ℝ := (ψ - sin ψ) / (1 - cos ψ)

theorem sin_half (ψ : ℝ) : sin ψ = 2 * sin (ψ / 2) * cos (ψ / 2) := by
  have := sin_two_mul (ψ / 2)
  rwa [mul_div_cancel₀ ψ two_ne_zero] at this

theorem cos_half (ψ : ℝ) : cos ψ = 1 - 2 * sin (ψ / 2) ^ 2 := by
  have := cos_two_mul (ψ / 2)
  rw [mul_div_cancel₀ ψ two_ne_zero] at this
  rw [this, cos_sq']; ring

theorem ratio_deriv {ψ : ℝ} (h0 : 0 < ψ) (h1 : ψ < 2 * π) :
    HasDerivAt ratio (((1 - cos ψ) * (1 - cos ψ) - (ψ - sin ψ) * sin ψ) / (1 - cos ψ) ^ 2) ψ := by
  have a : HasDerivAt (fun t => t - sin t) (1 - cos ψ) ψ := (hasDerivAt_id' ψ).sub (hasDerivAt_sin ψ)
  have b : HasDerivAt (fun t => 1 - cos t) (sin ψ) ψ := by
    simpa using (hasDerivAt_cos ψ).const_sub 1
  exact a.div b (one_sub_cos_pos h0 h1).ne'

theorem ratio_mono : StrictMonoOn ratio (Ioo 0 (2 * π)) := by
  refine strictMonoOn_of_deriv_pos (convex_Ioo _ _) (fun ψ h => (ratio_deriv h.1 h.2).continuousAt.continuousWithinAt) ?_
  rw [interior_Ioo]
  intro ψ h
  rw [(ratio_deriv h.1 h.2).deriv]
  refine div_pos ?_ (pow_pos (one_sub_cos_pos h.1 h.2) 2)
  have e : (1 - cos ψ) * (1 - cos ψ) - (ψ - sin ψ) * sin ψ = 2 * sin (ψ / 2) * (2 * (sin (ψ / 2) - ψ / 2 * cos (ψ / 2))) := by
    have e1 := sin_sq_add_cos_sq ψ
    have : (1 - cos ψ) * (1 - cos ψ) - (ψ - sin ψ) * sin ψ = 2 * (1 - cos ψ) - ψ * sin ψ := by linear_combination e1
    rw [this, cos_half ψ, sin_half ψ]
    ring
  rw [e]
  have hs : 0 < sin (ψ / 2) := sin_pos_of_pos_of_lt_pi (by linarith [h.1]) (by linarith [h.2])
  have := mul_cos_lt_sin (t := ψ / 2) (by linarith [h.1]) (by linarith [h.2])
  exact mul_pos (by linarith) (by linarith)

/-- The equation has one solution below a full turn, for every target. -/
theorem root_exists {r : ℝ} (hr : 0 < r) : ∃ ψ ∈ Ioo 0 (2 * π), ratio ψ = r := by
  have hp := pi_pos
  set k : ℝ → ℝ := fun ψ => (ψ - sin ψ) - r * (1 - cos ψ) with hk
  have hc : Continuous k := by fun_prop
  set p := min 1 (r / 2) with hpd
  have p0 : 0 < p := lt_min one_pos (by linarith)
  have p1 : p ≤ 1 := min_le_left _ _
  have p2 : p ≤ r / 2 := min_le_right _ _
  have kp : k p < 0 := by
    have a := sin_gt_sub_cube p0
    have b := sin_gt_sub_cube (x := p / 2) (by linarith)
    have c : 9 / 10 * (p / 2) ≤ sin (p / 2) := by nlinarith [mul_pos p0 p0, mul_le_mul_of_nonneg_right p1 p0.le]
    have e : 1 / 5 * p ^ 2 ≤ 1 - cos p := by
      rw [cos_half p]
      nlinarith [mul_le_mul c c (by positivity) (by linarith)]
    have f : r * (1 / 5 * p ^ 2) ≤ r * (1 - cos p) := mul_le_mul_of_nonneg_left e hr.le
    have h : p ^ 3 / 6 < r * (1 / 5 * p ^ 2) := by
      have : p * p ^ 2 ≤ r / 2 * p ^ 2 := mul_le_mul_of_nonneg_right p2 (by positivity)
      nlinarith [mul_pos hr (pow_pos p0 2)]
    simp only [hk]
    linarith
  have k2 : 0 < k (2 * π) := by simp [hk, hp]
  have hle : p ≤ 2 * π := by linarith [pi_gt_three]
  obtain ⟨ψ, h1, h2⟩ := intermediate_value_Icc hle hc.continuousOn ⟨kp.le, k2.le⟩
  have hψ : ψ ≠ 2 * π := by rintro rfl; linarith
  have h0 : 0 < ψ := lt_of_lt_of_le p0 h1.1
  have h3 : ψ < 2 * π := lt_of_le_of_ne h1.2 hψ
  refine ⟨ψ, ⟨h0, h3⟩, ?_⟩
  unfold ratio
  rw [div_eq_iff (one_sub_cos_pos h0 h3).ne']
  simp only [hk] at h2
  linarith

/-- The bound that the arc of angle `ψ` gives on the duration of a slide to a point at distance `X` where a bead has the speed `w`. -/
noncomputable def gauge (g X w ψ : ℝ) : ℝ := X / w * sin (ψ / 2) + w / (4 * g) * ((ψ + sin ψ) / sin (ψ / 2))

theorem half_pos {ψ : ℝ} (h0 : 0 < ψ) (h1 : ψ < 2 * π) : 0 < sin (ψ / 2) :=
  sin_pos_of_pos_of_lt_pi (by linarith) (by linarith)

theorem gauge_deriv {g X w ψ : ℝ} (hg : 0 < g) (hw : 0 < w) (h0 : 0 < ψ) (h1 : ψ < 2 * π) :
    HasDerivAt (gauge g X w) (cos (ψ / 2) / (2 * w) * (X - w ^ 2 / (2 * g) * ratio ψ)) ψ := by
  have hs := half_pos h0 h1
  have a : HasDerivAt (fun t => sin (t / 2)) (cos (ψ / 2) * (1 / 2)) ψ :=
    ((hasDerivAt_id' ψ).div_const 2).sin
  have b : HasDerivAt (fun t => t + sin t) (1 + cos ψ) ψ := (hasDerivAt_id' ψ).add (hasDerivAt_sin ψ)
  refine ((a.const_mul (X / w)).add ((b.div a hs.ne').const_mul (w / (4 * g)))).congr_deriv ?_
  have e1 : 1 - cos ψ = 2 * sin (ψ / 2) ^ 2 := by rw [cos_half]; ring
  have e2 : 1 + cos ψ = 2 * cos (ψ / 2) ^ 2 := by rw [cos_half, cos_sq']; ring
  unfold ratio
  rw [e1, e2, sin_half ψ]
  generalize sin (ψ / 2) = s at *
  generalize cos (ψ / 2) = c at *
  field_simp
  ring

theorem gauge_root {g X w ψ : ℝ} (hg : 0 < g) (hw : 0 < w) (h0 : 0 < ψ) (h1 : ψ < 2 * π)
    (hr : X = w ^ 2 / (2 * g) * ratio ψ) : gauge g X w ψ = w / (2 * g) * (ψ / sin (ψ / 2)) := by
  have hs := half_pos h0 h1
  have e1 : 1 - cos ψ = 2 * sin (ψ / 2) ^ 2 := by rw [cos_half]; ring
  rw [hr]
  unfold gauge ratio
  rw [e1]
  field_simp
  ring

/-- Beyond half a turn, and beyond the solution, the bound grows. -/
theorem gauge_mono {g X w θ : ℝ} (hg : 0 < g) (hw : 0 < w) (h0 : 0 < θ) (h1 : θ < 2 * π) (hr : X = w ^ 2 / (2 * g) * ratio θ)
    {a b : ℝ} (ha : π ≤ a) (hθ : θ ≤ a) (hab : a ≤ b) (hb : b < 2 * π) : gauge g X w a ≤ gauge g X w b := by
  have hp := pi_pos
  have hm : MonotoneOn (gauge g X w) (Ico (max π θ) (2 * π)) := by
    refine monotoneOn_of_deriv_nonneg (convex_Ico _ _) (fun ψ h => ?_) (fun ψ h => ?_) (fun ψ h => ?_)
    · have : π ≤ ψ := (le_max_left _ _).trans h.1
      exact (gauge_deriv hg hw (by linarith) h.2).continuousAt.continuousWithinAt
    · rw [interior_Ico] at h ⊢
      have : π ≤ ψ := (le_max_left _ _).trans h.1.le
      exact (gauge_deriv hg hw (by linarith) h.2).differentiableAt.differentiableWithinAt
    · rw [interior_Ico] at h
      have h2 : π ≤ ψ := (le_max_left _ _).trans h.1.le
      have h3 : θ ≤ ψ := (le_max_right _ _).trans h.1.le
      rw [(gauge_deriv hg hw (by linarith) h.2).deriv]
      have hc : cos (ψ / 2) ≤ 0 := cos_nonpos_of_pi_div_two_le_of_le (by linarith) (by linarith [h.2])
      have hq : ratio θ ≤ ratio ψ := ratio_mono.monotoneOn ⟨h0, h1⟩ ⟨by linarith, h.2⟩ h3
      refine mul_nonneg_of_nonpos_of_nonpos (div_nonpos_of_nonpos_of_nonneg hc (by positivity)) ?_
      rw [hr]
      have : 0 ≤ w ^ 2 / (2 * g) := by positivity
      nlinarith
  exact hm ⟨max_le ha hθ, by linarith⟩ ⟨max_le (by linarith) (by linarith), hb⟩ hab

/-- Between half a turn and the solution it falls. -/
theorem gauge_anti {g X w θ : ℝ} (hg : 0 < g) (hw : 0 < w) (h1 : θ < 2 * π) (hr : X = w ^ 2 / (2 * g) * ratio θ)
    {a b : ℝ} (ha : π ≤ a) (hab : a ≤ b) (hb : b ≤ θ) : gauge g X w b ≤ gauge g X w a := by
  have hp := pi_pos
  have hm : AntitoneOn (gauge g X w) (Icc π θ) := by
    refine antitoneOn_of_deriv_nonpos (convex_Icc _ _) (fun ψ h => ?_) (fun ψ h => ?_) (fun ψ h => ?_)
    · exact (gauge_deriv hg hw (by linarith [h.1]) (by linarith [h.2])).continuousAt.continuousWithinAt
    · rw [interior_Icc] at h ⊢
      exact (gauge_deriv hg hw (by linarith [h.1]) (by linarith [h.2])).differentiableAt.differentiableWithinAt
    · rw [interior_Icc] at h
      rw [(gauge_deriv hg hw (by linarith [h.1]) (by linarith [h.2])).deriv]
      have hc : cos (ψ / 2) ≤ 0 := cos_nonpos_of_pi_div_two_le_of_le (by linarith [h.1]) (by linarith [h.2])
      have hq : ratio ψ ≤ ratio θ :=
        ratio_mono.monotoneOn ⟨by linarith [h.1], by linarith [h.2]⟩ ⟨by linarith [h.1, h.2], h1⟩ h.2.le
      refine mul_nonpos_of_nonpos_of_nonneg (div_nonpos_of_nonpos_of_nonneg hc (by positivity)) ?_
      rw [hr]
      have : 0 ≤ w ^ 2 / (2 * g) := by positivity
      nlinarith
  exact hm ⟨ha, by linarith⟩ ⟨by linarith, hb⟩ hab

theorem sin_le_gap {θ : ℝ} (h1 : θ ≤ π) : sin θ ≤ π - θ := by
  rw [← sin_pi_sub]
  exact sin_le (by linarith)

/-- The bounds that deep slides give are never below the value at the solution. -/
theorem gauge_min {g X w θ : ℝ} (hg : 0 < g) (hw : 0 < w) (h0 : 0 < θ) (h1 : θ < 2 * π) (hr : X = w ^ 2 / (2 * g) * ratio θ)
    {ψ : ℝ} (hψ : π ≤ ψ) (hψ1 : ψ < 2 * π) (h2 : π ≤ θ ∨ 2 * π - θ ≤ ψ) : gauge g X w θ ≤ gauge g X w ψ := by
  by_cases hθ : π ≤ θ
  · rcases le_total ψ θ with h | h
    · exact gauge_anti hg hw h1 hr hψ h (le_refl _)
    · exact gauge_mono hg hw h0 h1 hr hθ (le_refl _) h hψ1
  · have h3 : 2 * π - θ ≤ ψ := h2.resolve_left hθ
    push Not at hθ
    refine le_trans ?_ (gauge_mono hg hw h0 h1 hr (a := 2 * π - θ) (by linarith) (by linarith) h3 hψ1)
    unfold gauge
    have e : sin ((2 * π - θ) / 2) = sin (θ / 2) := by
      rw [show (2 * π - θ) / 2 = π - θ / 2 by ring, sin_pi_sub]
    rw [e, sin_two_pi_sub]
    have hs := half_pos h0 h1
    have := sin_le_gap hθ.le
    have hd : (θ + sin θ) / sin (θ / 2) ≤ (2 * π - θ + -sin θ) / sin (θ / 2) := div_le_div_of_nonneg_right (by linarith) hs.le
    have := mul_le_mul_of_nonneg_left hd (show 0 ≤ w / (4 * g) by positivity)
    linarith

end Lumos.Cycloid
