import Verif.Cycloid.Trig
import Mathlib.Analysis.SpecialFunctions.Trigonometric.Inverse
import Mathlib.Analysis.SpecialFunctions.Sqrt
import Mathlib.MeasureTheory.Integral.IntervalIntegral.FundThmCalculus
/-!
# A bound on the duration of a slide from a multiple of the distance and a function of the speed (lemmas for C93)
-/

namespace Lumos.Cycloid

open Real Set

/-- The area under the unit circle from `0` to `u`. -/
noncomputable def area (u : ℝ) : ℝ := ∫ s in (0 : ℝ)..u, √(1 - s ^ 2)

theorem area_cont : Continuous fun s : ℝ => √(1 - s ^ 2) := by fun_prop

theorem area_deriv (u : ℝ) : HasDerivAt area √(1 - u ^ 2) u :=
  area_cont.integral_hasStrictDerivAt 0 u |>.hasDerivAt

theorem area_zero : area 0 = 0 := by simp [area]

theorem area_neg (u : ℝ) : area (-u) = -area u := by
  have h : ∀ u, HasDerivAt (fun u => area (-u) + area u) 0 u := by
    intro u
    have a := (area_deriv (-u)).comp u (hasDerivAt_neg u)
    refine (a.add (area_deriv u)).congr_deriv ?_
    rw [neg_sq]; ring
  have := is_const_of_deriv_eq_zero (fun u => (h u).differentiableAt) (fun u => (h u).deriv) u 0
  simp [area_zero] at this
  linarith

theorem area_sin {β : ℝ} (h0 : -(π / 2) ≤ β) (h1 : β ≤ π / 2) : area (sin β) = (β + sin β * cos β) / 2 := by
  have hp := pi_pos
  have key : EqOn (fun β => area (sin β) - (β + sin β * cos β) / 2) (fun _ => area (sin 0) - (0 + sin 0 * cos 0) / 2)
      (Icc (-(π / 2)) (π / 2)) := by
    have hd : ∀ β ∈ Icc (-(π / 2)) (π / 2), HasDerivAt (fun β => area (sin β) - (β + sin β * cos β) / 2) 0 β := by
      intro β hβ
      have a := (area_deriv (sin β)).comp β (hasDerivAt_sin β)
      have b := (((hasDerivAt_id' β).add ((hasDerivAt_sin β).mul (hasDerivAt_cos β))).div_const 2)
      refine (a.sub b).congr_deriv ?_
      have hc := cos_nonneg_of_mem_Icc hβ
      have e : √(1 - sin β ^ 2) = cos β := by
        rw [← cos_sq', sqrt_sq hc]
      rw [e]
      have := sin_sq_add_cos_sq β
      linear_combination (1 / 2) * this
    intro β hβ
    refine (convex_Icc _ _).is_const_of_fderivWithin_eq_zero (𝕜 := ℝ) (f := fun β => area (sin β) - (β + sin β * cos β) / 2)
      (fun t ht => (hd t ht).differentiableAt.differentiableWithinAt) (fun t ht => ?_) hβ ⟨by linarith, by linarith⟩
    have hu : UniqueDiffWithinAt ℝ (Icc (-(π / 2)) (π / 2)) t := uniqueDiffOn_Icc (by linarith) t ht
    rw [((hd t ht).hasFDerivAt.hasFDerivWithinAt).fderivWithin hu]
    ext; simp
  have := key ⟨h0, h1⟩
  simp [area_zero] at this
  linarith

/-- The function of the speed. -/
noncomputable def speedTime (g a v : ℝ) : ℝ := area (a * v) / (g * a)

theorem speedTime_neg (g a v : ℝ) : speedTime g a (-v) = -speedTime g a v := by
  unfold speedTime
  rw [mul_neg, area_neg]; ring

theorem speedTime_deriv {g a : ℝ} (ha : a ≠ 0) (v : ℝ) : HasDerivAt (speedTime g a) (√(1 - (a * v) ^ 2) / g) v := by
  have h := ((area_deriv (a * v)).comp v ((hasDerivAt_id' v).const_mul a)).div_const (g * a)
  refine h.congr_deriv ?_
  rw [mul_one]
  by_cases hg : g = 0
  · subst hg; simp
  · field_simp

/-- It changes by at most the change of the speed over `g`. -/
theorem speedTime_lip {g a : ℝ} (hg : 0 < g) (ha : 0 < a) (v w : ℝ) : |speedTime g a v - speedTime g a w| ≤ |v - w| / g := by
  have := Convex.norm_image_sub_le_of_norm_hasDerivWithin_le (f := speedTime g a) (C := 1 / g) (s := univ)
    (f' := fun v => √(1 - (a * v) ^ 2) / g) (fun v _ => (speedTime_deriv ha.ne' v).hasDerivWithinAt)
    (fun v _ => by
      rw [norm_eq_abs, abs_of_nonneg (by positivity)]
      refine div_le_div_of_nonneg_right ?_ hg.le
      exact sqrt_le_iff.mpr ⟨zero_le_one, by nlinarith [sq_nonneg (a * v)]⟩) convex_univ (mem_univ w) (mem_univ v)
  rw [norm_eq_abs, norm_eq_abs] at this
  rwa [div_mul_eq_mul_div, one_mul] at this

theorem speedTime_mono {g a : ℝ} (hg : 0 < g) (ha : 0 < a) : Monotone (speedTime g a) :=
  monotone_of_deriv_nonneg (fun v => (speedTime_deriv ha.ne' v).differentiableAt)
    (fun v => by rw [(speedTime_deriv ha.ne' v).deriv]; positivity)

theorem speedTime_zero (g a : ℝ) : speedTime g a 0 = 0 := by simp [speedTime, area_zero]

theorem speedTime_abs (g a v : ℝ) : speedTime g a |v| = (if v < 0 then -1 else 1) * speedTime g a v := by
  split
  · next h => rw [abs_of_neg h, speedTime_neg]; ring
  · next h => rw [abs_of_nonneg (by linarith)]; ring

/-- The gauge of an arc of at most half a turn. -/
theorem gauge_low {g X w ψ : ℝ} (hw : 0 < w) (h0 : 0 < ψ) (h1 : ψ ≤ π) :
    sin (ψ / 2) / w * X + speedTime g (sin (ψ / 2) / w) w = gauge g X w ψ := by
  have hp := pi_pos
  have hs := half_pos h0 (by linarith)
  unfold speedTime gauge
  rw [div_mul_cancel₀ _ hw.ne', area_sin (by linarith) (by linarith), sin_half ψ]
  by_cases hg : g = 0
  · subst hg; simp; ring
  · field_simp
    ring

/-- The gauge of an arc of at least half a turn. -/
theorem gauge_high {g X w ψ : ℝ} (hw : 0 < w) (h0 : π ≤ ψ) (h1 : ψ < 2 * π) :
    sin (ψ / 2) / w * X + 2 * speedTime g (sin (ψ / 2) / w) (w / sin (ψ / 2)) - speedTime g (sin (ψ / 2) / w) w = gauge g X w ψ := by
  have hp := pi_pos
  have hs := half_pos (by linarith) h1
  have e1 : area 1 = π / 4 := by
    have := area_sin (β := π / 2) (by linarith) (le_refl _)
    simp at this
    rw [this]; ring
  have e2 : area (sin (ψ / 2)) = (π - ψ / 2 - sin (ψ / 2) * cos (ψ / 2)) / 2 := by
    have := area_sin (β := π - ψ / 2) (by linarith) (by linarith)
    rw [sin_pi_sub, cos_pi_sub] at this
    rw [this]; ring
  unfold speedTime gauge
  rw [div_mul_cancel₀ _ hw.ne', show sin (ψ / 2) / w * (w / sin (ψ / 2)) = 1 by field_simp, e1, e2, sin_half ψ]
  by_cases hg : g = 0
  · subst hg; simp; ring
  · field_simp
    ring

/-- What the bounds of all multiples of the distance up to the inverse of the top speed `B`, and the bound of a bead that reaches the top
speed, give together. -/
theorem least_of {g X w θ B D : ℝ} (hg : 0 < g) (hw : 0 < w) (h0 : 0 < θ) (h1 : θ < 2 * π) (hr : X = w ^ 2 / (2 * g) * ratio θ)
    (hB : w ≤ B) (low : ∀ a, 0 < a → a * B ≤ 1 → a * X + speedTime g a w ≤ D)
    (high : 1 / B * X + 2 * speedTime g (1 / B) B - speedTime g (1 / B) w ≤ D) : w / (2 * g) * (θ / sin (θ / 2)) ≤ D := by
  have hp := pi_pos
  have hB0 : 0 < B := by linarith
  have hs := half_pos h0 h1
  rw [← gauge_root hg hw h0 h1 hr]
  have hwB : w / B ≤ 1 := by rw [div_le_one hB0]; exact hB
  have hwB0 : 0 < w / B := by positivity
  have deep : (π ≤ θ ∨ w / B ≤ sin (θ / 2)) → gauge g X w θ ≤ D := by
    intro h
    set β := arcsin (w / B) with hβ
    have b0 : 0 < β := arcsin_pos.mpr hwB0
    have b1 : β ≤ π / 2 := arcsin_le_pi_div_two _
    have bs : sin β = w / B := sin_arcsin (by linarith) hwB
    have es : sin ((2 * π - 2 * β) / 2) = w / B := by
      rw [show (2 * π - 2 * β) / 2 = π - β by ring, sin_pi_sub, bs]
    have e := gauge_high (g := g) (X := X) (ψ := 2 * π - 2 * β) hw (by linarith) (by linarith)
    rw [es, show w / B / w = 1 / B by field_simp, show w / (w / B) = B by field_simp] at e
    refine le_trans ?_ high
    rw [e]
    refine gauge_min hg hw h0 h1 hr (by linarith) (by linarith) ?_
    by_cases hθ : π ≤ θ
    · exact Or.inl hθ
    · right
      have h' := h.resolve_left hθ
      push Not at hθ
      rw [← bs] at h'
      have : β ≤ θ / 2 := by
        by_contra hc
        push Not at hc
        have := sin_lt_sin_of_lt_of_le_pi_div_two (by linarith) b1 hc
        linarith
      linarith
  by_cases hθ : θ ≤ π
  · rcases le_total (sin (θ / 2)) (w / B) with h | h
    · rw [← gauge_low hw h0 hθ]
      refine low _ (by positivity) ?_
      rw [div_mul_eq_mul_div, div_le_one hw]
      rwa [le_div_iff₀ hB0] at h
    · exact deep (Or.inr h)
  · exact deep (Or.inl (by linarith))

end Lumos.Cycloid
