import Verif.Cycloid.Model
import Verif.Cycloid.Gauge
import Mathlib.Topology.Order.Compact
/-!
# C93: no motion of the bead is faster than the cycloid
-/

namespace Lumos.Cycloid

open Lumos Sim Io Real Set

section
variable {g dx dy T : ℝ} {v x y θ : ℝ → ℝ}

theorem Follows.cont (h : Follows g T v x y θ) : ContinuousOn v (Icc 0 T) ∧ ContinuousOn x (Icc 0 T) :=
  ⟨fun _ ht => (h.rates ht).1.continuousWithinAt, fun _ ht => (h.rates ht).2.1.continuousWithinAt⟩

/-- Between two times the gauge changes by at most the time between them. -/
theorem Follows.gauge (h : Follows g T v x y θ) (hg : 0 < g) {a σ p q : ℝ} (ha : 0 < a) (hσ : σ ^ 2 = 1) (hp : 0 ≤ p) (hpq : p ≤ q)
    (hq : q ≤ T) (hv : ∀ t ∈ Icc 0 T, a * |v t| ≤ 1) :
    a * (x q - x p) + (σ * speedTime g a (v q) - σ * speedTime g a (v p)) ≤ q - p := by
  have sub : ∀ t ∈ Icc p q, t ∈ Icc 0 T := fun t ht => ⟨hp.trans ht.1, ht.2.trans hq⟩
  set F : ℝ → ℝ := fun t => a * x t + σ * speedTime g a (v t) with hF
  have hc : ContinuousOn F (Icc p q) := by
    have c1 : ContinuousOn v (Icc p q) := h.cont.1.mono sub
    have c2 : ContinuousOn x (Icc p q) := h.cont.2.mono sub
    have c3 : Continuous (speedTime g a) := continuous_iff_continuousAt.mpr fun u => (speedTime_deriv ha.ne' u).continuousAt
    exact (c2.const_mul a).add ((c3.comp_continuousOn c1).const_mul σ)
  have hd : ∀ t ∈ Ioo p q, HasDerivAt F (a * (cos (θ t) * v t) + σ * (√(1 - (a * v t) ^ 2) / g * (-g * sin (θ t)))) t := by
    intro t ht
    have ht' : t ∈ Ioo 0 T := ⟨lt_of_le_of_lt hp ht.1, lt_of_lt_of_le ht.2 hq⟩
    have nh : Icc 0 T ∈ nhds t := Icc_mem_nhds ht'.1 ht'.2
    obtain ⟨r1, r2, -⟩ := h.rates ⟨ht'.1.le, ht'.2.le⟩
    exact ((r2.hasDerivAt nh).const_mul a).add (((speedTime_deriv ha.ne' (v t)).comp t (r1.hasDerivAt nh)).const_mul σ)
  have hb : ∀ t ∈ Ioo p q, deriv F t ≤ 1 := by
    intro t ht
    rw [(hd t ht).deriv]
    have hu := hv t (sub t ⟨ht.1.le, ht.2.le⟩)
    have hu2 : (a * v t) ^ 2 ≤ 1 := by
      rw [sq_le_one_iff_abs_le_one, abs_mul, abs_of_pos ha]; exact hu
    have hs : √(1 - (a * v t) ^ 2) ^ 2 = 1 - (a * v t) ^ 2 := sq_sqrt (by linarith)
    have e : σ * (√(1 - (a * v t) ^ 2) / g * (-g * sin (θ t))) = -(σ * √(1 - (a * v t) ^ 2)) * sin (θ t) := by
      field_simp
    rw [e]
    have h1 := sin_sq_add_cos_sq (θ t)
    nlinarith [sq_nonneg (a * v t - cos (θ t)), sq_nonneg (σ * √(1 - (a * v t) ^ 2) + sin (θ t))]
  have := Convex.image_sub_le_mul_sub_of_deriv_le (convex_Icc p q) hc
    (by rw [interior_Icc]; exact fun t ht => (hd t ht).differentiableAt.differentiableWithinAt)
    (by rw [interior_Icc]; exact hb) p ⟨le_refl _, hpq⟩ q ⟨hpq, le_refl _⟩ hpq
  simp only [hF] at this
  linarith

/-- Energy. -/
theorem Arrives.energy (h : Arrives g dx dy T v x y θ) (hT : 0 ≤ T) : v T ^ 2 = 2 * g * -dy := by
  have hc : ContinuousOn (fun t => v t ^ 2 + 2 * g * y t) (Icc 0 T) := fun t ht =>
    ((h.follows.rates ht).1.continuousWithinAt.pow 2).add ((h.follows.rates ht).2.2.continuousWithinAt.const_mul _)
  have hd : ∀ t ∈ Ico 0 T, HasDerivWithinAt (fun t => v t ^ 2 + 2 * g * y t) 0 (Ici t) t := by
    intro t ht
    obtain ⟨r1, -, r3⟩ := h.follows.rates ⟨ht.1, ht.2.le⟩
    have : Icc 0 T ∈ nhdsWithin t (Ici t) := Icc_mem_nhdsGE_of_mem ht
    refine (((r1.pow 2).add (r3.const_mul (2 * g))).mono_of_mem_nhdsWithin this).congr_deriv ?_
    push_cast
    ring
  have := constant_of_has_deriv_right_zero hc hd T ⟨hT, le_refl _⟩
  simp only [h.rest, h.start.2, h.finish.2] at this
  linarith

/-- Every slide takes at least the time of the cycloid. -/
theorem Arrives.least (h : Arrives g dx dy T v x y θ) (hg : 0 < g) (hdy : dy < 0) (hT : 0 ≤ T) {φ : ℝ} (h0 : 0 < φ)
    (h1 : φ < 2 * π) (hr : dx = -dy * ratio φ) : √(2 * g * -dy) / (2 * g) * (φ / sin (φ / 2)) ≤ T := by
  have hE := h.energy hT
  set w := √(2 * g * -dy) with hw
  have hpos : 0 < 2 * g * -dy := by nlinarith
  have w0 : 0 < w := sqrt_pos.mpr hpos
  have w2 : w ^ 2 = 2 * g * -dy := sq_sqrt hpos.le
  have hvT : |v T| = w := by rw [hw, ← hE, sqrt_sq_eq_abs]
  obtain ⟨k, hk, hmax⟩ := isCompact_Icc.exists_isMaxOn ⟨0, le_refl (0 : ℝ), hT⟩ (h.follows.cont.1.abs)
  have top : ∀ t ∈ Icc 0 T, |v t| ≤ |v k| := fun t ht => hmax ht
  have hB : w ≤ |v k| := by rw [← hvT]; exact top T ⟨hT, le_refl _⟩
  have small : ∀ a, 0 < a → a * |v k| ≤ 1 → ∀ t ∈ Icc 0 T, a * |v t| ≤ 1 :=
    fun a ha hak t ht => (mul_le_mul_of_nonneg_left (top t ht) ha.le).trans hak
  have sign : ∀ u : ℝ, (if u < 0 then (-1 : ℝ) else 1) ^ 2 = 1 := by intro u; split <;> norm_num
  refine least_of (X := dx) hg w0 h0 h1 (by rw [w2, hr]; field_simp) hB ?_ ?_
  · intro a ha hak
    have := h.follows.gauge hg ha (sign (v T)) (le_refl 0) hT (le_refl T) (small a ha hak)
    rw [← speedTime_abs, h.rest, speedTime_zero, h.finish.1, h.start.1, hvT] at this
    linarith
  · have hk0 : 0 < |v k| := by linarith
    have ha : 0 < 1 / |v k| := by positivity
    have sm := small _ ha (by rw [one_div, inv_mul_cancel₀ hk0.ne'])
    have u1 := h.follows.gauge hg ha (sign (v k)) (le_refl 0) hk.1 hk.2 sm
    have u2 := h.follows.gauge hg ha (σ := -(if v k < 0 then -1 else 1)) (by rw [neg_sq]; exact sign _) hk.1 hk.2 (le_refl T) sm
    rw [← speedTime_abs, h.rest, speedTime_zero, h.start.1] at u1
    rw [neg_mul, neg_mul, ← speedTime_abs, h.finish.1] at u2
    have u3 : (if v k < 0 then -1 else 1) * speedTime g (1 / |v k|) (v T) ≤ speedTime g (1 / |v k|) w := by
      rw [← hvT]
      have hm := speedTime_mono hg ha
      split
      · have := hm (neg_le_abs (v T))
        rw [speedTime_neg] at this
        linarith
      · rw [one_mul]; exact hm (le_abs_self _)
    linarith

end

end Lumos.Cycloid
