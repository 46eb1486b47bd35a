import Verif.Cycloid.Least
/-!
# C93: the cycloid is a motion of the bead, and the fastest
-/

namespace Lumos.Cycloid

open Lumos Sim Io Real Set

/-! ## The motion along a cycloid -/

section
variable {g R : ℝ}

/-- The motion along the cycloid of radius `R`: its angle grows at the rate `√(g / R)`. -/
noncomputable def motion (g R : ℝ) : (ℝ → ℝ) × (ℝ → ℝ) × (ℝ → ℝ) × (ℝ → ℝ) :=
  (fun t => 2 * (R * √(g / R)) * sin (√(g / R) * t / 2), fun t => R * (√(g / R) * t - sin (√(g / R) * t)),
    fun t => -(R * (1 - cos (√(g / R) * t))), fun t => √(g / R) * t / 2 - π / 2)

theorem motion_follows (hg : 0 < g) (hR : 0 < R) (T : ℝ) :
    Follows g T (motion g R).1 (motion g R).2.1 (motion g R).2.2.1 (motion g R).2.2.2 := by
  refine follows_of fun t _ => ?_
  have hw2 : √(g / R) ^ 2 = g / R := sq_sqrt (by positivity)
  unfold motion
  simp only
  set w := √(g / R) with hw
  have e : R * w ^ 2 = g := by rw [hw2]; field_simp
  have l : HasDerivAt (fun t : ℝ => w * t) w t := by simpa using (hasDerivAt_id' t).const_mul w
  have l2 : HasDerivAt (fun t : ℝ => w * t / 2) (w / 2) t := l.div_const 2
  have s1 : sin (w * t / 2 - π / 2) = -cos (w * t / 2) := sin_sub_pi_div_two _
  have s2 : cos (w * t / 2 - π / 2) = sin (w * t / 2) := cos_sub_pi_div_two _
  rw [s1, s2]
  refine ⟨(HasDerivAt.congr_deriv (l2.sin.const_mul (2 * (R * w))) ?_).hasDerivWithinAt,
    (HasDerivAt.congr_deriv ((l.sub l.sin).const_mul R) ?_).hasDerivWithinAt,
    (HasDerivAt.congr_deriv ((l.cos.const_sub 1).const_mul R).neg ?_).hasDerivWithinAt⟩
  · linear_combination cos (w * t / 2) * e
  · rw [cos_half (w * t)]; ring
  · rw [sin_half (w * t)]; ring

end

theorem linspace_get {b : ℝ} {N i : Nat} (hi : i < N) : (linspace b N)[i]? = some (i * (b / (N - 1 : ℝ))) := by
  unfold linspace
  rw [List.getElem?_map, List.getElem?_range hi]
  rfl

section
variable {newton : (ℝ → ℝ) → ℝ → Py ℝ} {dx dy g φ : ℝ} {N : Nat}

/-- The number that Newton's method returns is a solution of the equation in the angle. -/
theorem cycloid_inv {xs ys : List ℝ} {T : ℝ} (h : cycloid newton dx dy N g = .ok (xs, ys, T)) :
    dx ≠ 0 ∧ ∃ φ, newton (equation dx dy) (π / 2) = .ok φ ∧ T = φ * √(-dy / (1 - cos φ) / g) ∧
      xs = (linspace φ N).map (fun t => -dy / (1 - cos φ) * (t - sin t)) ∧
      ys = (linspace φ N).map (fun t => -(-dy / (1 - cos φ) * (1 - cos t))) := by
  unfold cycloid at h
  split at h
  · exact absurd h (fun h => nomatch h)
  · next hx =>
    refine ⟨hx, ?_⟩
    cases hn : newton (equation dx dy) (π / 2) with
    | error e => rw [hn] at h; exact absurd h (fun h => nomatch h)
    | ok φ =>
      rw [hn] at h
      have := Except.ok.inj h
      rw [Prod.mk.injEq, Prod.mk.injEq] at this
      exact ⟨φ, rfl, this.2.2.symm, this.1.symm, this.2.1.symm⟩

theorem sub_sin_pos (h : 0 < φ) : 0 < φ - sin φ := by linarith [sin_lt h]

theorem root_facts (hdx : 0 < dx) (hdy : dy < 0) (h0 : 0 < φ) (hr : equation dx dy φ = 0) :
    0 < 1 - cos φ ∧ dx * (1 - cos φ) = -dy * (φ - sin φ) ∧ dx = -dy * ratio φ := by
  have hs := sub_sin_pos h0
  unfold equation at hr
  have e : dx * (1 - cos φ) = -dy * (φ - sin φ) := by
    have : -dy / dx = (1 - cos φ) / (φ - sin φ) := by linarith
    rw [div_eq_div_iff hdx.ne' hs.ne'] at this
    linarith
  have hc : 0 < 1 - cos φ := by
    have : 0 < dx * (1 - cos φ) := by rw [e]; exact mul_pos (by linarith) hs
    exact (mul_pos_iff_of_pos_left hdx).mp this
  refine ⟨hc, e, ?_⟩
  unfold ratio
  field_simp
  linarith

theorem equation_iff (hdx : 0 < dx) (hdy : dy < 0) (h0 : 0 < φ) (h1 : φ < 2 * π) : equation dx dy φ = 0 ↔ ratio φ = dx / -dy := by
  have hs := sub_sin_pos h0
  have hc := one_sub_cos_pos h0 h1
  have hy : 0 < -dy := by linarith
  unfold equation ratio
  rw [sub_eq_zero, div_eq_div_iff hdx.ne' hs.ne', div_eq_div_iff hc.ne' hy.ne']
  constructor <;> intro h <;> linarith

/-- The duration in terms of the final speed. -/
theorem duration_eq (hg : 0 < g) (hdy : dy < 0) (h0 : 0 < φ) (h1 : φ < 2 * π) :
    φ * √(-dy / (1 - cos φ) / g) = √(2 * g * -dy) / (2 * g) * (φ / sin (φ / 2)) := by
  have hs := half_pos h0 h1
  have e1 : 1 - cos φ = 2 * sin (φ / 2) ^ 2 := by rw [cos_half φ]; ring
  have hy : 0 < -dy := by linarith
  have e2 : -dy / (1 - cos φ) / g = 2 * g * -dy / (2 * g * sin (φ / 2)) ^ 2 := by
    rw [e1]; field_simp
  rw [e2, sqrt_div (by positivity), sqrt_sq (by positivity)]
  field_simp

/-- **C93** (the equation). For every target to the right of and below the start, the equation that `cycloid` solves has exactly one
solution below a full turn. -/
theorem C93_root (hdx : 0 < dx) (hdy : dy < 0) : ∃! φ, (0 < φ ∧ φ < 2 * π) ∧ equation dx dy φ = 0 := by
  obtain ⟨φ, h, hr⟩ := root_exists (r := dx / -dy) (div_pos hdx (by linarith))
  refine ⟨φ, ⟨h, (equation_iff hdx hdy h.1 h.2).mpr hr⟩, ?_⟩
  rintro ψ ⟨h', hr'⟩
  exact ratio_mono.injOn h' h (by rw [hr, (equation_iff hdx hdy h'.1 h'.2).mp hr'])

/-- **C93** (the curve). If Newton's method returns a positive solution, the points that `cycloid` returns are those of a motion of the
model from rest at the origin to the target, at equal steps of the time that it returns; below a full turn the slope stays within the
bounds of the problem. -/
theorem C93_curve (hg : 0 < g) (hdx : 0 < dx) (hdy : dy < 0) (hN : newton (equation dx dy) (π / 2) = .ok φ)
    (hr : equation dx dy φ = 0) (h0 : 0 < φ) : ∃ xs ys T v x y θ, cycloid newton dx dy N g = .ok (xs, ys, T) ∧ 0 < T ∧
      Arrives g dx dy T v x y θ ∧ xs.length = N ∧ ys.length = N ∧
      (∀ i, i < N → xs[i]? = some (x (i * (T / (N - 1 : ℝ)))) ∧ ys[i]? = some (y (i * (T / (N - 1 : ℝ))))) ∧
      (φ ≤ 2 * π → ∀ t, 0 ≤ t → t ≤ T → |θ t| ≤ π / 2) := by
  obtain ⟨hc, he, -⟩ := root_facts hdx hdy h0 hr
  set R := -dy / (1 - cos φ) with hR
  have R0 : 0 < R := div_pos (by linarith) hc
  set T := φ * √(R / g) with hT
  have T0 : 0 < T := mul_pos h0 (sqrt_pos.mpr (by positivity))
  have wT : √(g / R) * T = φ := by
    rw [hT, mul_left_comm, ← sqrt_mul (by positivity)]
    rw [show g / R * (R / g) = 1 by field_simp, sqrt_one, mul_one]
  have hRy : R * (1 - cos φ) = -dy := by rw [hR]; field_simp
  have hRx : R * (φ - sin φ) = dx := by
    rw [hR, div_mul_eq_mul_div, ← he]; field_simp
  refine ⟨(linspace φ N).map fun t => R * (t - sin t), (linspace φ N).map fun t => -(R * (1 - cos t)), T, _, _, _, _, ?_, T0, ⟨motion_follows hg R0 T, ?_, ?_, ?_⟩, ?_, ?_, ?_, ?_⟩
  · unfold cycloid
    rw [if_neg hdx.ne', hN]
    rfl
  · simp [motion]
  · simp [motion]
  · simp only [motion, wT, hRy, hRx, neg_neg, and_self]
  · simp [linspace]
  · simp [linspace]
  · intro i hi
    have e : √(g / R) * (i * (T / (N - 1 : ℝ))) = i * (φ / (N - 1 : ℝ)) := by rw [← wT]; ring
    simp only [motion, e, List.getElem?_map, linspace_get hi, Option.map_some, and_self]
  · intro h2 t t0 t1
    have a1 : 0 ≤ √(g / R) * t := by positivity
    have a2 : √(g / R) * t ≤ φ := by rw [← wT]; exact mul_le_mul_of_nonneg_left t1 (sqrt_nonneg _)
    simp only [motion]
    rw [abs_le]
    constructor <;> linarith

/-- **C93** (the least time). If Newton's method returns the solution below a full turn, the time that `cycloid` returns is at most the
duration of every motion of the model from rest at the origin to the target, whatever the slope does along it. -/
theorem C93_least (hg : 0 < g) (hdx : 0 < dx) (hdy : dy < 0) {xs ys : List ℝ} {T : ℝ} (h : cycloid newton dx dy N g = .ok (xs, ys, T))
    (hN : ∀ φ, newton (equation dx dy) (π / 2) = .ok φ → equation dx dy φ = 0 ∧ 0 < φ ∧ φ < 2 * π)
    {T' : ℝ} {v x y θ : ℝ → ℝ} (hT' : 0 ≤ T') (hm : Arrives g dx dy T' v x y θ) : T ≤ T' := by
  obtain ⟨-, φ, hφ, rfl, -, -⟩ := cycloid_inv h
  obtain ⟨hr, h0, h1⟩ := hN φ hφ
  rw [duration_eq hg hdy h0 h1]
  exact hm.least hg hdy hT' h0 h1 (root_facts hdx hdy h0 hr).2.2

theorem sub_sin_mono {a b : ℝ} (h : a ≤ b) : a - sin a ≤ b - sin b := by
  have hm : Monotone fun t : ℝ => t - sin t := by
    refine monotone_of_deriv_nonneg (by fun_prop) fun t => ?_
    have d : HasDerivAt (fun t : ℝ => t - sin t) (1 - cos t) t := (hasDerivAt_id' t).sub (hasDerivAt_sin t)
    rw [d.deriv]
    linarith [cos_le_one t]
  exact hm h

theorem sq_duration (hg : 0 < g) (hdx : 0 < dx) (hdy : dy < 0) (h0 : 0 < φ) (hr : equation dx dy φ = 0) :
    (φ * √(-dy / (1 - cos φ) / g)) ^ 2 = dx / g * (φ ^ 2 / (φ - sin φ)) := by
  obtain ⟨hc, he, -⟩ := root_facts hdx hdy h0 hr
  have hs := sub_sin_pos h0
  have hy : 0 < -dy := by linarith
  rw [mul_pow, sq_sqrt (by positivity)]
  field_simp
  linarith

/-- **C93** (other solutions). A solution above a full turn is one of a curve of several arches, and the time for it is longer than the
least: nothing in `cycloid` rules such a solution out. -/
theorem C93_other_root (hg : 0 < g) (hdx : 0 < dx) (hdy : dy < 0) {φ ψ : ℝ} (h0 : 0 < φ) (h1 : φ < 2 * π)
    (hr : equation dx dy φ = 0) (h2 : 2 * π ≤ ψ) (hr' : equation dx dy ψ = 0) :
    φ * √(-dy / (1 - cos φ) / g) < ψ * √(-dy / (1 - cos ψ) / g) := by
  have hp := pi_pos
  have ψ0 : 0 < ψ := by linarith
  refine lt_of_pow_lt_pow_left₀ 2 (by positivity) ?_
  rw [sq_duration hg hdx hdy h0 hr, sq_duration hg hdx hdy ψ0 hr']
  refine mul_lt_mul_of_pos_left ?_ (by positivity)
  obtain ⟨c1, e1, f1⟩ := root_facts hdx hdy h0 hr
  obtain ⟨c2, e2, f2⟩ := root_facts hdx hdy ψ0 hr'
  have s1 := sub_sin_pos h0
  have s2 := sub_sin_pos ψ0
  have hy : 0 < -dy := by linarith
  have big : 2 * π ≤ ψ - sin ψ := by
    have := sub_sin_mono h2
    simpa using this
  have q2 : π ≤ ratio ψ := by
    unfold ratio
    rw [le_div_iff₀ c2]
    nlinarith [neg_one_le_cos ψ]
  have q1 : ratio φ = ratio ψ := mul_left_cancel₀ hy.ne' (by rw [← f1, ← f2])
  have hφ : π ≤ φ := by
    by_contra hc
    push Not at hc
    have := ratio_mono ⟨h0, h1⟩ (show π ∈ Ioo 0 (2 * π) from ⟨hp, by linarith⟩) hc
    have hq : ratio π = π / 2 := by unfold ratio; simp; ring
    rw [hq] at this
    linarith
  have sφ : sin φ ≤ 0 := by
    rw [← sin_sub_two_pi φ]
    exact sin_nonpos_of_nonpos_of_neg_pi_le (by linarith) (by linarith)
  have l : φ ^ 2 / (φ - sin φ) < 2 * π := by
    rw [div_lt_iff₀ s1]
    nlinarith
  have u : 2 * π < ψ ^ 2 / (ψ - sin ψ) ∨ ψ = 2 * π := by
    rcases eq_or_lt_of_le h2 with h | h
    · exact Or.inr h.symm
    left
    rw [lt_div_iff₀ s2]
    rcases le_or_gt 0 (sin ψ) with hs | hs
    · nlinarith
    · have : 3 * π < ψ := by
        by_contra hc
        push Not at hc
        have := sin_nonneg_of_nonneg_of_le_pi (x := ψ - 2 * π) (by linarith) (by linarith)
        rw [sin_sub_two_pi] at this
        linarith
      nlinarith [neg_one_le_sin ψ, pi_gt_three]
  rcases u with u | u
  · linarith
  · rw [u] at c2; simp at c2

end

end Lumos.Cycloid
