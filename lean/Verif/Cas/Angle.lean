import Verif.Cas.MixModel
import Mathlib.Analysis.SpecialFunctions.Trigonometric.Chebyshev.Basic
import Mathlib.MeasureTheory.Integral.IntervalIntegral.TrapezoidalRule
import Mathlib.Analysis.SpecialFunctions.Integrals.Basic
/-!
# C103: angles in degrees, cosine spacing and trapezoids of the casadi backend
-/

namespace Lumos.Cas

open Lumos Lumos.Cas.Np

/-! ### Angles in degrees -/

theorem degrees_radians (x : ℝ) : degrees (radians x) = x := by
  have := Real.pi_ne_zero
  unfold degrees radians
  field_simp

theorem radians_degrees (x : ℝ) : radians (degrees x) = x := by
  have := Real.pi_ne_zero
  unfold degrees radians
  field_simp

theorem radians_180 : radians 180 = Real.pi := by
  unfold radians
  ring

theorem radians_le {x y : ℝ} : radians x ≤ radians y ↔ x ≤ y := by
  have := Real.pi_pos
  unfold radians
  constructor
  · intro h
    by_contra hc
    push Not at hc
    have := mul_lt_mul_of_pos_right hc Real.pi_pos
    linarith
  · intro h
    have := mul_le_mul_of_nonneg_right h Real.pi_pos.le
    linarith

theorem radians_lt {x y : ℝ} : radians x < radians y ↔ x < y := by
  rw [← not_le, ← not_le, radians_le]

/-- **C103 (degrees).** `degrees` and `radians` are inverse to each other, and 180 degrees are π; the functions of degrees repeat after 360
(the tangent after 180), satisfy Pythagoras' law and have the values of the right angle. -/
theorem C103_degrees (x : ℝ) :
    degrees (radians x) = x ∧ radians (degrees x) = x ∧ radians 180 = Real.pi ∧
    sind (x + 360) = sind x ∧ cosd (x + 360) = cosd x ∧ tand (x + 180) = tand x ∧
    sind x ^ 2 + cosd x ^ 2 = 1 ∧ sind (90 - x) = cosd x ∧ (cosd x ≠ 0 → tand x = sind x / cosd x) ∧
    sind 0 = 0 ∧ sind 30 = 1 / 2 ∧ sind 90 = 1 ∧ cosd 0 = 1 ∧ cosd 90 = 0 ∧ cosd 180 = -1 ∧ tand 45 = 1 := by
  have r : ∀ y, radians (x + y) = radians x + radians y := fun y => by unfold radians; ring
  have r2 : ∀ y, radians (y - x) = radians y - radians x := fun y => by unfold radians; ring
  have h360 : radians 360 = 2 * Real.pi := by unfold radians; ring
  have h90 : radians 90 = Real.pi / 2 := by unfold radians; ring
  have h45 : radians 45 = Real.pi / 4 := by unfold radians; ring
  have h30 : radians 30 = Real.pi / 6 := by unfold radians; ring
  have h0 : radians 0 = 0 := by unfold radians; ring
  refine ⟨degrees_radians x, radians_degrees x, radians_180, ?_, ?_, ?_, Real.sin_sq_add_cos_sq _, ?_, fun _ => Real.tan_eq_sin_div_cos _, ?_, ?_, ?_, ?_, ?_, ?_, ?_⟩
  · rw [sind, r, h360, Real.sin_add_two_pi, sind]
  · rw [cosd, r, h360, Real.cos_add_two_pi, cosd]
  · rw [tand, r, radians_180, Real.tan_periodic, tand]
  · rw [sind, r2, h90, Real.sin_pi_div_two_sub, cosd]
  · rw [sind, h0, Real.sin_zero]
  · rw [sind, h30, Real.sin_pi_div_six]
  · rw [sind, h90, Real.sin_pi_div_two]
  · rw [cosd, h0, Real.cos_zero]
  · rw [cosd, h90, Real.cos_pi_div_two]
  · rw [cosd, radians_180, Real.cos_pi]
  · rw [tand, h45, Real.tan_pi_div_four]

/-- **C103 (inverse functions).** `arcsind` and `arccosd` return the one angle in [-90, 90] and [0, 180] with the given sine and cosine. -/
theorem C103_inverse {y : ℝ} (h1 : -1 ≤ y) (h2 : y ≤ 1) (x : ℝ) :
    (arcsind y = x ↔ (-90 ≤ x ∧ x ≤ 90) ∧ sind x = y) ∧ (arccosd y = x ↔ (0 ≤ x ∧ x ≤ 180) ∧ cosd x = y) := by
  have h90 : radians 90 = Real.pi / 2 := by unfold radians; ring
  have hm90 : radians (-90) = -(Real.pi / 2) := by unfold radians; ring
  have h0 : radians 0 = 0 := by unfold radians; ring
  constructor
  · constructor
    · rintro rfl
      refine ⟨⟨?_, ?_⟩, ?_⟩
      · rw [← radians_le, hm90, arcsind, radians_degrees]; exact Real.neg_pi_div_two_le_arcsin y
      · rw [← radians_le, h90, arcsind, radians_degrees]; exact Real.arcsin_le_pi_div_two y
      · rw [sind, arcsind, radians_degrees, Real.sin_arcsin h1 h2]
    · rintro ⟨⟨a, b⟩, rfl⟩
      rw [arcsind, sind, Real.arcsin_sin, degrees_radians]
      · rw [← hm90, radians_le]; exact a
      · rw [← h90, radians_le]; exact b
  · constructor
    · rintro rfl
      refine ⟨⟨?_, ?_⟩, ?_⟩
      · rw [← radians_le, h0, arccosd, radians_degrees]; exact Real.arccos_nonneg y
      · rw [← radians_le, radians_180, arccosd, radians_degrees]; exact Real.arccos_le_pi y
      · rw [cosd, arccosd, radians_degrees, Real.cos_arccos h1 h2]
    · rintro ⟨⟨a, b⟩, rfl⟩
      rw [arccosd, cosd, Real.arccos_cos, degrees_radians]
      · rw [← h0, radians_le]; exact a
      · rw [← radians_180, radians_le]; exact b

/-- **C103 (the angle of a point).** `arctan2d(y, x)` of a point other than the origin is the one angle in (-180, 180] in whose direction the
point lies, and it does not depend on how far away the point is. -/
theorem C103_arctan2d {x y : ℝ} (h : x ≠ 0 ∨ y ≠ 0) (a : ℝ) :
    (arctan2d y x = a ↔ (-180 < a ∧ a ≤ 180) ∧ ∃ r > 0, x = r * cosd a ∧ y = r * sind a) ∧
    (∀ r > 0, arctan2d (r * y) (r * x) = arctan2d y x) := by
  have hm : radians (-180) = -Real.pi := by unfold radians; ring
  have hz : (⟨x, y⟩ : ℂ) ≠ 0 := by
    intro e
    have e1 := congrArg Complex.re e
    have e2 := congrArg Complex.im e
    simp at e1 e2
    rcases h with h | h <;> contradiction
  constructor
  · constructor
    · rintro rfl
      have ha : radians (arctan2d y x) = Complex.arg ⟨x, y⟩ := by rw [arctan2d, radians_degrees, arctan2]
      refine ⟨⟨?_, ?_⟩, ‖(⟨x, y⟩ : ℂ)‖, norm_pos_iff.2 hz, ?_, ?_⟩
      · rw [← radians_lt, hm, ha]; exact Complex.neg_pi_lt_arg _
      · rw [← radians_le, radians_180, ha]; exact Complex.arg_le_pi _
      · rw [cosd, ha, Complex.norm_mul_cos_arg]
      · rw [sind, ha, Complex.norm_mul_sin_arg]
    · rintro ⟨⟨h1, h2⟩, r, hr, hx, hy⟩
      rw [← radians_lt, hm] at h1
      rw [← radians_le, radians_180] at h2
      have e : (⟨x, y⟩ : ℂ) = r * (Complex.cos (radians a) + Complex.sin (radians a) * Complex.I) := by
        apply Complex.ext
        · simp [hx, cosd, ← Complex.ofReal_cos, ← Complex.ofReal_sin]
        · simp [hy, sind, ← Complex.ofReal_cos, ← Complex.ofReal_sin]
      rw [arctan2d, arctan2, e, Complex.arg_mul_cos_add_sin_mul_I hr ⟨h1, h2⟩, degrees_radians]
  · intro r hr
    have e : (⟨r * x, r * y⟩ : ℂ) = (r : ℂ) * ⟨x, y⟩ := by
      apply Complex.ext <;> simp
    rw [arctan2d, arctan2, e, Complex.arg_real_mul _ hr, arctan2d, arctan2]

/-! ### Cosine spacing -/

theorem cosspace_at (a b : ℝ) {n : Nat} (hn : 2 ≤ n) (i : Nat) (_ : i < n) :
    (cosspace a b n).at' i 0 = (a + b) / 2 - (b - a) / 2 * Real.cos (i * Real.pi / (n - 1 : ℕ)) := by
  have hd : ((n - 1 : ℕ) : ℝ) = (n : ℝ) - 1 := by push_cast [Nat.cast_sub (by omega : 1 ≤ n)]; ring
  have hne : (n : ℝ) - 1 ≠ 0 := by
    have : (2 : ℝ) ≤ n := by exact_mod_cast hn
    linarith
  change (b + a) / 2 + (b - a) / 2 * Real.cos (Real.pi + i * ((0 - Real.pi) / (n - 1))) = _
  rw [show Real.pi + i * ((0 - Real.pi) / ((n : ℝ) - 1)) = Real.pi - i * Real.pi / ((n - 1 : ℕ) : ℝ) by rw [hd]; ring, Real.cos_pi_sub]
  ring

open Polynomial in
/-- **C103 (cosine spacing).** `cosspace(a, b, n)` with `a < b` and at least two points increases from `a` to `b`; moved to [-1, 1], its points
are those where the Chebyshev polynomial `T` of degree `n - 1` is 1 or -1 in turn, and the points between the ends are roots of the Chebyshev
polynomial of the second kind of degree `n - 2`. -/
theorem C103_cosspace {a b : ℝ} (hab : a < b) {n : Nat} (hn : 2 ≤ n) :
    (cosspace a b n).rows = n ∧ (cosspace a b n).cols = 1 ∧
    (∀ i j, i < j → j < n → (cosspace a b n).at' i 0 < (cosspace a b n).at' j 0) ∧
    (∀ i < n, a ≤ (cosspace a b n).at' i 0 ∧ (cosspace a b n).at' i 0 ≤ b) ∧
    ∀ i < n, ∀ t, (cosspace a b n).at' i 0 = (a + b) / 2 + (b - a) / 2 * t →
      (Polynomial.Chebyshev.T ℝ (n - 1 : ℕ)).eval t = (-1) ^ (n - 1 - i) ∧
      (0 < i → i < n - 1 → (Polynomial.Chebyshev.U ℝ (n - 2 : ℕ)).eval t = 0) := by
  have hm : 0 < ((n - 1 : ℕ) : ℝ) := by exact_mod_cast (by omega : 0 < n - 1)
  have hpi := Real.pi_pos
  have range : ∀ i < n, 0 ≤ i * Real.pi / ((n - 1 : ℕ) : ℝ) ∧ i * Real.pi / ((n - 1 : ℕ) : ℝ) ≤ Real.pi := by
    intro i hi
    refine ⟨by positivity, ?_⟩
    rw [div_le_iff₀ hm, mul_comm]
    have : (i : ℝ) ≤ ((n - 1 : ℕ) : ℝ) := by exact_mod_cast (by omega : i ≤ n - 1)
    exact mul_le_mul_of_nonneg_left this hpi.le
  refine ⟨rfl, rfl, ?_, ?_, ?_⟩
  · intro i j hij hj
    rw [cosspace_at a b hn i (by omega), cosspace_at a b hn j hj]
    have hlt : i * Real.pi / ((n - 1 : ℕ) : ℝ) < j * Real.pi / ((n - 1 : ℕ) : ℝ) := by
      have : (i : ℝ) < j := by exact_mod_cast hij
      exact div_lt_div_of_pos_right (mul_lt_mul_of_pos_right this hpi) hm
    have := Real.strictAntiOn_cos ⟨(range i (by omega)).1, (range i (by omega)).2⟩ ⟨(range j hj).1, (range j hj).2⟩ hlt
    nlinarith
  · intro i hi
    rw [cosspace_at a b hn i hi]
    have h1 := Real.neg_one_le_cos (i * Real.pi / ((n - 1 : ℕ) : ℝ))
    have h2 := Real.cos_le_one (i * Real.pi / ((n - 1 : ℕ) : ℝ))
    constructor <;> nlinarith
  · intro i hi t ht
    set m : ℕ := n - 1 with hmdef
    rw [cosspace_at a b hn i hi] at ht
    have hbne : (b - a) / 2 ≠ 0 := by
      have : 0 < (b - a) / 2 := by linarith
      exact this.ne'
    -- the node is the cosine of the reflected angle
    have et : t = Real.cos (((m - i : ℕ) : ℝ) * Real.pi / m) := by
      have e : ((m - i : ℕ) : ℝ) * Real.pi / m = Real.pi - i * Real.pi / m := by
        rw [Nat.cast_sub (by omega)]
        field_simp
      rw [e, Real.cos_pi_sub]
      have : (b - a) / 2 * t = (b - a) / 2 * -Real.cos (i * Real.pi / m) := by linarith
      exact mul_left_cancel₀ hbne this
    constructor
    · rw [et, Polynomial.Chebyshev.T_real_cos]
      have e : (((m : ℕ) : ℤ) : ℝ) * (((m - i : ℕ) : ℝ) * Real.pi / m) = ((m - i : ℕ) : ℝ) * Real.pi := by
        push_cast
        field_simp
      rw [e, Real.cos_nat_mul_pi]
    · intro h0 h1
      have hU := Polynomial.Chebyshev.U_real_cos (((m - i : ℕ) : ℝ) * Real.pi / m) ((n - 2 : ℕ) : ℤ)
      have e : ((((n - 2 : ℕ) : ℤ) : ℝ) + 1) * (((m - i : ℕ) : ℝ) * Real.pi / m) = ((m - i : ℕ) : ℝ) * Real.pi := by
        have : (((n - 2 : ℕ) : ℤ) : ℝ) + 1 = (m : ℝ) := by
          have : ((n - 2 + 1 : ℕ) : ℝ) = (m : ℝ) := by congr 1; omega
          push_cast at this ⊢
          exact this
        rw [this]
        field_simp
      rw [e, Real.sin_nat_mul_pi, ← et] at hU
      have hs : 0 < Real.sin (((m - i : ℕ) : ℝ) * Real.pi / m) := by
        apply Real.sin_pos_of_pos_of_lt_pi
        · have : 0 < ((m - i : ℕ) : ℝ) := by exact_mod_cast (by omega : 0 < m - i)
          positivity
        · rw [div_lt_iff₀ hm, mul_comm]
          have : ((m - i : ℕ) : ℝ) < (m : ℝ) := by exact_mod_cast (by omega : m - i < m)
          exact mul_lt_mul_of_pos_left this hpi
      rcases mul_eq_zero.1 hU with h | h
      · exact h
      · exact absurd h hs.ne'

/-! ### Trapezoids -/

/-- **C103 (pieces).** `trapz(x)` of `n` values has `n - 1` pieces; the piece `i` is the integral from `i` to `i + 1` of every function that
joins the values `i` and `i + 1` by a line. -/
theorem C103_trapz_pieces (x : Vec) : ∃ y, trapz x = .ok y ∧ y.n = x.n - 1 ∧
    ∀ i, i + 1 < x.n → ∀ g : ℝ → ℝ, (∀ t, 0 ≤ t → t ≤ 1 → g (i + t) = (1 - t) * x.f i + t * x.f (i + 1)) →
      y.f i = ∫ t in (i : ℝ)..(i + 1 : ℕ), g t := by
  refine ⟨_, rfl, rfl, fun i _ g hg => ?_⟩
  change (x.f (i + 1) + x.f i) / 2 = _
  have e : ∫ t in (i : ℝ)..(i + 1 : ℕ), g t = ∫ t in (i : ℝ)..(i + 1 : ℕ), ((x.f i - i * (x.f (i + 1) - x.f i)) + (x.f (i + 1) - x.f i) * t) := by
    apply intervalIntegral.integral_congr
    intro t ht
    rw [Set.uIcc_of_le (by push_cast; linarith)] at ht
    have := hg (t - i) (by linarith [ht.1]) (by have := ht.2; push_cast at this; linarith)
    rw [show (i : ℝ) + (t - i) = t by ring] at this
    simp only [this]
    ring
  rw [e, intervalIntegral.integral_add (by simp) (by apply Continuous.intervalIntegrable; fun_prop), intervalIntegral.integral_const,
    intervalIntegral.integral_const_mul, integral_id]
  push_cast
  simp only [smul_eq_mul]
  ring

/-- **C103 (the opposite of `diff`).** Where the values are the slopes of a parabola at 0, 1, 2, ..., the pieces are the differences of the
parabola's values, exactly: `trapz(P')` is `diff(P)`. -/
theorem C103_trapz_diff (p q r : ℝ) (n : Nat) : ∃ y z, trapz ⟨n, fun k => 2 * p * k + q⟩ = .ok y ∧
    diff ⟨n, 1, fun k _ => p * k ^ 2 + q * k + r⟩ 1 (-1) = .ok z ∧ y.n = z.rows ∧ ∀ i, i + 1 < n → y.f i = z.at' i 0 := by
  refine ⟨_, _, rfl, rfl, rfl, fun i _ => ?_⟩
  change (2 * p * ((i + 1 : ℕ) : ℝ) + q + (2 * p * i + q)) / 2 = p * ((i + 1 : ℕ) : ℝ) ^ 2 + q * ((i + 1 : ℕ) : ℝ) + r - (p * (i : ℝ) ^ 2 + q * i + r)
  push_cast
  ring

/-- **C103 (accuracy).** For the values of a twice continuously differentiable function with second derivative at most `ζ`, every piece is within
`ζ / 12` of the integral of the function. -/
theorem C103_trapz_error {g : ℝ → ℝ} (hg : ContDiff ℝ 2 g) {ζ : ℝ} (hζ : ∀ t, |iteratedDeriv 2 g t| ≤ ζ) (n : Nat) :
    ∃ y, trapz ⟨n, fun k => g k⟩ = .ok y ∧ y.n = n - 1 ∧ ∀ i, i + 1 < n → |y.f i - ∫ t in (i : ℝ)..(i + 1 : ℕ), g t| ≤ ζ / 12 := by
  refine ⟨_, rfl, rfl, fun i _ => ?_⟩
  have hlt : (i : ℝ) < ((i + 1 : ℕ) : ℝ) := by push_cast; linarith
  have hu : UniqueDiffOn ℝ (Set.uIcc (i : ℝ) ((i + 1 : ℕ) : ℝ)) := by
    rw [Set.uIcc_of_le hlt.le]
    exact uniqueDiffOn_Icc hlt
  have hb : ∀ x, |iteratedDerivWithin 2 g (Set.uIcc (i : ℝ) ((i + 1 : ℕ) : ℝ)) x| ≤ ζ := by
    intro x
    by_cases hx : x ∈ Set.uIcc (i : ℝ) ((i + 1 : ℕ) : ℝ)
    · rw [iteratedDerivWithin_eq_iteratedDeriv hu hg.contDiffAt hx]
      exact hζ x
    · rw [iteratedDerivWithin_succ, derivWithin_zero_of_notMem_closure]
      · rw [abs_zero]
        exact (abs_nonneg _).trans (hζ 0)
      · rwa [Set.uIcc, isClosed_Icc.closure_eq]
  have h := trapezoidal_error_le_of_c2 (f := g) (a := i) (b := ((i + 1 : ℕ) : ℝ)) hg.contDiffOn hb (N := 1) one_pos
  have e : trapezoidal_error g 1 i ((i + 1 : ℕ) : ℝ) = (g ((i + 1 : ℕ) : ℝ) + g i) / 2 - ∫ t in (i : ℝ)..(i + 1 : ℕ), g t := by
    rw [trapezoidal_error, trapezoidal_integral_one]
    push_cast
    ring
  rw [e] at h
  refine h.trans (le_of_eq ?_)
  push_cast
  norm_num

/-- **C103 (ends).** With `modify_endpoints` the pieces add up to the sum of the values, if there are at least two; with fewer it raises
IndexError. Without, they add up to numpy's `trapz` (the sum of the values less half of the first and the last). (Finding: numpy's function of
that name returns that number; this one the vector of pieces.) -/
theorem C103_trapz_ends (x : Vec) :
    (x.n < 2 → trapz x true = .error .indexError) ∧
    (2 ≤ x.n → (∃ y, trapz x true = .ok y ∧ y.n = x.n - 1 ∧ ∑ i ∈ Finset.range y.n, y.f i = ∑ i ∈ Finset.range x.n, x.f i) ∧
      ∃ y, trapz x = .ok y ∧ ∑ i ∈ Finset.range y.n, y.f i = ∑ i ∈ Finset.range x.n, x.f i - (x.f 0 + x.f (x.n - 1)) / 2) := by
  have key : ∀ m : Nat, ∑ i ∈ Finset.range m, (x.f (i + 1) + x.f i) / 2 = ∑ i ∈ Finset.range (m + 1), x.f i - (x.f 0 + x.f m) / 2 := by
    intro m
    induction m with
    | zero => simp
    | succ m ih => rw [Finset.sum_range_succ, ih, Finset.sum_range_succ _ (m + 1)]; ring
  refine ⟨fun h => ?_, fun h => ⟨⟨((Vec.mk (x.n - 1) fun i => (x.f (i + 1) + x.f i) / 2).add 0 (x.f 0 * 0.5)).add (x.n - 1 - 1) (x.f (x.n - 1) * 0.5), ?_, rfl, ?_⟩, _, rfl, ?_⟩⟩
  · simp only [trapz, if_true]
    rw [if_pos (by omega)]
  · simp only [trapz, if_true]
    rw [if_neg (by omega)]
    rfl
  · obtain ⟨m, hm⟩ : ∃ m, x.n = m + 1 + 1 := ⟨x.n - 2, by omega⟩
    have k := key (m + 1)
    simp only [hm, Vec.add, Nat.add_sub_cancel]
    have s : ∀ i, (if i = m then (if i = 0 then (x.f (i + 1) + x.f i) / 2 + x.f 0 * 0.5 else (x.f (i + 1) + x.f i) / 2) + x.f (m + 1) * 0.5
        else if i = 0 then (x.f (i + 1) + x.f i) / 2 + x.f 0 * 0.5 else (x.f (i + 1) + x.f i) / 2)
        = (x.f (i + 1) + x.f i) / 2 + ((if i = 0 then x.f 0 * 0.5 else 0) + if i = m then x.f (m + 1) * 0.5 else 0) := by
      intro i
      split_ifs <;> ring
    rw [Finset.sum_congr rfl fun i _ => s i, Finset.sum_add_distrib, k, Finset.sum_add_distrib, Finset.sum_ite_eq', Finset.sum_ite_eq',
      if_pos (by simp), if_pos (by simp)]
    ring
  · have k := key (x.n - 1)
    rw [show x.n - 1 + 1 = x.n by omega] at k
    exact k

/-- Three values; four cosine-spaced points; the angle of the point (-1, 0). -/
example : (∃ y, trapz ⟨3, fun k => (k : ℝ) ^ 2⟩ true = .ok y ∧ ∑ i ∈ Finset.range y.n, y.f i = 5) ∧
    (cosspace 0 1 4).at' 1 0 < (cosspace 0 1 4).at' 2 0 ∧ arctan2d 0 (-1) = 180 := by
  refine ⟨?_, (C103_cosspace zero_lt_one (by norm_num)).2.2.1 1 2 (by norm_num) (by norm_num), ?_⟩
  · obtain ⟨⟨y, h1, -, h2⟩, -⟩ := (C103_trapz_ends ⟨3, fun k => (k : ℝ) ^ 2⟩).2 (by norm_num)
    exact ⟨y, h1, by rw [h2]; norm_num [Finset.sum_range_succ]⟩
  · refine ((C103_arctan2d (x := -1) (y := 0) (.inl (by norm_num)) 180).1).2 ⟨by norm_num, 1, one_pos, ?_, ?_⟩
    · rw [cosd, radians_180, Real.cos_pi]; norm_num
    · rw [sind, radians_180, Real.sin_pi]; norm_num

end Lumos.Cas
