import Verif.Trans.Points
import Verif.Trans.Matrices
import Mathlib.MeasureTheory.Integral.IntervalIntegral.FundThmCalculus
/-!
# Gauss-Radau quadrature

Mathematics behind the LGR points of `lumos/optimal_control/collocation.py`: Legendre polynomials are orthogonal, and the
interpolatory quadrature at the LGR points has positive weights and is exact for polynomials of degree `2N - 2`.
-/

namespace Lumos.Trans

open Polynomial Lumos intervalIntegral

/-! ## Orthogonality of the Legendre polynomials -/

theorem legendre_rec_poly (n : Nat) : C ((n : ℝ) + 2) * legendreP (n + 2)
    = C (2 * (n : ℝ) + 3) * (X * legendreP (n + 1)) - C ((n : ℝ) + 1) * legendreP n := by
  have h : (n : ℝ) + 2 ≠ 0 := by positivity
  rw [legendreP, mul_sub, ← mul_assoc, ← mul_assoc (C ((n : ℝ) + 2)), ← C_mul, ← C_mul]
  congr 3 <;> field_simp

theorem legendre_deriv (n : Nat) :
    derivative (legendreP (n + 1)) = X * derivative (legendreP n) + C ((n : ℝ) + 1) * legendreP n ∧
    X * derivative (legendreP (n + 1)) = derivative (legendreP n) + C ((n : ℝ) + 1) * legendreP (n + 1) := by
  induction n with
  | zero => simp [legendreP]
  | succ n ih =>
    obtain ⟨hA, hB⟩ := ih
    have h : C ((n : ℝ) + 2) ≠ 0 := by
      rw [Ne, C_eq_zero]; positivity
    have hd := congrArg derivative (legendre_rec_poly n)
    simp only [derivative_mul, derivative_sub, derivative_C, derivative_X, zero_mul, zero_add, one_mul] at hd
    have hr := legendre_rec_poly n
    have hA' : derivative (legendreP (n + 2)) = X * derivative (legendreP (n + 1)) + C ((n : ℝ) + 2) * legendreP (n + 1) := by
      apply mul_left_cancel₀ h
      simp only [C_add, C_mul, map_natCast, map_ofNat, C_1] at hd hA hB hr ⊢
      linear_combination hd + ((n : ℝ[X]) + 1) * hB
    have e : ((n + 1 : ℕ) : ℝ) + 1 = (n : ℝ) + 2 := by push_cast; ring
    rw [e]
    refine ⟨hA', ?_⟩
    simp only [C_add, C_mul, map_natCast, map_ofNat, C_1] at hd hA hB hr hA' ⊢
    linear_combination X * hA' + X * hB - hA - hr

theorem legendre_deriv_sub (n : Nat) :
    derivative (legendreP (n + 2)) - derivative (legendreP n) = C (2 * (n : ℝ) + 3) * legendreP (n + 1) := by
  have h1 := (legendre_deriv (n + 1)).1
  have h2 := (legendre_deriv n).2
  push_cast at h1
  simp only [C_add, C_mul, map_natCast, map_ofNat, C_1] at h1 h2 ⊢
  linear_combination h1 + h2

/-- The integral over an interval, as a linear functional on polynomials. -/
noncomputable def integral (a b : ℝ) (p : ℝ[X]) : ℝ := ∫ t in a..b, p.eval t

theorem integrable (p : ℝ[X]) (a b : ℝ) : IntervalIntegrable (fun t => p.eval t) MeasureTheory.volume a b :=
  p.continuous.intervalIntegrable a b

theorem integral_add (a b : ℝ) (p q : ℝ[X]) : integral a b (p + q) = integral a b p + integral a b q := by
  unfold integral
  rw [← intervalIntegral.integral_add (integrable p a b) (integrable q a b)]
  simp

theorem integral_C_mul (a b c : ℝ) (p : ℝ[X]) : integral a b (C c * p) = c * integral a b p := by
  unfold integral
  rw [← intervalIntegral.integral_const_mul]
  simp

theorem integral_sub (a b : ℝ) (p q : ℝ[X]) : integral a b (p - q) = integral a b p - integral a b q := by
  unfold integral
  rw [← intervalIntegral.integral_sub (integrable p a b) (integrable q a b)]
  simp

theorem integral_sum (a b : ℝ) {ι : Type} (s : Finset ι) (p : ι → ℝ[X]) :
    integral a b (∑ i ∈ s, p i) = ∑ i ∈ s, integral a b (p i) := by
  classical
  induction s using Finset.induction_on with
  | empty => simp [integral]
  | insert i s hi ih => rw [Finset.sum_insert hi, Finset.sum_insert hi, integral_add, ih]

theorem integral_deriv (a b : ℝ) (p : ℝ[X]) : integral a b (derivative p) = p.eval b - p.eval a := by
  unfold integral
  exact integral_eq_sub_of_hasDerivAt (fun x _ => p.hasDerivAt x) (integrable _ a b)

theorem integral_legendre (n : Nat) : integral (-1) 1 (legendreP (n + 1)) = 0 := by
  have h := congrArg (integral (-1) 1) (legendre_deriv_sub n)
  rw [integral_sub, integral_deriv, integral_deriv, integral_C_mul, legendre_eval_one, legendre_eval_one, legendre_eval_neg_one,
    legendre_eval_neg_one] at h
  have h3 : (2 * (n : ℝ) + 3) ≠ 0 := by positivity
  have : (2 * (n : ℝ) + 3) * integral (-1) 1 (legendreP (n + 1)) = 0 := by rw [← h]; ring
  exact (mul_eq_zero.mp this).resolve_left h3

theorem integral_X_pow_legendre (k : Nat) : ∀ n, k < n → integral (-1) 1 (X ^ k * legendreP n) = 0 := by
  induction k with
  | zero =>
    intro n hn
    obtain ⟨m, rfl⟩ : ∃ m, n = m + 1 := ⟨n - 1, by omega⟩
    rw [pow_zero, one_mul]
    exact integral_legendre m
  | succ k ih =>
    intro n hn
    obtain ⟨m, rfl⟩ : ∃ m, n = m + 1 := ⟨n - 1, by omega⟩
    have hr := legendre_rec_poly m
    have h3 : (2 * (m : ℝ) + 3) ≠ 0 := by positivity
    have e : C (2 * (m : ℝ) + 3) * (X ^ (k + 1) * legendreP (m + 1))
        = C ((m : ℝ) + 2) * (X ^ k * legendreP (m + 2)) + C ((m : ℝ) + 1) * (X ^ k * legendreP m) := by
      rw [pow_succ]; linear_combination -(X ^ k) * hr
    have h := congrArg (integral (-1) 1) e
    rw [integral_C_mul, integral_add, integral_C_mul, integral_C_mul, ih (m + 2) (by omega), ih m (by omega)] at h
    have : (2 * (m : ℝ) + 3) * integral (-1) 1 (X ^ (k + 1) * legendreP (m + 1)) = 0 := by rw [h]; ring
    exact (mul_eq_zero.mp this).resolve_left h3

/-- `P_n` is orthogonal to every polynomial of smaller degree. -/
theorem legendre_orthogonal {n : Nat} {p : ℝ[X]} (hp : p.natDegree < n) : integral (-1) 1 (p * legendreP n) = 0 := by
  conv_lhs => rw [p.as_sum_range_C_mul_X_pow]
  rw [Finset.sum_mul, integral_sum]
  refine Finset.sum_eq_zero fun k hk => ?_
  rw [mul_assoc, integral_C_mul, integral_X_pow_legendre k n (by have := Finset.mem_range.mp hk; omega), mul_zero]

/-- Different Legendre polynomials are orthogonal. -/
theorem legendre_orthogonal_pair {m n : Nat} (h : m ≠ n) : integral (-1) 1 (legendreP m * legendreP n) = 0 := by
  rcases Nat.lt_or_gt_of_ne h with h | h
  · exact legendre_orthogonal (by rw [(legendre_degree m).1]; exact h)
  · rw [mul_comm]
    exact legendre_orthogonal (by rw [(legendre_degree n).1]; exact h)

/-! ## Quadrature -/

/-- The node polynomial of the LGR points in relative time. -/
noncomputable def radauNode (n : Nat) : ℝ[X] := (legendreP n + legendreP (n + 1)).comp (C 1 - C 2 * X)

theorem natDegree_comp_affine (p : ℝ[X]) (a b : ℝ) : (p.comp (C a + C b * X)).natDegree ≤ p.natDegree := by
  refine natDegree_comp_le.trans ?_
  have h1 : (C a + C b * X : ℝ[X]).natDegree ≤ 1 := by
    refine natDegree_add_le_of_degree_le (by simp) ?_
    exact (natDegree_C_mul_le _ _).trans natDegree_X_le
  calc p.natDegree * (C a + C b * X : ℝ[X]).natDegree ≤ p.natDegree * 1 := Nat.mul_le_mul_left _ h1
    _ = p.natDegree := by rw [mul_one]

theorem radau_orthogonal {n : Nat} {p : ℝ[X]} (hp : p.natDegree < n) : integral 0 1 (p * radauNode n) = 0 := by
  obtain ⟨q, hq⟩ : ∃ q : ℝ[X], q = p.comp (C (1 / 2) + C (-1 / 2) * X) := ⟨_, rfl⟩
  have hqd : q.natDegree < n := lt_of_le_of_lt (hq ▸ natDegree_comp_affine p _ _) hp
  have h1 : integral (-1) 1 (q * (legendreP n + legendreP (n + 1))) = 0 := by
    rw [mul_add, integral_add, legendre_orthogonal hqd, legendre_orthogonal (by omega), add_zero]
  have h2 : integral 0 1 (p * radauNode n) = (2 : ℝ)⁻¹ * integral (-1) 1 (q * (legendreP n + legendreP (n + 1))) := by
    unfold integral
    have := intervalIntegral.integral_comp_sub_mul (a := (0 : ℝ)) (b := 1)
      (fun s => (q * (legendreP n + legendreP (n + 1))).eval s) (c := 2) (by norm_num) 1
    norm_num at this
    rw [show ((2 : ℝ)⁻¹) = 1 / 2 by norm_num] at *
    norm_num
    rw [← this]
    refine intervalIntegral.integral_congr fun t _ => ?_
    simp only [hq, radauNode, eval_mul, eval_comp, eval_add, eval_C, eval_X, eval_sub]
    ring_nf
  rw [h2, h1, mul_zero]

theorem radauNode_degree (n : Nat) : (radauNode n).natDegree = n + 1 := by
  unfold radauNode
  have h1 : (C 1 - C 2 * X : ℝ[X]).natDegree = 1 := by
    rw [show (C 1 - C 2 * X : ℝ[X]) = C (-2) * X + C 1 by simp; ring]
    exact natDegree_linear (by norm_num)
  rw [natDegree_comp, h1, mul_one, natDegree_add_eq_right_of_natDegree_lt]
  · exact (legendre_degree (n + 1)).1
  · rw [(legendre_degree n).1, (legendre_degree (n + 1)).1]; omega

/-- Quadrature weight of point `l`. -/
noncomputable def weight (c : List ℝ) (l : Nat) : ℝ := integral 0 1 (makeLagrange c l)

/-- Interpolatory quadrature is exact below the number of points. -/
theorem interpolatory {c : List ℝ} (hc : c.Pairwise (· < ·)) (p : ℝ[X]) (hp : p.natDegree < c.length) :
    integral 0 1 p = ∑ l ∈ Finset.range c.length, weight c l * p.eval (pt c l) := by
  conv_lhs => rw [eq_sum_basis hc p hp]
  rw [integral_sum]
  refine Finset.sum_congr rfl fun l _ => ?_
  rw [integral_C_mul, weight, mul_comm]

/-- The quadrature at the LGR points is exact up to degree `2n` for `n + 1` points. -/
theorem radau_exact {n : Nat} {c : List ℝ} (hl : c.length = n + 1) (hc : c.Pairwise (· < ·))
    (hr : ∀ l, l < n + 1 → (radauNode n).eval (pt c l) = 0) (p : ℝ[X]) (hp : p.natDegree ≤ 2 * n) :
    integral 0 1 p = ∑ l ∈ Finset.range (n + 1), weight c l * p.eval (pt c l) := by
  have hd := radauNode_degree n
  have hne : radauNode n ≠ 0 := by
    intro h; rw [h] at hd; simp at hd
  have hdiv := EuclideanDomain.div_add_mod p (radauNode n)
  have hmod : (p % radauNode n).natDegree < n + 1 := by
    rw [← hd]
    exact natDegree_mod_lt p (by omega)
  have hquo : integral 0 1 ((p / radauNode n) * radauNode n) = 0 := by
    by_cases h0 : p / radauNode n = 0
    · rw [h0, zero_mul]; simp [integral]
    · refine radau_orthogonal ?_
      have h1 : (radauNode n * (p / radauNode n)).natDegree ≤ 2 * n := by
        rw [show radauNode n * (p / radauNode n) = p - p % radauNode n by linear_combination hdiv]
        refine (natDegree_sub_le _ _).trans (max_le hp (by omega))
      rw [natDegree_mul hne h0, hd] at h1
      omega
  have h1 : integral 0 1 p = integral 0 1 (p % radauNode n) := by
    conv_lhs => rw [← hdiv]
    rw [integral_add, mul_comm, hquo, zero_add]
  rw [h1, interpolatory hc _ (by rw [hl]; exact hmod), hl]
  refine Finset.sum_congr rfl fun l hl' => ?_
  have e := congrArg (eval (pt c l)) hdiv
  rw [eval_add, eval_mul, hr l (Finset.mem_range.mp hl'), zero_mul, zero_add] at e
  rw [e]

theorem basis_eval {c : List ℝ} (hc : c.Pairwise (· < ·)) {i j : Nat} (hi : i < c.length) (hj : j < c.length) :
    (makeLagrange c i).eval (pt c j) = if i = j then 1 else 0 := by
  rw [makeLagrange_eq c hi]
  by_cases h : i = j
  · subst h
    rw [if_pos rfl]
    exact Lagrange.eval_basis_self (injOn_pt hc) (Finset.mem_range.mpr hi)
  · rw [if_neg h]
    exact Lagrange.eval_basis_of_ne h (Finset.mem_range.mpr hj)

theorem basis_degree {c : List ℝ} (hc : c.Pairwise (· < ·)) {i : Nat} (hi : i < c.length) :
    (makeLagrange c i).natDegree = c.length - 1 := by
  rw [makeLagrange_eq c hi, natDegree_eq_of_degree_eq_some (Lagrange.degree_basis (injOn_pt hc) (Finset.mem_range.mpr hi))]
  simp

/-- The quadrature weights at the LGR points are positive. -/
theorem radau_pos {n : Nat} {c : List ℝ} (hl : c.length = n + 1) (hc : c.Pairwise (· < ·)) (hin : ∀ t ∈ c, 0 < t ∧ t ≤ 1)
    (hr : ∀ l, l < n + 1 → (radauNode n).eval (pt c l) = 0) {l : Nat} (hk : l < n + 1) : 0 < weight c l := by
  have hk' : l < c.length := by omega
  have h := radau_exact hl hc hr (makeLagrange c l ^ 2) (by
    refine natDegree_pow_le.trans ?_
    rw [basis_degree hc hk', hl]; omega)
  have e : ∑ j ∈ Finset.range (n + 1), weight c j * (makeLagrange c l ^ 2).eval (pt c j) = weight c l := by
    rw [Finset.sum_eq_single l]
    · rw [eval_pow, basis_eval hc hk' hk']; simp
    · intro j hj hne
      rw [eval_pow, basis_eval hc hk' (by have := Finset.mem_range.mp hj; omega), if_neg (Ne.symm hne)]; simp
    · intro h; exact absurd (Finset.mem_range.mpr hk) h
  rw [e] at h
  rw [← h]
  unfold integral
  refine intervalIntegral.integral_pos (by norm_num) (makeLagrange c l ^ 2).continuous.continuousOn ?_ ?_
  · intro t _
    rw [eval_pow]; positivity
  · have hm : pt c l ∈ c := by
      unfold pt
      rw [List.getD_eq_getElem?_getD, List.getElem?_eq_getElem hk', Option.getD_some]
      exact List.getElem_mem hk'
    refine ⟨pt c l, ⟨(hin _ hm).1.le, (hin _ hm).2⟩, ?_⟩
    rw [eval_pow, basis_eval hc hk' hk', if_pos rfl]; norm_num

end Lumos.Trans
