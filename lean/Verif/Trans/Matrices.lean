import Verif.Trans.Points
import Mathlib.LinearAlgebra.Lagrange
import Mathlib.MeasureTheory.Integral.IntervalIntegral.FundThmCalculus
/-!
# Lagrange bases, the differentiation and the integration matrix
-/

namespace Lumos.Trans

open Polynomial Lumos

/-- The `k`-th point of a list. -/
def pt (s : List ℝ) (k : Nat) : ℝ := s.getD k 0

theorem foldl_mul (l : List Nat) (f : Nat → ℝ[X]) (a : ℝ[X]) :
    l.foldl (fun (p : ℝ[X]) (k : Nat) => p * f k) a = a * (l.map f).prod := by
  induction l generalizing a with
  | nil => simp
  | cons k l ih => simp [ih, mul_assoc]

theorem sum_range {M : Type} [AddCommMonoid M] (n : Nat) (f : Nat → M) :
    ((List.range n).map f).sum = ∑ k ∈ Finset.range n, f k := by
  rw [Finset.sum_eq_multiset_sum, Finset.range_val]
  rfl

/-- `make_lagrange_polynomial` gives the Lagrange basis polynomial. -/
theorem makeLagrange_eq (s : List ℝ) {i : Nat} (hi : i < s.length) :
    makeLagrange s i = Lagrange.basis (Finset.range s.length) (pt s) i := by
  unfold makeLagrange scipyLagrange
  rw [sum_range, Finset.sum_eq_single i]
  · rw [foldl_mul]
    have : ((List.replicate s.length (0 : ℝ)).set i 1).getD i 0 = 1 := by
      simp [hi]
    rw [this, C_1, one_mul, Lagrange.basis, Finset.prod_eq_multiset_prod]
    have he : ((Finset.range s.length).erase i).val = (((List.range s.length).filter (· ≠ i) : List Nat) : Multiset Nat) := by
      have h1 : (Finset.range s.length).erase i = (Finset.range s.length).filter (· ≠ i) := by
        ext k; simp [and_comm]
      rw [h1]; rfl
    rw [he, Multiset.map_coe, Multiset.prod_coe]
    congr 1
    refine List.map_congr_left fun k _ => ?_
    simp [Lagrange.basisDivisor, pt]
  · intro j hj hji
    rw [foldl_mul]
    have : ((List.replicate s.length (0 : ℝ)).set i 1).getD j 0 = 0 := by
      have hj' := Finset.mem_range.mp hj
      simp [Ne.symm hji, hj']
    rw [this, C_0, zero_mul]
  · intro h; exact absurd (Finset.mem_range.mpr hi) h

theorem injOn_pt {s : List ℝ} (hs : s.Pairwise (· < ·)) : Set.InjOn (pt s) (Finset.range s.length) := by
  intro i hi j hj h
  have hi' : i < s.length := by simpa using hi
  have hj' : j < s.length := by simpa using hj
  have e : ∀ k (hk : k < s.length), s.getD k 0 = s[k] := fun k hk => by simp [hk]
  simp only [pt, e i hi', e j hj'] at h
  rw [List.pairwise_iff_getElem] at hs
  rcases Nat.lt_trichotomy i j with h1 | h1 | h1
  · exact absurd h (ne_of_lt (hs i j hi' hj' h1))
  · exact h1
  · exact absurd h (ne_of_gt (hs j i hj' hi' h1))

/-- A polynomial of degree below the number of points is the combination of the basis with its values. -/
theorem eq_sum_basis {s : List ℝ} (hs : s.Pairwise (· < ·)) (p : ℝ[X]) (hp : p.natDegree < s.length) :
    p = ∑ j ∈ Finset.range s.length, C (p.eval (pt s j)) * makeLagrange s j := by
  have hd : p.degree < (Finset.range s.length).card := by
    rw [Finset.card_range]
    exact lt_of_le_of_lt degree_le_natDegree (by exact_mod_cast hp)
  conv_lhs => rw [Lagrange.eq_interpolate (injOn_pt hs) hd, Lagrange.interpolate_apply]
  refine Finset.sum_congr rfl fun j hj => ?_
  rw [makeLagrange_eq s (Finset.mem_range.mp hj)]

theorem getD_map_map {α β : Type} (l : List α) (f : α → List β) (i j : Nat) (a : α) (b : β) (hi : i < l.length) :
    ((l.map f).getD i []).getD j b = (f (l.getD i a)).getD j b := by
  simp [hi]

/-- Entry of the differentiation matrix. -/
theorem diffMatrix_entry (s e : List ℝ) {i j : Nat} (hi : i < e.length) (hj : j < s.length) :
    ((diffMatrix s e).getD i []).getD j 0 = (derivative (makeLagrange s j)).eval (pt e i) := by
  simp [diffMatrix, evalMatrix, lagrangeBasis, hi, hj, pt]

theorem integMatrix_entry (s e : List ℝ) {i j : Nat} (hi : i < e.length) (hj : j < s.length) :
    ((integMatrix s e).getD i []).getD j 0
      = (integ (makeLagrange s j)).eval (pt e i) - (integ (makeLagrange s j)).eval (pt s 0) := by
  simp [integMatrix, evalMatrix, lagrangeBasis, hi, hj, pt]

/-- The differentiation matrix applied to the values of a polynomial gives its derivative. -/
theorem diffMatrix_exact {s : List ℝ} (hs : s.Pairwise (· < ·)) (e : List ℝ) (p : ℝ[X]) (hp : p.natDegree < s.length)
    {i : Nat} (hi : i < e.length) :
    ∑ j ∈ Finset.range s.length, ((diffMatrix s e).getD i []).getD j 0 * p.eval (pt s j)
      = (derivative p).eval (pt e i) := by
  conv_rhs => rw [eq_sum_basis hs p hp]
  rw [derivative_sum, eval_finsetSum]
  refine Finset.sum_congr rfl fun j hj => ?_
  rw [diffMatrix_entry s e hi (Finset.mem_range.mp hj), derivative_C_mul, eval_C_mul, mul_comm]

theorem derivative_integ (p : ℝ[X]) : derivative (integ p) = p := by
  unfold integ
  rw [Polynomial.sum, derivative_sum]
  conv_rhs => rw [p.as_sum_support]
  refine Finset.sum_congr rfl fun k _ => ?_
  rw [derivative_monomial]
  have h : ((k : ℝ) + 1) ≠ 0 := by positivity
  simp [h]

/-- Differences of the antiderivative are integrals. -/
theorem integ_eval (p : ℝ[X]) (a b : ℝ) : (integ p).eval b - (integ p).eval a = ∫ t in a..b, p.eval t := by
  refine (intervalIntegral.integral_eq_sub_of_hasDerivAt (f := fun t => (integ p).eval t) ?_ ?_).symm
  · intro t _
    have := (integ p).hasDerivAt t
    rwa [derivative_integ] at this
  · exact p.continuous.intervalIntegrable _ _

/-- The integration matrix applied to the values of a polynomial gives its integral from the first point. -/
theorem integMatrix_exact {s : List ℝ} (hs : s.Pairwise (· < ·)) (e : List ℝ) (p : ℝ[X])
    (hp : p.natDegree < s.length) {i : Nat} (hi : i < e.length) :
    ∑ j ∈ Finset.range s.length, ((integMatrix s e).getD i []).getD j 0 * p.eval (pt s j)
      = ∫ t in (pt s 0)..(pt e i), p.eval t := by
  have hfun : (fun t => p.eval t)
      = fun t => ∑ j ∈ Finset.range s.length, p.eval (pt s j) * (makeLagrange s j).eval t := by
    funext t
    conv_lhs => rw [eq_sum_basis hs p hp]
    rw [eval_finsetSum]
    refine Finset.sum_congr rfl fun j _ => by rw [eval_C_mul]
  rw [hfun, intervalIntegral.integral_finsetSum]
  · refine Finset.sum_congr rfl fun j hj => ?_
    rw [integMatrix_entry s e hi (Finset.mem_range.mp hj), integ_eval, intervalIntegral.integral_const_mul, mul_comm]
  · intro j _
    exact (continuous_const.mul (makeLagrange s j).continuous).intervalIntegrable _ _

end Lumos.Trans
