import Mathlib.Algebra.Polynomial.Roots
import Mathlib.Algebra.Polynomial.Splits
import Mathlib.Topology.Algebra.Polynomial
import Mathlib.Topology.Order.IntermediateValue
import Mathlib.Analysis.Calculus.Deriv.Polynomial
import Mathlib.Analysis.Calculus.LocalExtr.Rolle
import Mathlib.Tactic.Linarith
import Mathlib.Tactic.Ring
import Mathlib.Tactic.FieldSimp
import Mathlib.Tactic.Positivity
import Mathlib.Tactic.NormNum
import Mathlib.Data.Multiset.Sort
/-!
# Legendre polynomials and their roots

Mathematics behind `lumos/optimal_control/collocation.py`: the Legendre polynomials by their three-term recursion, the
reality, simplicity, location and interlacing of their roots, and the same for `P_{N-1} + P_N`.
-/

namespace Lumos.Trans

open Polynomial

/-- Legendre polynomials by Bonnet's recursion. -/
noncomputable def legendreP : Nat → ℝ[X]
  | 0 => 1
  | 1 => X
  | n + 2 => C ((2 * (n : ℝ) + 3) / (n + 2)) * (X * legendreP (n + 1)) - C (((n : ℝ) + 1) / (n + 2)) * legendreP n

theorem legendre_rec (n : Nat) (t : ℝ) : (legendreP (n + 2)).eval t
    = (2 * (n : ℝ) + 3) / (n + 2) * (t * (legendreP (n + 1)).eval t) - ((n : ℝ) + 1) / (n + 2) * (legendreP n).eval t := by
  simp [legendreP]

theorem legendre_eval_one : ∀ n, (legendreP n).eval 1 = 1 := by
  intro n
  induction n using Nat.strong_induction_on with
  | _ n ih =>
    match n with
    | 0 => simp [legendreP]
    | 1 => simp [legendreP]
    | n + 2 =>
      rw [legendre_rec, ih (n + 1) (by omega), ih n (by omega)]
      have : (n : ℝ) + 2 ≠ 0 := by positivity
      field_simp
      ring

theorem legendre_eval_neg_one : ∀ n, (legendreP n).eval (-1) = (-1) ^ n := by
  intro n
  induction n using Nat.strong_induction_on with
  | _ n ih =>
    match n with
    | 0 => simp [legendreP]
    | 1 => simp [legendreP]
    | n + 2 =>
      rw [legendre_rec, ih (n + 1) (by omega), ih n (by omega)]
      have : (n : ℝ) + 2 ≠ 0 := by positivity
      field_simp
      ring

theorem legendre_degree : ∀ n, (legendreP n).natDegree = n ∧ 0 < (legendreP n).leadingCoeff := by
  intro n
  induction n using Nat.strong_induction_on with
  | _ n ih =>
    match n with
    | 0 => simp [legendreP]
    | 1 => simp [legendreP]
    | n + 2 =>
      obtain ⟨d1, l1⟩ := ih (n + 1) (by omega)
      obtain ⟨d0, l0⟩ := ih n (by omega)
      have hpos : (0 : ℝ) < (2 * (n : ℝ) + 3) / (n + 2) := by positivity
      have hne : legendreP (n + 1) ≠ 0 := by
        intro h; rw [h] at l1; simp at l1
      have dx : (X * legendreP (n + 1)).natDegree = n + 2 := by
        rw [natDegree_X_mul hne, d1]
      have da : (C ((2 * (n : ℝ) + 3) / (n + 2)) * (X * legendreP (n + 1))).natDegree = n + 2 := by
        rw [natDegree_C_mul (ne_of_gt hpos), dx]
      have hcoef : (legendreP (n + 2)).coeff (n + 2)
          = (2 * (n : ℝ) + 3) / (n + 2) * (legendreP (n + 1)).leadingCoeff := by
        simp only [legendreP, coeff_sub, coeff_C_mul, coeff_X_mul]
        rw [coeff_eq_zero_of_natDegree_lt (n := n + 2) (by omega), leadingCoeff, d1]
        ring
      have hle : (legendreP (n + 2)).natDegree ≤ n + 2 := by
        simp only [legendreP]
        refine (natDegree_sub_le _ _).trans (max_le (le_of_eq da) ?_)
        exact (natDegree_C_mul_le _ _).trans (by omega)
      have hc : 0 < (legendreP (n + 2)).coeff (n + 2) := by rw [hcoef]; positivity
      have hd : (legendreP (n + 2)).natDegree = n + 2 :=
        le_antisymm hle (le_natDegree_of_ne_zero (ne_of_gt hc))
      exact ⟨hd, by rw [leadingCoeff, hd]; exact hc⟩

theorem legendre_ne_zero (n : Nat) : legendreP n ≠ 0 := by
  intro h
  have := (legendre_degree n).2
  rw [h] at this
  simp at this

/-! ## From sign changes to roots -/

theorem root_between (p : ℝ[X]) {a b : ℝ} (hab : a < b) (σ : ℝ) (ha : 0 < -σ * p.eval a) (hb : 0 < σ * p.eval b) :
    ∃ c, a < c ∧ c < b ∧ p.eval c = 0 := by
  have hσ : σ ≠ 0 := by rintro rfl; simp at hb
  have hcont : ContinuousOn (fun t => σ * p.eval t) (Set.Icc a b) :=
    (continuous_const.mul p.continuous).continuousOn
  have := intermediate_value_Ioo (le_of_lt hab) hcont
  have h0 : (0 : ℝ) ∈ Set.Ioo (σ * p.eval a) (σ * p.eval b) := ⟨by linarith [neg_mul σ (p.eval a)], hb⟩
  obtain ⟨c, hc, he⟩ := this h0
  refine ⟨c, hc.1, hc.2, ?_⟩
  rcases mul_eq_zero.mp he with h | h
  · exact absurd h hσ
  · exact h

/-- Alternating signs at `y 0 < … < y n` give a root in each gap. -/
theorem alternating_roots (p : ℝ[X]) (n : Nat) (y : Nat → ℝ) (hy : ∀ k, k < n → y k < y (k + 1))
    (hs : ∀ k, k ≤ n → 0 < (-1) ^ (n - k) * p.eval (y k)) :
    ∃ w : Nat → ℝ, ∀ k, k < n → y k < w k ∧ w k < y (k + 1) ∧ p.eval (w k) = 0 := by
  have : ∀ k, ∃ c, k < n → y k < c ∧ c < y (k + 1) ∧ p.eval c = 0 := by
    intro k
    by_cases hk : k < n
    · have h1 := hs k (by omega)
      have h2 := hs (k + 1) (by omega)
      have e : n - k = (n - (k + 1)) + 1 := by omega
      obtain ⟨c, hc⟩ := root_between p (hy k hk) ((-1) ^ (n - (k + 1))) (by rw [e, pow_succ] at h1; linarith) h2
      exact ⟨c, fun _ => hc⟩
    · exact ⟨0, fun h => absurd h hk⟩
  choose w hw using this
  exact ⟨w, hw⟩

/-- A polynomial of degree `n` with roots `x 0 < … < x (n-1)` has no other roots, and they are simple. -/
theorem roots_eq (p : ℝ[X]) (n : Nat) (hp : p ≠ 0) (hd : p.natDegree = n) (x : Nat → ℝ)
    (hx : ∀ i j, i < j → j < n → x i < x j) (hr : ∀ k, k < n → p.eval (x k) = 0) :
    p.roots = (Multiset.range n).map x := by
  have hinj : ∀ i ∈ Finset.range n, ∀ j ∈ Finset.range n, x i = x j → i = j := by
    intro i hi j hj h
    rw [Finset.mem_range] at hi hj
    rcases lt_trichotomy i j with h1 | h1 | h1
    · exact absurd h (ne_of_lt (hx i j h1 hj))
    · exact h1
    · exact absurd h.symm (ne_of_lt (hx j i h1 hi))
  have hnd : ((Multiset.range n).map x).Nodup := by
    refine Multiset.Nodup.map_on ?_ (Multiset.nodup_range n)
    intro i hi j hj
    exact hinj i (by simpa using hi) j (by simpa using hj)
  have hle : (Multiset.range n).map x ≤ p.roots := by
    rw [Multiset.le_iff_subset hnd]
    intro a ha
    obtain ⟨k, hk, rfl⟩ := Multiset.mem_map.mp ha
    rw [mem_roots hp]
    exact hr k (by simpa using hk)
  symm
  refine Multiset.eq_of_le_of_card_le hle ?_
  rw [Multiset.card_map, Multiset.card_range, ← hd]
  exact card_roots' p

theorem eval_eq_prod (p : ℝ[X]) (n : Nat) (hd : p.natDegree = n) (x : Nat → ℝ)
    (hr : p.roots = (Multiset.range n).map x) (t : ℝ) :
    p.eval t = p.leadingCoeff * ∏ k ∈ Finset.range n, (t - x k) := by
  have hc : p.roots.card = p.natDegree := by rw [hr, Multiset.card_map, Multiset.card_range, hd]
  have h := C_leadingCoeff_mul_prod_multiset_X_sub_C hc
  conv_lhs => rw [← h]
  rw [eval_mul, eval_C, eval_multiset_prod, hr, Multiset.map_map, Multiset.map_map]
  congr 1
  rw [Finset.prod_eq_multiset_prod, Finset.range_val]
  congr 1
  refine Multiset.map_congr rfl fun k _ => ?_
  simp

/-- Sign of a product of differences. -/
theorem sign_prod (n : Nat) (x : Nat → ℝ) (t : ℝ) (k : Nat) (hk : k ≤ n) (h1 : ∀ j, j < k → x j < t)
    (h2 : ∀ j, k ≤ j → j < n → t < x j) : 0 < (-1 : ℝ) ^ (n - k) * ∏ j ∈ Finset.range n, (t - x j) := by
  induction n with
  | zero => simp
  | succ n ih =>
    rw [Finset.prod_range_succ]
    by_cases hkn : k ≤ n
    · have hi := ih hkn (fun j hj hjn => h2 j hj (by omega))
      have hlt := h2 n hkn (by omega)
      have e : n + 1 - k = (n - k) + 1 := by omega
      rw [e, pow_succ]
      have : 0 < x n - t := by linarith
      nlinarith [mul_pos hi this]
    · have hk' : k = n + 1 := by omega
      subst hk'
      rw [Nat.sub_self, pow_zero, one_mul]
      refine mul_pos (Finset.prod_pos fun j hj => ?_) ?_
      · have := h1 j (by have := Finset.mem_range.mp hj; omega); linarith
      · have := h1 n (by omega); linarith

/-! ## Roots of the Legendre polynomials -/

theorem mono_of_step {x : Nat → ℝ} {n : Nat} (h : ∀ k, k + 1 < n → x k < x (k + 1)) :
    ∀ i j, i < j → j < n → x i < x j := by
  intro i j hij hj
  induction j with
  | zero => omega
  | succ j ih =>
    rcases Nat.lt_or_ge i j with h1 | h1
    · exact (ih h1 (by omega)).trans (h j hj)
    · have : i = j := by omega
      subst this
      exact h i hj

/-- `P_n` (`n ≥ 1`) has `n` simple roots in `(-1, 1)`, and `P_{n-1}` alternates in sign on them. -/
theorem legendre_roots (n : Nat) : ∃ x : Nat → ℝ,
    (∀ i j, i < j → j < n + 1 → x i < x j) ∧ (∀ k, k < n + 1 → -1 < x k ∧ x k < 1)
      ∧ (legendreP (n + 1)).roots = (Multiset.range (n + 1)).map x
      ∧ ∀ k, k < n + 1 → 0 < (-1 : ℝ) ^ (n - k) * (legendreP n).eval (x k) := by
  induction n with
  | zero =>
    refine ⟨fun _ => 0, ?_, ?_, ?_, ?_⟩
    · intro i j h1 h2; omega
    · intro k _; norm_num
    · simp [legendreP]
    · intro k _; simp [legendreP]
  | succ n ih =>
    obtain ⟨x, hx, hin, hr, hs⟩ := ih
    -- the points -1, x 0, …, x n, 1
    let y : Nat → ℝ := fun k => if k = 0 then -1 else if k ≤ n + 1 then x (k - 1) else 1
    have y0 : y 0 = -1 := rfl
    have yk : ∀ k, k < n + 1 → y (k + 1) = x k := by
      intro k hk
      simp only [y, Nat.add_eq_zero_iff, one_ne_zero, and_false, if_false, Nat.add_sub_cancel]
      rw [if_pos (by omega)]
    have yl : y (n + 2) = 1 := by
      simp only [y, Nat.add_eq_zero_iff, OfNat.ofNat_ne_zero, and_false, if_false]
      rw [if_neg (by omega)]
    have hy : ∀ k, k < n + 2 → y k < y (k + 1) := by
      intro k hk
      rcases Nat.eq_zero_or_pos k with rfl | hk0
      · rw [y0, yk 0 (by omega)]; exact (hin 0 (by omega)).1
      · obtain ⟨j, rfl⟩ : ∃ j, k = j + 1 := ⟨k - 1, by omega⟩
        rw [yk j (by omega)]
        rcases Nat.lt_or_ge (j + 1) (n + 1) with h | h
        · rw [yk (j + 1) h]; exact hx j (j + 1) (by omega) h
        · have : j = n := by omega
          subst this
          rw [yl]; exact (hin j (by omega)).2
    have hzero : ∀ k, k < n + 1 → (legendreP (n + 1)).eval (x k) = 0 := by
      intro k hk
      have : x k ∈ (legendreP (n + 1)).roots := by
        rw [hr]; exact Multiset.mem_map.mpr ⟨k, Multiset.mem_range.mpr hk, rfl⟩
      exact (mem_roots (legendre_ne_zero _)).mp this
    have hsign : ∀ k, k ≤ n + 2 → 0 < (-1 : ℝ) ^ (n + 2 - k) * (legendreP (n + 2)).eval (y k) := by
      intro k hk
      rcases Nat.eq_zero_or_pos k with rfl | hk0
      · rw [y0, legendre_eval_neg_one, Nat.sub_zero, ← mul_pow]; norm_num
      · obtain ⟨j, rfl⟩ : ∃ j, k = j + 1 := ⟨k - 1, by omega⟩
        rcases Nat.lt_or_ge j (n + 1) with h | h
        · rw [yk j h, legendre_rec, hzero j h]
          have e : n + 2 - (j + 1) = (n - j) + 1 := by omega
          have hj := hs j h
          have hc : (0 : ℝ) < ((n : ℝ) + 1) / (n + 2) := by positivity
          rw [e, pow_succ]
          nlinarith [mul_pos hc hj]
        · have : j = n + 1 := by omega
          subst this
          rw [yl, legendre_eval_one]; simp
    obtain ⟨w, hw⟩ := alternating_roots (legendreP (n + 2)) (n + 2) y hy hsign
    have hwmono : ∀ i j, i < j → j < n + 2 → w i < w j :=
      mono_of_step fun k hk => ((hw k (by omega)).2.1).trans (hw (k + 1) hk).1
    have hylt : ∀ k, k < n + 2 → -1 ≤ y k := by
      intro k hk
      rcases Nat.eq_zero_or_pos k with rfl | hk0
      · rw [y0]
      · obtain ⟨j, rfl⟩ : ∃ j, k = j + 1 := ⟨k - 1, by omega⟩
        rw [yk j (by omega)]; exact le_of_lt (hin j (by omega)).1
    have hygt : ∀ k, k < n + 2 → y (k + 1) ≤ 1 := by
      intro k hk
      rcases Nat.lt_or_ge k (n + 1) with h | h
      · rw [yk k h]; exact le_of_lt (hin k h).2
      · have : k = n + 1 := by omega
        subst this
        rw [yl]
    refine ⟨w, hwmono, ?_, ?_, ?_⟩
    · intro k hk
      obtain ⟨h1, h2, _⟩ := hw k hk
      exact ⟨lt_of_le_of_lt (hylt k hk) h1, lt_of_lt_of_le h2 (hygt k hk)⟩
    · exact roots_eq _ _ (legendre_ne_zero _) (legendre_degree _).1 w hwmono fun k hk => (hw k hk).2.2
    · intro k hk
      obtain ⟨h1, h2, _⟩ := hw k hk
      rw [eval_eq_prod _ _ (legendre_degree (n + 1)).1 x hr]
      have hp := sign_prod (n + 1) x (w k) k (by omega) (fun j hj => ?_) (fun j hj hjn => ?_)
      · have hl := (legendre_degree (n + 1)).2
        nlinarith [mul_pos hl hp]
      · obtain ⟨i, rfl⟩ : ∃ i, k = i + 1 := ⟨k - 1, by omega⟩
        rw [yk i (by omega)] at h1
        rcases Nat.lt_or_ge j i with h | h
        · exact (hx j i h (by omega)).trans h1
        · have : j = i := by omega
          subst this; exact h1
      · rw [yk k (by omega)] at h2
        rcases Nat.lt_or_ge k j with h | h
        · exact h2.trans (hx k j h hjn)
        · have : j = k := by omega
          subst this; exact h2

/-- `P_n + P_{n+1}` has the simple root `-1` and `n` further simple roots in `(-1, 1)`, and no other. -/
theorem radau_roots (n : Nat) : ∃ w : Nat → ℝ, w 0 = -1
    ∧ (∀ i j, i < j → j < n + 1 → w i < w j) ∧ (∀ k, k < n + 1 → w k < 1)
      ∧ (legendreP n + legendreP (n + 1)).roots = (Multiset.range (n + 1)).map w := by
  obtain ⟨x, hx, hin, hr, hs⟩ := legendre_roots n
  have hzero : ∀ k, k < n + 1 → (legendreP (n + 1)).eval (x k) = 0 := by
    intro k hk
    have : x k ∈ (legendreP (n + 1)).roots := by
      rw [hr]; exact Multiset.mem_map.mpr ⟨k, Multiset.mem_range.mpr hk, rfl⟩
    exact (mem_roots (legendre_ne_zero _)).mp this
  obtain ⟨v, hv⟩ := alternating_roots (legendreP n + legendreP (n + 1)) n x
    (fun k hk => hx k (k + 1) (by omega) (by omega))
    (fun k hk => by rw [eval_add, hzero k (by omega), add_zero]; exact hs k (by omega))
  let w : Nat → ℝ := fun k => if k = 0 then -1 else v (k - 1)
  have ws : ∀ k, w (k + 1) = v k := fun k => by simp [w]
  have hmono : ∀ i j, i < j → j < n + 1 → w i < w j := by
    refine mono_of_step fun k hk => ?_
    rcases Nat.eq_zero_or_pos k with rfl | hk0
    · rw [ws 0]
      exact (hin 0 (by omega)).1.trans (hv 0 (by omega)).1
    · obtain ⟨j, rfl⟩ : ∃ j, k = j + 1 := ⟨k - 1, by omega⟩
      rw [ws, ws]
      exact (hv j (by omega)).2.1.trans (hv (j + 1) (by omega)).1
  have hdeg : (legendreP n + legendreP (n + 1)).natDegree = n + 1 := by
    rw [natDegree_add_eq_right_of_natDegree_lt, (legendre_degree _).1]
    rw [(legendre_degree _).1, (legendre_degree _).1]; omega
  have hne : legendreP n + legendreP (n + 1) ≠ 0 := by
    intro h; rw [h] at hdeg; simp at hdeg
  refine ⟨w, rfl, hmono, ?_, ?_⟩
  · intro k hk
    rcases Nat.eq_zero_or_pos k with rfl | hk0
    · show (-1 : ℝ) < 1; norm_num
    · obtain ⟨j, rfl⟩ : ∃ j, k = j + 1 := ⟨k - 1, by omega⟩
      rw [ws]
      exact (hv j (by omega)).2.1.trans (hin (j + 1) (by omega)).2
  · refine roots_eq _ _ hne hdeg w hmono fun k hk => ?_
    rcases Nat.eq_zero_or_pos k with rfl | hk0
    · show (legendreP n + legendreP (n + 1)).eval (-1) = 0
      rw [eval_add, legendre_eval_neg_one, legendre_eval_neg_one, pow_succ]; ring
    · obtain ⟨j, rfl⟩ : ∃ j, k = j + 1 := ⟨k - 1, by omega⟩
      rw [ws]
      exact (hv j (by omega)).2.2

end Lumos.Trans
