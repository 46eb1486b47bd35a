import Verif.Trans.Model
import Verif.Ocp.Mesh
/-!
# The collocation points (C37)
-/

namespace Lumos.Trans

open Polynomial Lumos

theorem legSeries_append (n : Nat) (a : List ℝ) : legSeries (List.replicate n 0 ++ a)
    = ((List.range a.length).map fun (i : Nat) => C (a.getD i 0) * legendreP (n + i)).sum := by
  unfold legSeries
  rw [List.length_append, List.length_replicate, List.range_add, List.map_append, List.sum_append]
  have h0 : ((List.range n).map fun (i : Nat) => C ((List.replicate n (0 : ℝ) ++ a).getD i 0) * legendreP i).sum = 0 := by
    apply List.sum_eq_zero
    intro p hp
    obtain ⟨i, hi, rfl⟩ := List.mem_map.mp hp
    have hi' := List.mem_range.mp hi
    simp [hi', List.getElem?_append_left]
  rw [h0, zero_add, List.map_map]
  congr 1
  refine List.map_congr_left fun i _ => ?_
  simp [List.getElem?_append_right]

/-- A strictly increasing enumeration of the roots is what `roots()` returns. -/
theorem polyRoots_eq {p : ℝ[X]} {n : Nat} {w : Nat → ℝ} (hw : ∀ i j, i < j → j < n → w i < w j)
    (hr : p.roots = (Multiset.range n).map w) : polyRoots p = (List.range n).map w := by
  unfold polyRoots
  have hperm : (p.roots.sort (· ≤ ·)).Perm ((List.range n).map w) := by
    rw [← Multiset.coe_eq_coe, Multiset.sort_eq, hr]
    rfl
  refine hperm.eq_of_pairwise (le := (· ≤ ·)) (fun a b _ _ h1 h2 => le_antisymm h1 h2) ?_ ?_
  · exact Multiset.pairwise_sort _ _
  · rw [List.pairwise_map]
    refine List.Pairwise.imp_of_mem ?_ (List.pairwise_lt_range (n := n))
    intro i j _ hj hij
    exact le_of_lt (hw i j hij (List.mem_range.mp hj))

theorem pairwise_range_map {n : Nat} {w : Nat → ℝ} (hw : ∀ i j, i < j → j < n → w i < w j) :
    ((List.range n).map w).Pairwise (· < ·) := by
  rw [List.pairwise_map]
  refine List.Pairwise.imp_of_mem ?_ (List.pairwise_lt_range (n := n))
  intro i j _ hj hij
  exact hw i j hij (List.mem_range.mp hj)

/-- **C37 (LGR points).** For every `N ≥ 1` the `N` LGR points exist, are strictly increasing in `(-1, 1]`, the
last one is 1, and they are exactly the negated zeros of `P_{N-1} + P_N`. -/
theorem C37_lgr_points (N : Int) (hN : 1 ≤ N) : ∃ pts : List ℝ, collocationPoints N .LGR = .ok pts
    ∧ (pts.length : Int) = N ∧ pts.Pairwise (· < ·) ∧ (∀ t ∈ pts, -1 < t ∧ t ≤ 1) ∧ pts.getLast? = some 1
    ∧ ∀ t, t ∈ pts ↔ (legendreP (N - 1).toNat).eval (-t) + (legendreP N.toNat).eval (-t) = 0 := by
  obtain ⟨n, rfl⟩ : ∃ n : Nat, N = (n : Int) + 1 := ⟨(N - 1).toNat, by omega⟩
  obtain ⟨w, w0, hw, hlt, hr⟩ := radau_roots n
  have hs : legSeries (List.replicate n 0 ++ [1, 1]) = legendreP n + legendreP (n + 1) := by
    rw [legSeries_append]; simp [List.range_succ]
  have e1 : ((n : Int) + 1 - 1).toNat = n := by omega
  have e2 : ((n : Int) + 1).toNat = n + 1 := by omega
  have hpts : collocationPoints ((n : Int) + 1) .LGR
      = .ok (((List.range (n + 1)).map w).reverse.map fun t => -t) := by
    unfold collocationPoints
    rw [if_neg (by omega), e1]
    dsimp only
    rw [hs, polyRoots_eq hw hr]
  have hne : legendreP n + legendreP (n + 1) ≠ 0 := by
    intro h
    have := congrArg (eval 1) h
    simp [legendre_eval_one] at this
  refine ⟨_, hpts, by simp, ?_, ?_, ?_, ?_⟩
  · rw [List.pairwise_map, List.pairwise_reverse]
    exact (pairwise_range_map hw).imp fun h => neg_lt_neg h
  · intro t ht
    simp only [List.mem_map, List.mem_reverse, List.mem_range] at ht
    obtain ⟨_, ⟨k, hk, rfl⟩, rfl⟩ := ht
    refine ⟨neg_lt_neg (hlt k hk), ?_⟩
    rcases Nat.eq_zero_or_pos k with rfl | h
    · rw [w0]; norm_num
    · have := hw 0 k h hk
      rw [w0] at this
      linarith
  · rw [List.getLast?_map, List.getLast?_reverse]
    simp [List.range_succ_eq_map, w0]
  · intro t
    rw [e1, e2, ← eval_add]
    have := mem_roots hne (a := -t)
    rw [hr] at this
    rw [← IsRoot.def, ← this]
    simp only [List.mem_map, List.mem_reverse, List.mem_range, Multiset.mem_map, Multiset.mem_range]
    constructor
    · rintro ⟨_, ⟨k, hk, rfl⟩, rfl⟩
      exact ⟨k, hk, by simp⟩
    · rintro ⟨k, hk, h⟩
      exact ⟨w k, ⟨k, hk, rfl⟩, by rw [h]; simp⟩

/-- **C37 (LG points).** For every `N ≥ 1` the `N` LG points exist, are strictly increasing in `(-1, 1)`, and are
exactly the zeros of `P_N`. -/
theorem C37_lg_points (N : Int) (hN : 1 ≤ N) : ∃ pts : List ℝ, collocationPoints N .LG = .ok pts
    ∧ (pts.length : Int) = N ∧ pts.Pairwise (· < ·) ∧ (∀ t ∈ pts, -1 < t ∧ t < 1)
    ∧ ∀ t, t ∈ pts ↔ (legendreP N.toNat).eval t = 0 := by
  obtain ⟨n, rfl⟩ : ∃ n : Nat, N = (n : Int) + 1 := ⟨(N - 1).toNat, by omega⟩
  obtain ⟨w, hw, hin, hr, _⟩ := legendre_roots n
  have hs : legSeries (List.replicate (n + 1) 0 ++ [1]) = legendreP (n + 1) := by
    rw [legSeries_append]; simp [List.range_succ]
  have e2 : ((n : Int) + 1).toNat = n + 1 := by omega
  have hpts : collocationPoints ((n : Int) + 1) .LG = .ok ((List.range (n + 1)).map w) := by
    unfold collocationPoints
    rw [if_neg (by omega), e2]
    dsimp only
    rw [hs, polyRoots_eq hw hr]
  refine ⟨_, hpts, by simp, pairwise_range_map hw, ?_, ?_⟩
  · intro t ht
    simp only [List.mem_map, List.mem_range] at ht
    obtain ⟨k, hk, rfl⟩ := ht
    exact hin k hk
  · intro t
    rw [e2]
    have := mem_roots (legendre_ne_zero (n + 1)) (a := t)
    rw [hr] at this
    rw [← IsRoot.def, ← this]
    simp only [List.mem_map, List.mem_range, Multiset.mem_map, Multiset.mem_range]

/-- The derivative of `P_{n+1}` has `n` simple zeros, all in `(-1, 1)`. -/
theorem legendre_deriv_roots (n : Nat) : ∃ x : Nat → ℝ, (∀ i j, i < j → j < n → x i < x j)
    ∧ (∀ k, k < n → -1 < x k ∧ x k < 1) ∧ (derivative (legendreP (n + 1))).roots = (Multiset.range n).map x := by
  obtain ⟨w, hw, hin, hr, _⟩ := legendre_roots n
  have hzero : ∀ k, k < n + 1 → (legendreP (n + 1)).eval (w k) = 0 := by
    intro k hk
    have : w k ∈ (legendreP (n + 1)).roots := by
      rw [hr]; exact Multiset.mem_map.mpr ⟨k, Multiset.mem_range.mpr hk, rfl⟩
    exact (mem_roots (legendre_ne_zero _)).mp this
  have hroll : ∀ k, ∃ x, k < n → w k < x ∧ x < w (k + 1) ∧ (derivative (legendreP (n + 1))).eval x = 0 := by
    intro k
    by_cases hk : k < n
    · obtain ⟨x, hx, hd⟩ := exists_deriv_eq_zero (f := fun t => (legendreP (n + 1)).eval t)
        (hw k (k + 1) (by omega) (by omega)) (legendreP (n + 1)).continuous.continuousOn
        (by simp only [hzero k (by omega), hzero (k + 1) (by omega)])
      rw [Polynomial.deriv] at hd
      exact ⟨x, fun _ => ⟨hx.1, hx.2, hd⟩⟩
    · exact ⟨0, fun h => absurd h hk⟩
  choose x hx using hroll
  have hmono : ∀ i j, i < j → j < n → x i < x j :=
    mono_of_step fun k hk => ((hx k (by omega)).2.1).trans (hx (k + 1) hk).1
  have hdeg : (derivative (legendreP (n + 1))).natDegree = n := by
    have hd := (legendre_degree (n + 1))
    refine le_antisymm ((natDegree_derivative_le _).trans (by rw [hd.1]; omega)) (le_natDegree_of_ne_zero ?_)
    have hl := hd.2
    rw [leadingCoeff, hd.1] at hl
    rw [coeff_derivative]
    have : (0 : ℝ) < (n : ℝ) + 1 := by positivity
    exact (mul_pos hl this).ne'
  have hne : derivative (legendreP (n + 1)) ≠ 0 := by
    intro h
    have := derivative_eq_zero.mp h
    rw [(legendre_degree _).1] at this
    omega
  refine ⟨x, hmono, ?_, roots_eq _ _ hne hdeg x hmono fun k hk => (hx k hk).2.2⟩
  intro k hk
  obtain ⟨h1, h2, _⟩ := hx k hk
  exact ⟨(hin k (by omega)).1.trans h1, h2.trans (hin (k + 1) (by omega)).2⟩

/-- **C37 (LGL points).** For every `N ≥ 2` the `N` LGL points exist, are strictly increasing from -1 to 1, and the
inner ones are exactly the zeros of `P'_{N-1}`. -/
theorem C37_lgl_points (N : Int) (hN : 2 ≤ N) : ∃ pts : List ℝ, collocationPoints N .LGL = .ok pts
    ∧ (pts.length : Int) = N ∧ pts.Pairwise (· < ·) ∧ pts.head? = some (-1) ∧ pts.getLast? = some 1
    ∧ ∀ t, -1 < t → t < 1 → (t ∈ pts ↔ (derivative (legendreP (N - 1).toNat)).eval t = 0) := by
  obtain ⟨n, rfl⟩ : ∃ n : Nat, N = (n : Int) + 2 := ⟨(N - 2).toNat, by omega⟩
  obtain ⟨x, hx, hin, hr⟩ := legendre_deriv_roots n
  have hs : legSeries (List.replicate (n + 1) 0 ++ [1]) = legendreP (n + 1) := by
    rw [legSeries_append]; simp [List.range_succ]
  have e1 : ((n : Int) + 2 - 1).toNat = n + 1 := by omega
  have hpts : collocationPoints ((n : Int) + 2) .LGL = .ok ((-1 : ℝ) :: (List.range n).map x ++ [1]) := by
    unfold collocationPoints
    rw [if_neg (by omega), e1]
    dsimp only
    rw [hs, polyRoots_eq hx hr]
  have hne : derivative (legendreP (n + 1)) ≠ 0 := by
    intro h
    have := derivative_eq_zero.mp h
    rw [(legendre_degree _).1] at this
    omega
  refine ⟨_, hpts, by simp; omega, ?_, by simp, by rw [List.getLast?_concat], ?_⟩
  · rw [List.cons_append, List.pairwise_cons, List.pairwise_append]
    refine ⟨?_, pairwise_range_map hx, by simp, ?_⟩
    · intro t ht
      simp only [List.mem_append, List.mem_map, List.mem_range, List.mem_singleton] at ht
      rcases ht with ⟨k, hk, rfl⟩ | rfl
      · exact (hin k hk).1
      · norm_num
    · intro a ha b hb
      simp only [List.mem_map, List.mem_range] at ha
      obtain ⟨k, hk, rfl⟩ := ha
      rw [List.mem_singleton.mp hb]
      exact (hin k hk).2
  · intro t h1 h2
    rw [e1]
    have := mem_roots hne (a := t)
    rw [hr] at this
    rw [← IsRoot.def, ← this]
    simp [ne_of_gt h1, ne_of_lt h2]

/-- **C37 (errors and a finding).** Fewer than one point is an AssertionError; and `num_points = 1` with scheme LGL
returns two points. -/
theorem C37_errors : (∀ (N : Int) (s : Scheme), N < 1 → collocationPoints N s = .error .assertionError)
    ∧ collocationPoints 1 .LGL = .ok [-1, 1] := by
  constructor
  · intro N s h; simp [collocationPoints, h]
  · have hs : legSeries ([] ++ [1]) = 1 := by simp [legSeries, legendreP]
    have h : polyRoots (derivative (legSeries ([] ++ [1]))) = [] := by
      rw [hs]; simp [polyRoots]
    unfold collocationPoints
    rw [if_neg (by omega)]
    have e : ((1 : Int) - 1).toNat = 0 := rfl
    dsimp only
    rw [e, List.replicate_zero, h]
    rfl

end Lumos.Trans
