import Verif.Cas.FdModel
import Mathlib.LinearAlgebra.Lagrange
import Mathlib.Algebra.Polynomial.Derivative
import Mathlib.Tactic.LinearCombination
import Mathlib.Tactic.FieldSimp
import Mathlib.Tactic.IntervalCases
/-!
# C88: the finite difference weights are exact on polynomials
-/

namespace Lumos.Cas

open Lumos Polynomial

theorem rowLoop_spec (x : Nat → ℝ) (x0 : ℝ) (M n v : Nat) (c3 : ℝ) (t : Table) (hn : 1 ≤ n) (k : Nat) (m' n' v' : Nat) :
    rowLoop x x0 M n v c3 t k m' n' v' = if m' < k ∧ n' = n ∧ v' = v
      then ((x n - x0) * t m' (n - 1) v - m' * t (before M m') (n - 1) v) / c3 else t m' n' v' := by
  induction k generalizing m' n' v' with
  | zero => simp [rowLoop]
  | succ k ih =>
    rw [rowLoop, List.range_succ, List.foldl_append, ← rowLoop]
    simp only [List.foldl_cons, List.foldl_nil, Table.set]
    have hne : ∀ a b, rowLoop x x0 M n v c3 t k a (n - 1) b = t a (n - 1) b := by
      intro a b; rw [ih, if_neg]; rintro ⟨-, h, -⟩; omega
    rw [hne, hne]
    by_cases h : m' = k ∧ n' = n ∧ v' = v
    · obtain ⟨rfl, rfl, rfl⟩ := h; simp
    · rw [if_neg h, ih]
      by_cases h2 : m' < k ∧ n' = n ∧ v' = v
      · rw [if_pos h2, if_pos ⟨by omega, h2.2⟩]
      · rw [if_neg h2, if_neg]
        rintro ⟨h3, h4⟩
        by_cases h5 : m' = k
        · exact h ⟨h5, h4⟩
        · exact h2 ⟨by omega, h4⟩

theorem nodeLoop_spec (x : Nat → ℝ) (x0 : ℝ) (M n : Nat) (t : Table) (hn : 1 ≤ n) (k : Nat) :
    (nodeLoop x x0 M n t k).2 = ∏ v ∈ Finset.range k, (x n - x v) ∧ ∀ m' n' v' : Nat,
    (nodeLoop x x0 M n t k).1 m' n' v' = if m' < min n M + 1 ∧ n' = n ∧ v' < k
      then ((x n - x0) * t m' (n - 1) v' - m' * t (before M m') (n - 1) v') / (x n - x v') else t m' n' v' := by
  induction k with
  | zero => simp [nodeLoop]
  | succ k ih =>
    obtain ⟨ih1, ih2⟩ := ih
    rw [nodeLoop, List.range_succ, List.foldl_append, ← nodeLoop]
    simp only [List.foldl_cons, List.foldl_nil]
    refine ⟨by rw [ih1, Finset.prod_range_succ], ?_⟩
    intro m' n' v'
    rw [rowLoop_spec _ _ _ _ _ _ _ hn]
    have hne : ∀ a b, (nodeLoop x x0 M n t k).1 a (n - 1) b = t a (n - 1) b := by
      intro a b; rw [ih2, if_neg]; rintro ⟨-, h, -⟩; omega
    rw [hne, hne, ih2]
    by_cases h : m' < min n M + 1 ∧ n' = n ∧ v' = k
    · obtain ⟨h1, rfl, rfl⟩ := h; simp [h1]
    · rw [if_neg h]
      by_cases h2 : m' < min n M + 1 ∧ n' = n ∧ v' < k
      · rw [if_pos h2, if_pos ⟨h2.1, h2.2.1, by omega⟩]
      · rw [if_neg h2, if_neg]
        rintro ⟨h3, h4, h5⟩
        by_cases h6 : v' = k
        · exact h ⟨h3, h4, h6⟩
        · exact h2 ⟨h3, h4, by omega⟩

theorem newLoop_spec (x : Nat → ℝ) (x0 : ℝ) (M n : Nat) (c1 c2 : ℝ) (t : Table) (hn : 1 ≤ n) (k : Nat) (m' n' v' : Nat) :
    newLoop x x0 M n c1 c2 t k m' n' v' = if m' < k ∧ n' = n ∧ v' = n
      then c1 / c2 * (m' * t (before M m') (n - 1) (n - 1) - (x (n - 1) - x0) * t m' (n - 1) (n - 1)) else t m' n' v' := by
  induction k generalizing m' n' v' with
  | zero => simp [newLoop]
  | succ k ih =>
    rw [newLoop, List.range_succ, List.foldl_append, ← newLoop]
    simp only [List.foldl_cons, List.foldl_nil, Table.set]
    have hne : ∀ a b, newLoop x x0 M n c1 c2 t k a (n - 1) b = t a (n - 1) b := by
      intro a b; rw [ih, if_neg]; rintro ⟨-, h, -⟩; omega
    rw [hne, hne]
    by_cases h : m' = k ∧ n' = n ∧ v' = n
    · obtain ⟨rfl, h2, rfl⟩ := h; simp [h2]
    · rw [if_neg h, ih]
      by_cases h2 : m' < k ∧ n' = n ∧ v' = n
      · rw [if_pos h2, if_pos ⟨by omega, h2.2⟩]
      · rw [if_neg h2, if_neg]
        rintro ⟨h3, h4⟩
        by_cases h5 : m' = k
        · exact h ⟨h5, h4⟩
        · exact h2 ⟨by omega, h4⟩

/-- The Lagrange basis polynomial of node `v` among the nodes `0..n`. -/
noncomputable def base (x : Nat → ℝ) (n v : Nat) : ℝ[X] := Lagrange.basis (Finset.range (n + 1)) x v

/-- Its derivative of order `m` at `x0`. -/
noncomputable def dBase (x : Nat → ℝ) (x0 : ℝ) (m n v : Nat) : ℝ := (derivative^[m] (base x n v)).eval x0

theorem base_old (x : Nat → ℝ) (n v : Nat) (hv : v ≤ n) :
    base x (n + 1) v = Lagrange.basisDivisor (x v) (x (n + 1)) * base x n v := by
  unfold base Lagrange.basis
  have : (Finset.range (n + 1 + 1)).erase v = insert (n + 1) ((Finset.range (n + 1)).erase v) := by
    ext a; simp only [Finset.mem_erase, Finset.mem_range, Finset.mem_insert]; omega
  rw [this, Finset.prod_insert]
  simp only [Finset.mem_erase, Finset.mem_range]; omega

theorem base_last (x : Nat → ℝ) (n : Nat) :
    base x n n = C (∏ v ∈ Finset.range n, (x n - x v))⁻¹ * ∏ v ∈ Finset.range n, (X - C (x v)) := by
  unfold base Lagrange.basis
  have : (Finset.range (n + 1)).erase n = Finset.range n := by
    ext a; simp only [Finset.mem_erase, Finset.mem_range]; omega
  rw [this]
  unfold Lagrange.basisDivisor
  rw [Finset.prod_mul_distrib, ← Finset.prod_inv_distrib, ← map_prod]

theorem iterate_linear (a : ℝ) (f : ℝ[X]) (m : Nat) :
    derivative^[m] ((X - C a) * f) = (X - C a) * derivative^[m] f + (m : ℝ[X]) * derivative^[m - 1] f := by
  induction m with
  | zero => simp
  | succ m ih =>
    rw [Function.iterate_succ_apply', ih]
    simp only [derivative_add, derivative_mul, derivative_sub, derivative_X, derivative_C, derivative_natCast]
    rw [← Function.iterate_succ_apply' derivative m]
    rcases m with _ | m
    · simp; ring
    · simp only [Nat.add_sub_cancel]
      rw [← Function.iterate_succ_apply' derivative m]
      push_cast; ring

theorem dBase_zero (x : Nat → ℝ) (x0 : ℝ) (m n v : Nat) (hx : Set.InjOn x (Finset.range (n + 1) : Finset Nat)) (hv : v ≤ n) (h : n < m) :
    dBase x x0 m n v = 0 := by
  unfold dBase
  rw [iterate_derivative_eq_zero]
  · simp
  · unfold base
    have h2 := Lagrange.degree_basis (s := Finset.range (n + 1)) (v := x) (i := v) hx (by simp; omega)
    have h3 : (Lagrange.basis (Finset.range (n + 1)) x v).natDegree = n := by
      rw [natDegree_eq_of_degree_eq_some]; rw [h2]; simp
    omega

theorem dBase_old (x : Nat → ℝ) (x0 : ℝ) (m n v : Nat) (hv : v ≤ n) (hx : x (n + 1) ≠ x v) :
    dBase x x0 m (n + 1) v = ((x (n + 1) - x0) * dBase x x0 m n v - m * dBase x x0 (m - 1) n v) / (x (n + 1) - x v) := by
  unfold dBase
  rw [base_old x n v hv]
  unfold Lagrange.basisDivisor
  rw [mul_assoc, iterate_derivative_C_mul, iterate_linear]
  have h1 : x (n + 1) - x v ≠ 0 := sub_ne_zero.2 hx
  have h2 : x v - x (n + 1) ≠ 0 := sub_ne_zero.2 (Ne.symm hx)
  simp only [eval_mul, eval_C, eval_add, eval_sub, eval_X, eval_natCast]
  field_simp
  ring

theorem dBase_new (x : Nat → ℝ) (x0 : ℝ) (m n : Nat) (hx : ∏ v ∈ Finset.range n, (x n - x v) ≠ 0) :
    dBase x x0 m (n + 1) (n + 1) = (∏ v ∈ Finset.range n, (x n - x v)) / (∏ v ∈ Finset.range (n + 1), (x (n + 1) - x v)) *
      (m * dBase x x0 (m - 1) n n - (x n - x0) * dBase x x0 m n n) := by
  have key : base x (n + 1) (n + 1) = C ((∏ v ∈ Finset.range n, (x n - x v)) / (∏ v ∈ Finset.range (n + 1), (x (n + 1) - x v))) *
      ((X - C (x n)) * base x n n) := by
    rw [base_last, base_last, Finset.prod_range_succ (f := fun v => X - C (x v)), div_eq_mul_inv, map_mul]
    have : C (∏ v ∈ Finset.range n, (x n - x v)) * C (∏ v ∈ Finset.range n, (x n - x v))⁻¹ = (1 : ℝ[X]) := by
      rw [← map_mul, mul_inv_cancel₀ hx, map_one]
    linear_combination (-(C (∏ v ∈ Finset.range (n + 1), (x (n + 1) - x v))⁻¹ * (∏ v ∈ Finset.range n, (X - C (x v))) * (X - C (x n)))) * this
  unfold dBase
  rw [key, iterate_derivative_C_mul, iterate_linear]
  simp only [eval_mul, eval_C, eval_add, eval_sub, eval_X, eval_natCast]
  ring

/-- After the outer loop has reached `N`, row `n` of the table has the derivatives of the basis polynomials of the nodes `0..n`. -/
theorem fdLoop_spec (x : Nat → ℝ) (x0 : ℝ) (M N : Nat) (hx : Set.InjOn x (Finset.range (N + 1) : Finset Nat)) :
    (fdLoop x x0 M N).2 = ∏ v ∈ Finset.range N, (x N - x v) ∧
    (∀ m n v : Nat, N < n ∨ n < m → (fdLoop x x0 M N).1 m n v = 0) ∧
    ∀ m n v : Nat, m ≤ M → n ≤ N → v ≤ n → (fdLoop x x0 M N).1 m n v = dBase x x0 m n v := by
  induction N with
  | zero =>
    refine ⟨by simp [fdLoop], ?_, ?_⟩
    · intro m n v h
      simp only [fdLoop, List.range_zero, List.foldl_nil, Table.set]
      rw [if_neg]; omega
    · intro m n v hm hn hv
      obtain rfl : n = 0 := by omega
      obtain rfl : v = 0 := by omega
      rcases m with _ | m
      · simp [fdLoop, Table.set, dBase, base, Lagrange.basis]
      · rw [dBase_zero x x0 _ _ _ hx le_rfl (by omega)]
        simp [fdLoop, Table.set]
  | succ N ih =>
    have hsub : Set.InjOn x (Finset.range (N + 1) : Finset Nat) := hx.mono (by
      intro a ha; simp only [Finset.coe_range, Set.mem_Iio] at *; omega)
    obtain ⟨ih1, ih2, ih3⟩ := ih hsub
    have hne : ∀ v, v ≤ N → x (N + 1) ≠ x v := by
      intro v hv h
      have := hx (by simp) (by simp; omega) h
      omega
    have hprod : ∏ v ∈ Finset.range N, (x N - x v) ≠ 0 := by
      rw [Finset.prod_ne_zero_iff]
      intro v hv h
      rw [Finset.mem_range] at hv
      have := hx (by simp) (by simp; omega) (sub_eq_zero.1 h)
      omega
    have hbef : ∀ m, m ≤ M → before M m ≤ M := by intro m hm; unfold before; split <;> omega
    obtain ⟨n1, n2⟩ := nodeLoop_spec x x0 M (N + 1) (fdLoop x x0 M N).1 (by omega) (N + 1)
    have hold : ∀ (m v : Nat), m ≤ M → v ≤ N →
        (m : ℝ) * (fdLoop x x0 M N).1 (before M m) N v = m * dBase x x0 (m - 1) N v := by
      intro m v hm hv
      rcases m with _ | m
      · simp
      · rw [ih3 _ _ _ (hbef _ hm) le_rfl hv]
        simp [before]
    have step : fdLoop x x0 M (N + 1) = fdStep x x0 M (fdLoop x x0 M N) (N + 1) := by
      rw [fdLoop, List.range_succ, List.foldl_append, ← fdLoop]; rfl
    rw [step]
    unfold fdStep
    refine ⟨n1, ?_, ?_⟩
    · intro m n v h
      simp only
      rw [newLoop_spec _ _ _ _ _ _ _ (by omega), if_neg (by omega), n2, if_neg (by omega)]
      exact ih2 _ _ _ (by omega)
    · intro m n v hm hn hv
      simp only
      rw [newLoop_spec _ _ _ _ _ _ _ (by omega)]
      by_cases h1 : m < min (N + 1) M + 1 ∧ n = N + 1 ∧ v = N + 1
      · obtain ⟨h1, rfl, rfl⟩ := h1
        rw [if_pos ⟨h1, rfl, rfl⟩, n1, ih1, n2, n2, if_neg (by omega), if_neg (by omega), Nat.add_sub_cancel,
          hold m N hm le_rfl, ih3 _ _ _ hm le_rfl le_rfl, dBase_new x x0 m N hprod]
      · rw [if_neg h1, n2, Nat.add_sub_cancel]
        by_cases h2 : m < min (N + 1) M + 1 ∧ n = N + 1 ∧ v < N + 1
        · obtain ⟨h3, rfl, h4⟩ := h2
          rw [if_pos ⟨h3, rfl, h4⟩, hold m v hm (by omega), ih3 _ _ _ hm le_rfl (by omega),
            dBase_old x x0 m N v (by omega) (hne v (by omega))]
        · rw [if_neg h2]
          by_cases h5 : n = N + 1
          · subst h5
            have : N + 1 < m := by omega
            rw [ih2 _ _ _ (by omega), dBase_zero x x0 _ _ _ hx hv this]
          · exact ih3 _ _ _ hm (by omega) hv

/-- The weights `w` at the nodes `x` differentiate every polynomial of degree below the number of nodes, at `x0`, `M` times. -/
def Differentiates (x w : List ℝ) (x0 : ℝ) (M : Nat) : Prop :=
  w.length = x.length ∧ ∀ P : ℝ[X], P.natDegree < x.length →
    (List.zipWith (fun a b => a * P.eval b) w x).sum = (derivative^[M] P).eval x0

theorem sum_zipWith_range (f : Nat → ℝ) (g : ℝ → ℝ) (x : List ℝ) :
    (List.zipWith (fun a b => a * g b) ((List.range x.length).map f) x).sum = ∑ i ∈ Finset.range x.length, f i * g (x.getD i 0) := by
  induction x using List.reverseRecOn with
  | nil => simp
  | append_singleton l a ih =>
    simp only [List.length_append, List.length_singleton]
    rw [List.range_succ, List.map_append, List.zipWith_append (by simp), List.sum_append, ih, Finset.sum_range_succ]
    congr 1
    · refine Finset.sum_congr rfl fun i hi => ?_
      rw [Finset.mem_range] at hi
      simp [List.getD, List.getElem?_append, hi]
    · simp [List.getD]

theorem lagrange_sum (x : List ℝ) (hx : x.Nodup) (P : ℝ[X]) (hP : P.natDegree < x.length) :
    P = ∑ i ∈ Finset.range x.length, C (P.eval (x.getD i 0)) * Lagrange.basis (Finset.range x.length) (fun i => x.getD i 0) i := by
  have hinj : Set.InjOn (fun i => x.getD i 0) (Finset.range x.length : Finset Nat) := by
    intro i hi j hj h
    simp only [Finset.coe_range, Set.mem_Iio] at hi hj
    simp only [List.getD_eq_getElem?_getD, List.getElem?_eq_getElem hi, List.getElem?_eq_getElem hj, Option.getD_some] at h
    exact (hx.getElem_inj_iff).1 h
  have h := Lagrange.eq_interpolate (s := Finset.range x.length) (v := fun i => x.getD i 0) (f := P) hinj (by
    rw [Finset.card_range]
    exact lt_of_le_of_lt degree_le_natDegree (by exact_mod_cast hP))
  rw [Lagrange.interpolate_apply] at h
  exact h

/-- Theorem (C88). With at least `M + 1` distinct nodes, in any order, the function returns weights, one for each node, with which the
weighted sum of the values of a polynomial is its derivative of order `M` at `x0`, for every polynomial of degree below the number of
nodes and every `x0`, on a node or not. -/
theorem C88_exact (x : List ℝ) (x0 : ℝ) (M : Nat) (hM : 1 ≤ M) (hn : M < x.length) (hx : x.Nodup) :
    ∃ w, fdCoefficients x x0 M = .ok (.weights w) ∧ Differentiates x w x0 M := by
  obtain ⟨N, hN⟩ : ∃ N, x.length = N + 1 := ⟨x.length - 1, by omega⟩
  have hinj : Set.InjOn (fun i => x.getD i 0) (Finset.range (N + 1) : Finset Nat) := by
    intro i hi j hj h
    simp only [Finset.coe_range, Set.mem_Iio, ← hN] at hi hj
    simp only [List.getD_eq_getElem?_getD, List.getElem?_eq_getElem hi, List.getElem?_eq_getElem hj, Option.getD_some] at h
    exact (hx.getElem_inj_iff).1 h
  refine ⟨(List.range (x.length - 1 + 1)).map fun v =>
    (fdLoop (fun i => x.getD i 0) x0 (M : Int).toNat (x.length - 1)).1 (M : Int).toNat (x.length - 1) v, ?_, ?_⟩
  · unfold fdCoefficients
    rw [if_neg (by omega), if_neg (by omega), if_neg (by simpa using hx)]
  · refine ⟨by simp; omega, ?_⟩
    intro P hP
    have e : x.length - 1 + 1 = x.length := by omega
    rw [e, sum_zipWith_range]
    have h1 := lagrange_sum x hx P hP
    conv_rhs => rw [h1]
    rw [iterate_derivative_sum, eval_finsetSum]
    refine Finset.sum_congr rfl fun i hi => ?_
    rw [Finset.mem_range] at hi
    rw [iterate_derivative_C_mul, eval_mul, eval_C, mul_comm]
    congr 1
    have e2 : x.length - 1 = N := by omega
    rw [e2, Int.toNat_natCast, (fdLoop_spec _ x0 M N hinj).2.2 M N i le_rfl le_rfl (by omega), dBase, base, hN]

/-- Theorem (C88). These weights are the only ones. -/
theorem C88_unique (x w w' : List ℝ) (x0 : ℝ) (M : Nat) (hx : x.Nodup) (h : Differentiates x w x0 M) (h' : Differentiates x w' x0 M) :
    w = w' := by
  obtain ⟨l, h⟩ := h
  obtain ⟨l', h'⟩ := h'
  have rep : ∀ v : List ℝ, v.length = x.length → v = (List.range x.length).map fun i => v.getD i 0 := by
    intro v hv
    apply List.ext_getElem (by simp [hv])
    intro i h1 h2
    simp [h1]
  have key : ∀ v : List ℝ, v.length = x.length → ∀ k, k < x.length →
      (List.zipWith (fun a b => a * (Lagrange.basis (Finset.range x.length) (fun i => x.getD i 0) k).eval b) v x).sum = v.getD k 0 := by
    intro v hv k hk
    rw [rep v hv, sum_zipWith_range (fun i => v.getD i 0)
      (fun b => (Lagrange.basis (Finset.range x.length) (fun i => x.getD i 0) k).eval b)]
    have hinj : Set.InjOn (fun i => x.getD i 0) (Finset.range x.length : Finset Nat) := by
      intro i hi j hj h
      simp only [Finset.coe_range, Set.mem_Iio] at hi hj
      simp only [List.getD_eq_getElem?_getD, List.getElem?_eq_getElem hi, List.getElem?_eq_getElem hj, Option.getD_some] at h
      exact (hx.getElem_inj_iff).1 h
    rw [Finset.sum_eq_single k]
    · have := Lagrange.eval_basis_self (s := Finset.range x.length) (v := fun i => x.getD i 0) (i := k) hinj (by simpa using hk)
      rw [this, mul_one]
      simp [hk]
    · intro b hb hbk
      have := Lagrange.eval_basis_of_ne (s := Finset.range x.length) (v := fun i => x.getD i 0) (i := k) (j := b) (Ne.symm hbk) hb
      rw [this, mul_zero]
    · intro h; simp at h; omega
  have deg : ∀ k, k < x.length → (Lagrange.basis (Finset.range x.length) (fun i => x.getD i 0) k).natDegree < x.length := by
    intro k hk
    have hinj : Set.InjOn (fun i => x.getD i 0) (Finset.range x.length : Finset Nat) := by
      intro i hi j hj h
      simp only [Finset.coe_range, Set.mem_Iio] at hi hj
      simp only [List.getD_eq_getElem?_getD, List.getElem?_eq_getElem hi, List.getElem?_eq_getElem hj, Option.getD_some] at h
      exact (hx.getElem_inj_iff).1 h
    have h2 := Lagrange.degree_basis (s := Finset.range x.length) (v := fun i => x.getD i 0) (i := k) hinj (by simpa using hk)
    rw [natDegree_eq_of_degree_eq_some h2]
    simp; omega
  rw [rep w l, rep w' l']
  apply List.map_congr_left
  intro k hk
  rw [List.mem_range] at hk
  rw [← key w l k hk, ← key w' l' k hk, h _ (deg k hk), h' _ (deg k hk)]

/-- Theorem (C88, finding). With too few nodes, or an order below one, the function does not raise: it returns an exception as its value. -/
theorem C88_returns_error (x : List ℝ) (x0 : ℝ) (M : Int) (h : M < 1 ∨ (x.length : Int) ≤ M) :
    fdCoefficients x x0 M = .ok .valueError := by
  unfold fdCoefficients
  by_cases h1 : M < 1
  · rw [if_pos h1]
  · rw [if_neg h1, if_pos (by omega)]

/-- Three nodes and the second derivative: the classical weights 1, -2, 1. -/
example : fdCoefficients [-1, 0, 1] 0 (2 : Nat) = .ok (.weights [1, -2, 1]) := by
  obtain ⟨w, h1, h2⟩ := C88_exact [-1, 0, 1] 0 2 (by omega) (by simp) (by norm_num)
  have h3 : Differentiates [-1, 0, 1] [1, -2, 1] 0 2 := by
    refine ⟨rfl, fun P hP => ?_⟩
    have hP' : P.natDegree ≤ 2 := by simp at hP; omega
    have e := P.as_sum_range_C_mul_X_pow' (n := 3) (by omega)
    rw [e]
    simp [Finset.sum_range_succ]
    ring
  rw [h1, C88_unique _ _ _ _ _ (by norm_num) h2 h3]

end Lumos.Cas
