import Verif.Order.Stable
/-!
# The default LGR method written out (transcription.py:141, three stages per interval)
-/

namespace Lumos.Fix

open Lumos Lumos.Trans Lumos.Order Polynomial

/-- The change of a state over an LGR interval. -/
theorem lgr_end {m : Int} {c : Colloc} (h : mkColloc m = .ok c) {q : Nat} (h1 : c.numStages = q + 2) {X Xd : Nat → ℝ} {hh : ℝ}
    (hs : Steps (.lgr c) X Xd hh) : X (q + 1) = X 0 + hh * ∑ l ∈ Finset.range (q + 1), weight c.collocationPoints l * Xd (l + 1) := by
  obtain ⟨n, h1', h2, h3, h4, h5, h6, h7, h8, h9⟩ := mkColloc_radau h
  obtain rfl : n = q := by omega
  obtain ⟨p, hd, p0, p1, hp⟩ := lgr_poly h h1 hs
  have e := interpolatory h3 (derivative p) (by have := natDegree_derivative_le p; omega)
  rw [integral_deriv, p0, p1, h2] at e
  have : ∑ l ∈ Finset.range (n + 1), weight c.collocationPoints l * (derivative p).eval (pt c.collocationPoints l)
      = hh * ∑ l ∈ Finset.range (n + 1), weight c.collocationPoints l * Xd (l + 1) := by
    rw [Finset.mul_sum]
    exact Finset.sum_congr rfl fun l hl => by rw [(hp l (Finset.mem_range.mp hl)).2]; ring
  linarith

theorem points_three {c : Colloc} (h : mkColloc 3 = .ok c) : c.numStages = 3 ∧ c.collocationPoints = [1 / 3, 1] ∧ c.interpPoints = [0, 1 / 3, 1] := by
  obtain ⟨n, h1, h2, h3, h4, h5, h6, h7, h8, h9⟩ := mkColloc_radau h
  have hn : c.numStages = 3 := by
    obtain ⟨c', k1, k2, -⟩ := mkColloc_ok 3 (by norm_num)
    rw [h, Except.ok.injEq] at k1
    subst k1
    omega
  obtain rfl : n = 1 := by omega
  have e : c.collocationPoints = [1 / 3, 1] := by
    match hc : c.collocationPoints, h2 with
    | [a, b], _ =>
      rw [hc] at h3 h4 h5 h6
      have hb : b = 1 := by simpa using h5
      have ha := h6 0 (by norm_num)
      have hlt : a < b := by simpa using h3
      simp only [radauNode, legendreP, pt, eval_comp, eval_add, eval_sub, eval_mul, eval_C, eval_X, eval_one, List.getD_cons_zero] at ha
      norm_num at ha
      have h0 : (a - 1) * (3 * a - 1) = 0 := by nlinarith
      rcases mul_eq_zero.mp h0 with h0 | h0
      · linarith
      · rw [hb]; congr 1; linarith
  exact ⟨hn, e, by rw [h7, e]⟩

theorem line_integral {p : ℝ[X]} (hp : p.natDegree ≤ 1) (x : ℝ) : ∫ s in (0 : ℝ)..x, p.eval s = p.coeff 0 * x + p.coeff 1 * (x ^ 2 / 2) := by
  have e : p = C (p.coeff 0) + C (p.coeff 1) * X := by
    rw [add_comm]
    exact eq_X_add_C_of_natDegree_le_one hp
  have h2 : integral 0 x p = p.coeff 0 * x + p.coeff 1 * (x ^ 2 / 2) := by
    have h3 : derivative (C (p.coeff 0) * X + C (p.coeff 1 / 2) * X ^ 2) = p := by
      conv_rhs => rw [e]
      simp only [derivative_add, derivative_mul, derivative_C, derivative_X, derivative_X_pow]
      rw [show C (p.coeff 1) = C (p.coeff 1 / 2) * C 2 by rw [← C_mul]; congr 1; ring]
      simp
      ring
    conv_lhs => rw [← h3]
    rw [integral_deriv]
    simp
    ring
  exact h2

/-- The default LGR method is the Radau IIA method of order 3. -/
theorem lgr_three {c : Colloc} (h : mkColloc 3 = .ok c) (X Xd : Nat → ℝ) (hh : ℝ) : Steps (.lgr c) X Xd hh ↔
    X 1 = X 0 + hh * (5 * Xd 1 - Xd 2) / 12 ∧ X 2 = X 0 + hh * (3 * Xd 1 + Xd 2) / 4 := by
  obtain ⟨h1, h2, h3⟩ := points_three h
  have hc : ([1 / 3, 1] : List ℝ).Pairwise (· < ·) := by simp; norm_num
  have d : ∀ i, i < 2 → (makeLagrange [1 / 3, (1 : ℝ)] i).natDegree ≤ 1 := fun i hi => by
    have := basis_degree hc (i := i) hi
    rw [this]; simp
  have v : ∀ i j, i < 2 → j < 2 → (makeLagrange [1 / 3, (1 : ℝ)] i).eval (pt [1 / 3, 1] j) = if i = j then 1 else 0 := fun i j hi hj =>
    basis_eval hc hi hj
  have v00 := v 0 0 (by norm_num) (by norm_num)
  have v01 := v 0 1 (by norm_num) (by norm_num)
  have v10 := v 1 0 (by norm_num) (by norm_num)
  have v11 := v 1 1 (by norm_num) (by norm_num)
  rw [eval_deg_one _ (d _ (by norm_num))] at v00 v01 v10 v11
  simp only [pt, List.getD_cons_zero, List.getD_cons_succ, if_true, zero_ne_one, one_ne_zero, if_false] at v00 v01 v10 v11
  rw [(lgr_tableau h).iff]
  have hst : (Transcription.lgr c).stages = 3 := h1
  rw [hst]
  have t : ∀ j, ∑ j' ∈ Finset.range 3, lgrTab c j j' * Xd j' = (∫ s in (0 : ℝ)..(pt [0, 1 / 3, 1] j), (makeLagrange [1 / 3, (1 : ℝ)] 0).eval s) * Xd 1 +
      (∫ s in (0 : ℝ)..(pt [0, 1 / 3, 1] j), (makeLagrange [1 / 3, (1 : ℝ)] 1).eval s) * Xd 2 := by
    intro j
    simp [Finset.sum_range_succ, lgrTab, h2, h3]
  have c00 : (makeLagrange [1 / 3, (1 : ℝ)] 0).coeff 0 = 3 / 2 := by linarith
  have c01 : (makeLagrange [1 / 3, (1 : ℝ)] 0).coeff 1 = -3 / 2 := by linarith
  have c10 : (makeLagrange [1 / 3, (1 : ℝ)] 1).coeff 0 = -1 / 2 := by linarith
  have c11 : (makeLagrange [1 / 3, (1 : ℝ)] 1).coeff 1 = 3 / 2 := by linarith
  simp only [t, line_integral (d 0 (by norm_num)), line_integral (d 1 (by norm_num)), c00, c01, c10, c11]
  constructor
  · intro H
    have H1 := H 1 (by norm_num)
    have H2 := H 2 (by norm_num)
    simp only [pt, List.getD_cons_zero, List.getD_cons_succ] at H1 H2
    exact ⟨by rw [H1]; ring, by rw [H2]; ring⟩
  · rintro ⟨H1, H2⟩ j hj
    interval_cases j
    · simp [pt]
    · simp only [pt, List.getD_cons_zero, List.getD_cons_succ]; rw [H1]; ring
    · simp only [pt, List.getD_cons_zero, List.getD_cons_succ]; rw [H2]; ring

end Lumos.Fix
