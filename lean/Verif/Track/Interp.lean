import Verif.Track.Model
import Mathlib.Topology.Algebra.Order.Field
import Mathlib.Topology.Instances.Real.Lemmas
import Mathlib.Algebra.BigOperators.Intervals
import Mathlib.Tactic.Linarith
import Mathlib.Tactic.FieldSimp
import Mathlib.Tactic.Ring
/-!
# The lookups of a track (C63)
-/

namespace Lumos.Track

open Lumos Finset

/-- In strictly increasing order. -/
def Inc (l : List ℝ) : Prop := l.Pairwise (· < ·)

theorem at_eq {l : List ℝ} {i : ℕ} (h : i < l.length) : at_ l i = l[i] := by simp [at_, h]

theorem Inc.lt {l : List ℝ} (h : Inc l) {i j : ℕ} (hij : i < j) (hj : j < l.length) : at_ l i < at_ l j := by
  rw [at_eq hj, at_eq (hij.trans hj)]; exact List.pairwise_iff_getElem.mp h i j (hij.trans hj) hj hij

theorem Inc.le {l : List ℝ} (h : Inc l) {i j : ℕ} (hij : i ≤ j) (hj : j < l.length) : at_ l i ≤ at_ l j := by
  rcases hij.lt_or_eq with h' | rfl
  · exact (h.lt h' hj).le
  · exact le_rfl

theorem interp_left {xp fp : List ℝ} (hx : Inc xp) (hl : xp.length = fp.length) (h0 : 0 < xp.length) {v : ℝ} (hv : v ≤ at_ xp 0) :
    interp xp fp v = .ok (at_ fp 0) := by
  classical
  unfold interp
  rw [if_neg (by omega)]
  rcases hv.lt_or_eq with h | rfl
  · rw [if_pos h]
  · rw [if_neg (lt_irrefl _)]
    dsimp only
    have : Nat.findGreatest (fun j => at_ xp j ≤ at_ xp 0) (xp.length - 1) = 0 := by
      rw [Nat.findGreatest_eq_iff]
      exact ⟨by omega, by simp, fun k hk hk' => not_le.mpr (hx.lt hk (by omega))⟩
    split_ifs <;> simp_all

theorem interp_seg {xp fp : List ℝ} (hx : Inc xp) (hl : xp.length = fp.length) {j : ℕ} (hj : j + 1 < xp.length) {v : ℝ}
    (h1 : at_ xp j ≤ v) (h2 : v < at_ xp (j + 1)) :
    interp xp fp v = .ok ((at_ fp (j + 1) - at_ fp j) / (at_ xp (j + 1) - at_ xp j) * (v - at_ xp j) + at_ fp j) := by
  classical
  unfold interp
  rw [if_neg (by omega), if_neg (not_lt.mpr ((hx.le (Nat.zero_le j) (by omega)).trans h1))]
  dsimp only
  have : Nat.findGreatest (fun j => at_ xp j ≤ v) (xp.length - 1) = j := by
    rw [Nat.findGreatest_eq_iff]
    exact ⟨by omega, fun _ => h1, fun k hk hk' => not_le.mpr (h2.trans_le (hx.le hk (by omega)))⟩
  rw [this, if_neg (by omega)]

theorem interp_right {xp fp : List ℝ} (hx : Inc xp) (hl : xp.length = fp.length) (h0 : 0 < xp.length) {v : ℝ}
    (hv : at_ xp (xp.length - 1) ≤ v) : interp xp fp v = .ok (at_ fp (xp.length - 1)) := by
  classical
  unfold interp
  rw [if_neg (by omega), if_neg (not_lt.mpr ((hx.le (Nat.zero_le _) (by omega)).trans hv))]
  dsimp only
  have : Nat.findGreatest (fun j => at_ xp j ≤ v) (xp.length - 1) = xp.length - 1 := by
    rw [Nat.findGreatest_eq_iff]
    exact ⟨le_rfl, fun _ => hv, fun k hk hk' => by omega⟩
  rw [this, if_pos rfl]

/-- Where a query lies. -/
theorem place {xp : List ℝ} (h0 : 0 < xp.length) (v : ℝ) :
    v ≤ at_ xp 0 ∨ (∃ j, j + 1 < xp.length ∧ at_ xp j ≤ v ∧ v < at_ xp (j + 1)) ∨ at_ xp (xp.length - 1) ≤ v := by
  by_contra hc
  push Not at hc
  obtain ⟨h1, h2, h3⟩ := hc
  have : ∀ j, j < xp.length → at_ xp j ≤ v := by
    intro j
    induction j with
    | zero => intro _; exact h1.le
    | succ j ih => intro hj; exact h2 j hj (ih (by omega))
  exact absurd (this (xp.length - 1) (by omega)) (not_le.mpr h3)

theorem interp_node {xp fp : List ℝ} (hx : Inc xp) (hl : xp.length = fp.length) {i : ℕ} (hi : i < xp.length) :
    interp xp fp (at_ xp i) = .ok (at_ fp i) := by
  rcases Nat.lt_or_ge (i + 1) xp.length with h | h
  · rw [interp_seg hx hl h le_rfl (hx.lt (Nat.lt_succ_self i) h)]; simp
  · have : i = xp.length - 1 := by omega
    subst this
    exact interp_right hx hl (by omega) le_rfl

/-- The interpolation as one formula. -/
noncomputable def poly (xp fp : List ℝ) (v : ℝ) : ℝ :=
  at_ fp 0 + ∑ j ∈ range (xp.length - 1), (at_ fp (j + 1) - at_ fp j) / (at_ xp (j + 1) - at_ xp j)
    * (max (at_ xp j) (min v (at_ xp (j + 1))) - at_ xp j)

theorem poly_continuous (xp fp : List ℝ) : Continuous (poly xp fp) := by
  unfold poly
  fun_prop

theorem poly_seg {xp fp : List ℝ} (hx : Inc xp) {j : ℕ} (hj : j + 1 < xp.length) {v : ℝ} (h1 : at_ xp j ≤ v) (h2 : v ≤ at_ xp (j + 1)) :
    poly xp fp v = (at_ fp (j + 1) - at_ fp j) / (at_ xp (j + 1) - at_ xp j) * (v - at_ xp j) + at_ fp j := by
  unfold poly
  have e : xp.length - 1 = j + 1 + (xp.length - 1 - (j + 1)) := by omega
  rw [e, sum_range_add, sum_range_succ]
  have a : ∑ k ∈ range j, (at_ fp (k + 1) - at_ fp k) / (at_ xp (k + 1) - at_ xp k)
      * (max (at_ xp k) (min v (at_ xp (k + 1))) - at_ xp k) = at_ fp j - at_ fp 0 := by
    rw [← sum_range_sub (fun k => at_ fp k) j]
    apply sum_congr rfl
    intro k hk
    have hk := mem_range.mp hk
    have g := hx.lt (Nat.lt_succ_self k) (show k + 1 < xp.length by omega)
    have g' := (hx.le (show k + 1 ≤ j by omega) (by omega)).trans h1
    rw [min_eq_right g', max_eq_right g.le]
    have : at_ xp (k + 1) - at_ xp k ≠ 0 := by linarith
    field_simp
  have b : ∑ k ∈ range (xp.length - 1 - (j + 1)), (at_ fp (j + 1 + k + 1) - at_ fp (j + 1 + k))
      / (at_ xp (j + 1 + k + 1) - at_ xp (j + 1 + k))
      * (max (at_ xp (j + 1 + k)) (min v (at_ xp (j + 1 + k + 1))) - at_ xp (j + 1 + k)) = 0 := by
    apply sum_eq_zero
    intro k hk
    have hk := mem_range.mp hk
    have g := h2.trans (hx.le (show j + 1 ≤ j + 1 + k by omega) (by omega))
    rw [max_eq_left (min_le_of_left_le g), sub_self, mul_zero]
  rw [a, b, min_eq_left h2, max_eq_right h1]
  ring

theorem poly_eq {xp fp : List ℝ} (hx : Inc xp) (hl : xp.length = fp.length) (h0 : 0 < xp.length) (v : ℝ) :
    interp xp fp v = .ok (poly xp fp v) := by
  rcases place h0 v with h | ⟨j, hj, h1, h2⟩ | h
  · rw [interp_left hx hl h0 h]
    congr 1
    unfold poly
    rw [sum_eq_zero, add_zero]
    intro k hk
    have hk := mem_range.mp hk
    rw [max_eq_left (min_le_of_left_le (h.trans (hx.le (Nat.zero_le k) (by omega)))), sub_self, mul_zero]
  · rw [interp_seg hx hl hj h1 h2, poly_seg hx hj h1 h2.le]
  · rw [interp_right hx hl h0 h]
    congr 1
    unfold poly
    have a : ∑ k ∈ range (xp.length - 1), (at_ fp (k + 1) - at_ fp k) / (at_ xp (k + 1) - at_ xp k)
        * (max (at_ xp k) (min v (at_ xp (k + 1))) - at_ xp k) = at_ fp (xp.length - 1) - at_ fp 0 := by
      rw [← sum_range_sub (fun k => at_ fp k) (xp.length - 1)]
      apply sum_congr rfl
      intro k hk
      have hk := mem_range.mp hk
      have g := hx.lt (Nat.lt_succ_self k) (show k + 1 < xp.length by omega)
      have g' := (hx.le (show k + 1 ≤ xp.length - 1 by omega) (by omega)).trans h
      rw [min_eq_right g', max_eq_right g.le]
      have : at_ xp (k + 1) - at_ xp k ≠ 0 := by linarith
      field_simp
    rw [a]; ring

/-- A lookup stays between bounds of the data. -/
theorem interp_between {xp fp : List ℝ} (hx : Inc xp) {v a b f : ℝ} (hf : interp xp fp v = .ok f)
    (ha : ∀ y ∈ fp, a ≤ y ∧ y ≤ b) : a ≤ f ∧ f ≤ b := by
  have hl : xp.length = fp.length ∧ 0 < xp.length := by
    unfold interp at hf
    by_contra hc
    rw [if_pos (by omega)] at hf
    exact absurd hf (by simp)
  obtain ⟨hl, h0⟩ := hl
  have mem : ∀ i, i < xp.length → a ≤ at_ fp i ∧ at_ fp i ≤ b := fun i hi => by
    rw [at_eq (hl ▸ hi)]; exact ha _ (List.getElem_mem _)
  rcases place h0 v with h | ⟨j, hj, h1, h2⟩ | h
  · rw [interp_left hx hl h0 h] at hf; cases hf; exact mem 0 h0
  · rw [interp_seg hx hl hj h1 h2] at hf
    cases hf
    have m1 := mem j (by omega)
    have m2 := mem (j + 1) hj
    have g := hx.lt (Nat.lt_succ_self j) hj
    have d : 0 < at_ xp (j + 1) - at_ xp j := by linarith
    set t := (v - at_ xp j) / (at_ xp (j + 1) - at_ xp j) with ht
    have t0 : 0 ≤ t := div_nonneg (by linarith) d.le
    have t1 : t ≤ 1 := (div_le_one d).mpr (by linarith)
    have e : (at_ fp (j + 1) - at_ fp j) / (at_ xp (j + 1) - at_ xp j) * (v - at_ xp j) + at_ fp j
        = (1 - t) * at_ fp j + t * at_ fp (j + 1) := by
      rw [ht]; field_simp; ring
    rw [e]
    constructor
    · nlinarith [mul_le_mul_of_nonneg_left m1.1 (sub_nonneg.mpr t1), mul_le_mul_of_nonneg_left m2.1 t0]
    · nlinarith [mul_le_mul_of_nonneg_left m1.2 (sub_nonneg.mpr t1), mul_le_mul_of_nonneg_left m2.2 t0]
  · rw [interp_right hx hl h0 h] at hf; cases hf; exact mem _ (by omega)

end Lumos.Track
