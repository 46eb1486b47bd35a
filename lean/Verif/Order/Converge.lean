import Verif.Order.Rk
import Verif.Order.Taylor
import Mathlib.Analysis.SpecialFunctions.Exp
import Mathlib.Analysis.Normed.Group.Constructions
/-!
# The discretised dynamics converge to the continuous dynamics (C91)
-/

namespace Lumos.Order

open Lumos Lumos.Trans Polynomial

/-- The sum of the absolute values of the table. -/
noncomputable def size (t : Transcription) (a : Nat → Nat → ℝ) : ℝ := ∑ j ∈ Finset.range t.stages, ∑ j' ∈ Finset.range t.stages, |a j j'|

theorem size_nonneg (t : Transcription) (a : Nat → Nat → ℝ) : 0 ≤ size t a :=
  Finset.sum_nonneg fun _ _ => Finset.sum_nonneg fun _ _ => abs_nonneg _

theorem row_le (t : Transcription) (a : Nat → Nat → ℝ) {j : Nat} (hj : j < t.stages) (v : Nat → ℝ) {c : ℝ} (hc : 0 ≤ c)
    (hv : ∀ j', j' < t.stages → |v j'| ≤ c) : |∑ j' ∈ Finset.range t.stages, a j j' * v j'| ≤ size t a * c := by
  have h1 : ∑ j' ∈ Finset.range t.stages, |a j j'| ≤ size t a :=
    Finset.single_le_sum (f := fun j => ∑ j' ∈ Finset.range t.stages, |a j j'|) (fun _ _ => Finset.sum_nonneg fun _ _ => abs_nonneg _)
      (Finset.mem_range.mpr hj)
  calc |∑ j' ∈ Finset.range t.stages, a j j' * v j'| ≤ ∑ j' ∈ Finset.range t.stages, |a j j' * v j'| := Finset.abs_sum_le_sum_abs _ _
    _ ≤ ∑ j' ∈ Finset.range t.stages, |a j j'| * c := Finset.sum_le_sum fun j' hj' => by
        rw [abs_mul]
        exact mul_le_mul_of_nonneg_left (hv j' (Finset.mem_range.mp hj')) (abs_nonneg _)
    _ = (∑ j' ∈ Finset.range t.stages, |a j j'|) * c := by rw [Finset.sum_mul]
    _ ≤ size t a * c := mul_le_mul_of_nonneg_right h1 hc

theorem tau_zero {name : String} {kwargs : List (String × Int)} {t : Transcription} (ht : makeTranscription name kwargs = .ok t) : t.tau 0 = 0 := by
  obtain ⟨_, _, _, _, hlen, hr⟩ := C38_shapes ht
  unfold Transcription.tau pt
  rw [List.getD_eq_getElem?_getD, hr.first]
  rfl

theorem tau_last {name : String} {kwargs : List (String × Int)} {t : Transcription} (ht : makeTranscription name kwargs = .ok t) : t.tau (t.stages - 1) = 1 := by
  obtain ⟨_, _, _, _, hlen, hr⟩ := C38_shapes ht
  unfold Transcription.tau pt
  rw [List.getD_eq_getElem?_getD, ← hlen, hr.last]
  rfl

/-- The stages lie inside the interval. -/
theorem tau_mem {name : String} {kwargs : List (String × Int)} {t : Transcription} (ht : makeTranscription name kwargs = .ok t) {j : Nat}
    (hj : j < t.stages) : 0 ≤ t.tau j ∧ t.tau j ≤ 1 := by
  obtain ⟨h2, _, _, _, hlen, hr⟩ := C38_shapes ht
  have h0 := tau_zero ht
  have h1 := tau_last ht
  have mono : ∀ i k, i < k → k < t.stages → t.tau i < t.tau k := by
    intro i k hik hk
    unfold Transcription.tau pt
    rw [List.getD_eq_getElem?_getD, List.getD_eq_getElem?_getD, List.getElem?_eq_getElem (by omega), List.getElem?_eq_getElem (by omega)]
    exact List.pairwise_iff_getElem.mp hr.incr i k (by omega) (by omega) hik
  constructor
  · rcases Nat.eq_zero_or_pos j with rfl | h
    · exact h0.ge
    · rw [← h0]; exact (mono 0 j h hj).le
  · rcases Nat.lt_or_ge j (t.stages - 1) with h | h
    · rw [← h1]; exact (mono j (t.stages - 1) h (by omega)).le
    · rw [show j = t.stages - 1 by omega]; exact h1.le

/-- A table integrates the derivatives of polynomials up to the degree of exactness. -/
theorem Tableau.exact {name : String} {kwargs : List (String × Int)} {t : Transcription} (ht : makeTranscription name kwargs = .ok t)
    {a : Nat → Nat → ℝ} (ha : Tableau t a) (P : ℝ[X]) (hP : P.natDegree ≤ exactDegree name t.stages) (t0 h : ℝ) {j : Nat} (hj : j < t.stages) :
    P.eval (t0 + h * t.tau j) = P.eval (t0 + h * t.tau 0) + h * ∑ j' ∈ Finset.range t.stages, a j j' * (derivative P).eval (t0 + h * t.tau j') := by
  refine (ha.iff (fun j => P.eval (t0 + h * t.tau j)) (fun j => (derivative P).eval (t0 + h * t.tau j)) h).mp ?_ j hj
  intro l hl
  have e := exact_all ht 1 (fun _ => P) (fun _ _ => hP) t0 h
  unfold Transcription.sample at e
  rw [con_eq ht] at e
  have := grid_inj (Except.ok.inj e) hl (show 0 < 1 by norm_num)
  linarith

/-- The defect of a smooth function. -/
theorem Tableau.defect {name : String} {kwargs : List (String × Int)} {t : Transcription} (ht : makeTranscription name kwargs = .ok t)
    {a : Nat → Nat → ℝ} (ha : Tableau t a) {p : Nat} (hp : p ≤ exactDegree name t.stages) {u : ℝ → ℝ} (hu : ContDiff ℝ (p + 1 : Nat) u) {t0 h M : ℝ}
    (hh : 0 ≤ h) (hM : ∀ s ∈ Set.Icc t0 (t0 + h), |iteratedDeriv (p + 1) u s| ≤ M) {j : Nat} (hj : j < t.stages) :
    |u (t0 + h * t.tau j) - u t0 - h * ∑ j' ∈ Finset.range t.stages, a j j' * deriv u (t0 + h * t.tau j')| ≤ (1 + size t a) * M * h ^ (p + 1) := by
  obtain ⟨P, hP, hb⟩ := taylor p u hu t0
  have mem : ∀ j', j' < t.stages → t0 + h * t.tau j' ∈ Set.Icc t0 (t0 + h) := by
    intro j' hj'
    obtain ⟨h0, h1⟩ := tau_mem ht hj'
    constructor
    · nlinarith
    · nlinarith
  have hM0 : 0 ≤ M := (abs_nonneg _).trans (hM t0 ⟨le_rfl, by linarith⟩)
  have close : ∀ j', j' < t.stages → |u (t0 + h * t.tau j') - P.eval (t0 + h * t.tau j')| ≤ M * h ^ (p + 1) ∧
      |deriv u (t0 + h * t.tau j') - (derivative P).eval (t0 + h * t.tau j')| ≤ M * h ^ p := by
    intro j' hj'
    obtain ⟨h1, h2, _⟩ := hb M (t0 + h) hM _ (mem j' hj')
    obtain ⟨k0, k1⟩ := tau_mem ht hj'
    have hle : t0 + h * t.tau j' - t0 ≤ h := by nlinarith
    have h0 : 0 ≤ t0 + h * t.tau j' - t0 := by have := mul_nonneg hh k0; linarith
    exact ⟨h1.trans (mul_le_mul_of_nonneg_left (pow_le_pow_left₀ h0 hle _) hM0), h2.trans (mul_le_mul_of_nonneg_left (pow_le_pow_left₀ h0 hle _) hM0)⟩
  have e := ha.exact ht P (hP.trans hp) t0 h hj
  have e0 : P.eval (t0 + h * t.tau 0) = u t0 := by
    rw [tau_zero ht, mul_zero, add_zero]
    exact (hb M (t0 + h) hM t0 ⟨le_rfl, by linarith⟩).2.2
  rw [e0] at e
  have split : u (t0 + h * t.tau j) - u t0 - h * ∑ j' ∈ Finset.range t.stages, a j j' * deriv u (t0 + h * t.tau j') =
      (u (t0 + h * t.tau j) - P.eval (t0 + h * t.tau j)) -
        h * ∑ j' ∈ Finset.range t.stages, a j j' * (deriv u (t0 + h * t.tau j') - (derivative P).eval (t0 + h * t.tau j')) := by
    simp only [mul_sub, Finset.sum_sub_distrib]
    linarith
  rw [split]
  have r := row_le t a hj (fun j' => deriv u (t0 + h * t.tau j') - (derivative P).eval (t0 + h * t.tau j')) (c := M * h ^ p)
    (mul_nonneg hM0 (pow_nonneg hh _)) (fun j' hj' => (close j' hj').2)
  calc _ ≤ |u (t0 + h * t.tau j) - P.eval (t0 + h * t.tau j)| +
        |h * ∑ j' ∈ Finset.range t.stages, a j j' * (deriv u (t0 + h * t.tau j') - (derivative P).eval (t0 + h * t.tau j'))| := abs_sub _ _
    _ ≤ M * h ^ (p + 1) + h * (size t a * (M * h ^ p)) := by
        rw [abs_mul, abs_of_nonneg hh]
        exact add_le_add (close j hj).1 (mul_le_mul_of_nonneg_left r hh)
    _ = (1 + size t a) * M * h ^ (p + 1) := by ring

theorem exp_bound {z : ℝ} (h0 : 0 ≤ z) (h1 : 2 * z ≤ 1) : 1 ≤ (1 - z) * Real.exp (2 * z) := by
  have := Real.add_one_le_exp (2 * z)
  nlinarith

/-- How the distance between the stages and another function grows over one interval. -/
theorem grow_step {t : Transcription} {a : Nat → Nat → ℝ} (h2 : 0 < t.stages) {d : Nat} (e : Nat → Fin d → ℝ) (g r : Nat → Fin d → ℝ) {h L c : ℝ}
    (hh : 0 ≤ h) (hL : 0 ≤ L) (hc : 0 ≤ c)
    (he : ∀ j, j < t.stages → ∀ k, e j k = e 0 k + h * (∑ j' ∈ Finset.range t.stages, a j j' * g j' k) + r j k)
    (hg : ∀ j, j < t.stages → ‖g j‖ ≤ L * ‖e j‖) (hr : ∀ j, j < t.stages → ∀ k, |r j k| ≤ c) (hs : 2 * (size t a * L * h) ≤ 1) :
    ∀ j, j < t.stages → ‖e j‖ ≤ Real.exp (2 * (size t a * L * h)) * (‖e 0‖ + c) := by
  obtain ⟨J, hJ, hmax⟩ := Finset.exists_max_image (Finset.range t.stages) (fun j => ‖e j‖) ⟨0, Finset.mem_range.mpr h2⟩
  rw [Finset.mem_range] at hJ
  have hK := size_nonneg t a
  have key : ‖e J‖ ≤ ‖e 0‖ + h * (size t a * (L * ‖e J‖)) + c := by
    refine (pi_norm_le_iff_of_nonneg (by positivity)).mpr fun k => ?_
    rw [he J hJ k]
    have r1 := row_le t a hJ (fun j' => g j' k) (c := L * ‖e J‖) (by positivity) (fun j' hj' => (norm_le_pi_norm (g j') k).trans
      ((hg j' hj').trans (mul_le_mul_of_nonneg_left (hmax j' (Finset.mem_range.mpr hj')) hL)))
    have r2 : |e 0 k| ≤ ‖e 0‖ := norm_le_pi_norm (e 0) k
    calc ‖e 0 k + h * (∑ j' ∈ Finset.range t.stages, a J j' * g j' k) + r J k‖
        ≤ |e 0 k| + |h * (∑ j' ∈ Finset.range t.stages, a J j' * g j' k)| + |r J k| := abs_add_three _ _ _
      _ ≤ _ := by
        rw [abs_mul, abs_of_nonneg hh]
        exact add_le_add (add_le_add r2 (mul_le_mul_of_nonneg_left r1 hh)) (hr J hJ k)
  set z := size t a * L * h with hz
  have hz0 : 0 ≤ z := by positivity
  have hb := exp_bound hz0 hs
  have h1 : (1 - z) * ‖e J‖ ≤ ‖e 0‖ + c := by rw [hz]; nlinarith
  intro j hj
  refine (hmax j (Finset.mem_range.mpr hj)).trans ?_
  have hx := Real.exp_pos (2 * z)
  calc ‖e J‖ ≤ ((1 - z) * Real.exp (2 * z)) * ‖e J‖ := le_mul_of_one_le_left (norm_nonneg _) hb
    _ = Real.exp (2 * z) * ((1 - z) * ‖e J‖) := by ring
    _ ≤ Real.exp (2 * z) * (‖e 0‖ + c) := mul_le_mul_of_nonneg_left h1 hx.le

end Lumos.Order
