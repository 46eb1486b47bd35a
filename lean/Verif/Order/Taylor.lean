import Mathlib.Analysis.Calculus.MeanValue
import Mathlib.Analysis.Calculus.IteratedDeriv.Defs
import Mathlib.Analysis.Calculus.Deriv.Polynomial
import Mathlib.Algebra.Polynomial.Degree.Lemmas
import Verif.Trans.Matrices
/-!
# A polynomial close to a smooth function, together with its derivative
-/

namespace Lumos.Order

open Lumos Lumos.Trans Polynomial

/-- A function that vanishes at `a` and whose derivative is at most `B` stays below `B (s - a)`. -/
theorem grow {g g' : ℝ → ℝ} {a b B : ℝ} (hg : ∀ s, HasDerivAt g (g' s) s) (h0 : g a = 0) (hB : ∀ s ∈ Set.Icc a b, |g' s| ≤ B) :
    ∀ s ∈ Set.Icc a b, |g s| ≤ B * (s - a) := by
  intro s hs
  have := (convex_Icc a s).norm_image_sub_le_of_norm_hasDerivWithin_le (f := g) (f' := g') (C := B)
    (fun u _ => (hg u).hasDerivWithinAt) (fun u hu => hB u ⟨hu.1, hu.2.trans hs.2⟩) (Set.left_mem_Icc.mpr hs.1) (Set.right_mem_Icc.mpr hs.1)
  rw [h0, sub_zero, Real.norm_eq_abs, Real.norm_eq_abs, abs_of_nonneg (sub_nonneg.mpr hs.1)] at this
  exact this

theorem natDegree_integ (p : ℝ[X]) {n : Nat} (hp : p.natDegree ≤ n) : (integ p).natDegree ≤ n + 1 := by
  unfold integ
  rw [Polynomial.sum_def]
  refine natDegree_sum_le_of_forall_le _ _ fun k hk => (natDegree_monomial_le _).trans ?_
  have := le_natDegree_of_mem_supp k hk
  omega

/-- The Taylor polynomial: the function and its derivative are close to it. -/
theorem taylor (p : Nat) : ∀ f : ℝ → ℝ, ContDiff ℝ (p + 1 : Nat) f → ∀ t0 : ℝ, ∃ P : ℝ[X], P.natDegree ≤ p ∧
    ∀ M b : ℝ, (∀ s ∈ Set.Icc t0 b, |iteratedDeriv (p + 1) f s| ≤ M) → ∀ s ∈ Set.Icc t0 b,
      |f s - P.eval s| ≤ M * (s - t0) ^ (p + 1) ∧ |deriv f s - (derivative P).eval s| ≤ M * (s - t0) ^ p ∧ P.eval t0 = f t0 := by
  induction p with
  | zero =>
    intro f hf t0
    refine ⟨C (f t0), by simp, fun M b hM s hs => ?_⟩
    have hd : ∀ s, HasDerivAt (fun s => f s - f t0) (deriv f s) s := fun s =>
      ((hf.differentiable (by norm_num)).differentiableAt.hasDerivAt).sub_const _
    have hM' : ∀ s ∈ Set.Icc t0 b, |deriv f s| ≤ M := fun s hs => by have := hM s hs; rwa [zero_add, iteratedDeriv_one] at this
    refine ⟨?_, ?_, by simp⟩
    · have := grow hd (by simp) hM' s hs
      simpa using this
    · simpa using hM' s hs
  | succ p ih =>
    intro f hf t0
    have hf' : ContDiff ℝ (p + 1 : Nat) (deriv f) := by
      have : ContDiff ℝ ((p + 1 : Nat) + 1) f := by exact_mod_cast hf
      exact (contDiff_succ_iff_deriv.mp this).2.2
    obtain ⟨P, hP, hb⟩ := ih (deriv f) hf' t0
    refine ⟨integ P + C (f t0 - (integ P).eval t0), ?_, fun M b hM s hs => ?_⟩
    · refine (natDegree_add_le _ _).trans (max_le (natDegree_integ P hP) (by simp))
    have hM' : ∀ s ∈ Set.Icc t0 b, |iteratedDeriv (p + 1) (deriv f) s| ≤ M := fun s hs => by
      have := hM s hs
      rwa [iteratedDeriv_succ'] at this
    have hder : derivative (integ P + C (f t0 - (integ P).eval t0)) = P := by simp [derivative_integ]
    have h1 : ∀ s ∈ Set.Icc t0 b, |deriv f s - P.eval s| ≤ M * (s - t0) ^ (p + 1) := fun s hs => (hb M b hM' s hs).1
    have hd : ∀ s, HasDerivAt (fun s => f s - (integ P + C (f t0 - (integ P).eval t0)).eval s) (deriv f s - P.eval s) s := fun s => by
      have := Polynomial.hasDerivAt (integ P + C (f t0 - (integ P).eval t0)) s
      rw [hder] at this
      exact ((hf.differentiable (by simp)).differentiableAt.hasDerivAt).sub this
    have hM0 : 0 ≤ M := (abs_nonneg _).trans (hM s hs)
    refine ⟨?_, ?_, by simp⟩
    · have := grow (a := t0) (b := s) (B := M * (s - t0) ^ (p + 1)) hd (by simp) (fun u hu => (h1 u ⟨hu.1, hu.2.trans hs.2⟩).trans
        (mul_le_mul_of_nonneg_left (pow_le_pow_left₀ (sub_nonneg.mpr hu.1) (by linarith [hu.2]) _) hM0)) s ⟨hs.1, le_rfl⟩
      rw [pow_succ, ← mul_assoc]
      exact this
    · rw [hder]
      exact h1 s hs

end Lumos.Order
