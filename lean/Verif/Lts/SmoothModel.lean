import Verif.Lts.Auto
import Verif.Kkt.Exists
import Mathlib.Analysis.Calculus.ContDiff.Operations
import Mathlib.Analysis.Calculus.Deriv.Pi
/-!
# A model whose residuals are twice continuously differentiable is smooth
-/

namespace Lumos.Ocp.ExplicitModel

open Lumos NLP

variable {M : ExplicitModel}

theorem ofFn_update {n : Nat} (y : Fin n → ℝ) (i : Fin n) (s : ℝ) : List.ofFn (Function.update y i s) = (List.ofFn y).set i s := by
  apply List.ext_getElem
  · simp
  · intro k h1 h2
    have hk : k < n := by simpa using h1
    rw [List.getElem_ofFn, List.getElem_set, Function.update_apply]
    by_cases h : (i : Nat) = k
    · rw [if_pos h, if_pos (Fin.ext h.symm)]
    · rw [if_neg h, if_neg (fun e => h (congrArg Fin.val e).symm)]
      simp

theorem update_deriv {n : Nat} (y : Fin n → ℝ) (i : Fin n) (s : ℝ) : HasDerivAt (fun s => Function.update y i s) (Pi.single i 1) s :=
  hasDerivAt_update y i s

theorem smooth_of_contDiff {v : List ℝ} {μ : ℝ} (hv : v.length = M.numVar)
    (h : ∀ r < M.numRes, ContDiffAt ℝ 2 (fun y : Fin M.numVar → ℝ => (M.flatImplicit (List.ofFn y) μ).getD r 0) (fun i => v.getD i 0)) :
    M.Smooth v μ := by
  set y0 : Fin M.numVar → ℝ := fun i => v.getD i 0 with hy0
  have ev : List.ofFn y0 = v := Kkt.ofFn_getD hv
  have eget : ∀ (y : Fin M.numVar → ℝ) (i : Fin M.numVar), (List.ofFn y).getD i 0 = y i := by
    intro y i
    simp [i.2]
  have hset : ∀ (i : Fin M.numVar) (s : ℝ), v.set i s = List.ofFn (Function.update y0 i s) := fun i s => by rw [ofFn_update, ev]
  -- near v along coordinate j the residuals are twice differentiable
  have hnear : ∀ r < M.numRes, ∀ j : Fin M.numVar, ∀ᶠ t in nhds (y0 j),
      ContDiffAt ℝ 2 (fun y : Fin M.numVar → ℝ => (M.flatImplicit (List.ofFn y) μ).getD r 0) (Function.update y0 j t) := by
    intro r hr j
    have h1 := (h r hr).eventually (by simp)
    have hc : ContinuousAt (fun t => Function.update y0 j t) (y0 j) := (update_deriv y0 j (y0 j)).continuousAt
    have e0 : Function.update y0 j (y0 j) = y0 := Function.update_eq_self j y0
    exact hc.eventually (by dsimp only; rw [e0]; exact h1)
  have hder : ∀ r < M.numRes, ∀ (y : Fin M.numVar → ℝ) (i : Fin M.numVar),
      ContDiffAt ℝ 2 (fun y : Fin M.numVar → ℝ => (M.flatImplicit (List.ofFn y) μ).getD r 0) y →
      HasDerivAt (fun s => (M.flatImplicit ((List.ofFn y).set i s) μ).getD r 0)
        (fderiv ℝ (fun y : Fin M.numVar → ℝ => (M.flatImplicit (List.ofFn y) μ).getD r 0) y (Pi.single i 1)) (y i) := by
    intro r hr y i hd
    have h1 := (hd.differentiableAt (by simp)).hasFDerivAt
    have h2 := update_deriv y i (y i)
    have e0 : Function.update y i (y i) = y := Function.update_eq_self i y
    rw [← e0] at h1
    have h3 := HasFDerivAt.comp_hasDerivAt (y i) h1 h2
    rw [e0] at h3
    refine h3.congr_of_eventuallyEq (Filter.Eventually.of_forall fun s => ?_)
    show _ = (M.flatImplicit (List.ofFn (Function.update y i s)) μ).getD r 0
    rw [ofFn_update]
  refine ⟨fun r hr i hi j hj => ?_, fun r hr i hi j hj => ?_⟩
  · have := hnear r hr ⟨j, hj⟩
    filter_upwards [this] with t ht
    have h1 := hder r hr _ ⟨i, hi⟩ ht
    have e1 := hset ⟨j, hj⟩ t
    have e2 := eget (Function.update y0 ⟨j, hj⟩ t) ⟨i, hi⟩
    dsimp only at e1 e2 h1
    rw [e1, e2]
    exact h1.differentiableAt
  · have hfd : DifferentiableAt ℝ (fun y : Fin M.numVar → ℝ => fderiv ℝ (fun y : Fin M.numVar → ℝ => (M.flatImplicit (List.ofFn y) μ).getD r 0) y
        (Pi.single (⟨i, hi⟩ : Fin M.numVar) 1)) y0 := by
      have h1 : ContDiffAt ℝ 1 (fderiv ℝ (fun y : Fin M.numVar → ℝ => (M.flatImplicit (List.ofFn y) μ).getD r 0)) y0 :=
        (h r hr).fderiv_right (by norm_num)
      exact (h1.differentiableAt (by simp)).clm_apply (differentiableAt_const _)
    have h2 := update_deriv y0 ⟨j, hj⟩ (y0 ⟨j, hj⟩)
    have e0 : Function.update y0 (⟨j, hj⟩ : Fin M.numVar) (y0 ⟨j, hj⟩) = y0 := Function.update_eq_self _ y0
    rw [← e0] at hfd
    have h3 := hfd.comp (y0 ⟨j, hj⟩) h2.differentiableAt
    refine h3.congr_of_eventuallyEq ?_
    filter_upwards [hnear r hr ⟨j, hj⟩] with t ht
    have h1 := hder r hr _ ⟨i, hi⟩ ht
    have e1 := hset ⟨j, hj⟩ t
    have e2 := eget (Function.update y0 ⟨j, hj⟩ t) ⟨i, hi⟩
    dsimp only at e1 e2 h1
    unfold part
    rw [e1, e2]
    exact h1.deriv

end Lumos.Ocp.ExplicitModel
