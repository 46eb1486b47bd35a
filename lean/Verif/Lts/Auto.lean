import Verif.Ocp.BuildExample
/-!
# Exact derivatives of any model

What automatic differentiation is trusted for, as an object: the partial derivatives of the residuals of a model, right wherever the model has
them. A unit problem with these derivatives exists for every model, so the hypotheses `UnitJac` and `UnitHess` can be met for every model on the
domain `Smooth`.
-/

namespace Lumos.Ocp.ExplicitModel

open Lumos NLP

variable {M : ExplicitModel}

/-- The partial derivative of residual `r` by variable `i`. -/
noncomputable def part (M : ExplicitModel) (μ : ℝ) (r i : Nat) (y : List ℝ) : ℝ :=
  deriv (fun s => (M.flatImplicit (y.set i s) μ).getD r 0) (y.getD i 0)

/-- First partial derivatives exist around `v` along every variable, second ones at `v`. -/
def Smooth (M : ExplicitModel) (v : List ℝ) (μ : ℝ) : Prop :=
  (∀ r < M.numRes, ∀ i < M.numVar, ∀ j < M.numVar, ∀ᶠ t in nhds (v.getD j 0),
    DifferentiableAt ℝ (fun s => (M.flatImplicit ((v.set j t).set i s) μ).getD r 0) ((v.set j t).getD i 0)) ∧
  ∀ r < M.numRes, ∀ i < M.numVar, ∀ j < M.numVar, DifferentiableAt ℝ (fun t => M.part μ r i (v.set j t)) (v.getD j 0)

/-- The dense Jacobian. -/
noncomputable def autoJac (M : ExplicitModel) (v : List ℝ) (μ : ℝ) (r j : Nat) : ℝ := M.part μ r j v

/-- The dense Hessian of the Lagrangian. -/
noncomputable def autoHess (M : ExplicitModel) (v lam : List ℝ) (μ : ℝ) (i j : Nat) : ℝ :=
  ∑ r ∈ Finset.range M.numRes, lam.getD r 0 * deriv (fun t => M.part μ r i (v.set j t)) (v.getD j 0)

theorem set_self (v : List ℝ) (j : Nat) : v.set j (v.getD j 0) = v := by
  by_cases h : j < v.length
  · rw [List.getD_eq_getElem?_getD, List.getElem?_eq_getElem h]
    simp
  · exact List.set_eq_of_length_le (by omega)

theorem autoJac_right : M.DenseJac M.autoJac M.Smooth := by
  intro v μ hv hA r hr j hj
  have h := (hA.1 r hr j hj j hj).self_of_nhds
  rw [set_self] at h
  exact h.hasDerivAt

theorem autoHess_right (hM : M.Good) : M.DenseHess M.autoHess M.Smooth := by
  intro v lam μ hv hlam hA
  have e : ∀ y : List ℝ, y.length = M.numVar → dot lam (M.flatImplicit y μ)
      = ∑ r ∈ Finset.range M.numRes, lam.getD r 0 * (M.flatImplicit y μ).getD r 0 := by
    intro y hy
    rw [dot_eq_sum rfl (by rw [length_flatImplicit hM hy, hlam]), hlam]
  refine ⟨fun y i => ∑ r ∈ Finset.range M.numRes, lam.getD r 0 * M.part μ r i y, fun j hj => ?_, fun i j hi hj _ => ?_⟩
  · have hall : ∀ᶠ t in nhds (v.getD j 0), ∀ i ∈ Finset.range M.numVar, ∀ r ∈ Finset.range M.numRes,
        DifferentiableAt ℝ (fun s => (M.flatImplicit ((v.set j t).set i s) μ).getD r 0) ((v.set j t).getD i 0) := by
      rw [Filter.eventually_all_finset]
      intro i hi
      rw [Filter.eventually_all_finset]
      intro r hr
      exact hA.1 r (Finset.mem_range.mp hr) i (Finset.mem_range.mp hi) j hj
    filter_upwards [hall] with t ht i hi
    have e2 : (fun s => dot lam (M.flatImplicit ((v.set j t).set i s) μ))
        = fun s => ∑ r ∈ Finset.range M.numRes, lam.getD r 0 * (M.flatImplicit ((v.set j t).set i s) μ).getD r 0 :=
      funext fun s => e _ (by rw [List.length_set, List.length_set, hv])
    show HasDerivAt (fun s => dot lam (M.flatImplicit ((v.set j t).set i s) μ)) _ _
    rw [e2]
    exact HasDerivAt.fun_sum fun r hr => ((ht i (Finset.mem_range.mpr hi) r hr).hasDerivAt).const_mul _
  · exact HasDerivAt.fun_sum fun r hr => ((hA.2 r (Finset.mem_range.mp hr) i hi j hj).hasDerivAt).const_mul _

/-- The unit problem of a model with its exact derivatives. -/
noncomputable def autoUnit (M : ExplicitModel) : UnitProblem := M.unitOf M.autoJac M.autoHess

theorem autoUnit_jac (hM : M.Good) : OCP.UnitJac M.autoUnit M.Smooth := unitOf_jac hM autoJac_right _

theorem autoUnit_hess (hM : M.Good) : OCP.UnitHess M.autoUnit Upper M.Smooth := unitOf_upper hM autoJac_right (autoHess_right hM)

end Lumos.Ocp.ExplicitModel
