import Verif.NLP.CompositeProps

/-!
# C14: a component that gives the lower triangle of its Hessian

`CompositeProblem.hessianstructure` (lumos/optimal_control/nlp.py:797-811) keeps the entries on and above the diagonal.
IPOPT itself takes either triangle; a component that lists the entries of the lower one loses them.
-/

namespace Lumos.NLP

open Lumos

/-- The lower triangle. -/
def LowerT (i j : Nat) : Prop := j ≤ i

/-- The objective `x₀·x₁` on two variables, with the one entry of the lower triangle of its Hessian. -/
noncomputable def exLower : Obj :=
  Obj.stateOf 2 (fun y => y.getD 0 0 * y.getD 1 0) (fun y => [y.getD 1 0, y.getD 0 0]) (fun _ => [1]) ([1], [0]) [1, 1]

theorem exLower_set : exLower.setInputScales [1, 1] = (exLower, none) :=
  obj_set_eq (by simp [StructIn]) rfl

/-- The lower triangle of the example is right at every point. -/
theorem exLower_hessian (y : List ℝ) (hy : y.length = 2) :
    IsHessianAt 2 (fun y => y.getD 0 0 * y.getD 1 0) y LowerT (assemble [1] [0] [1]) := by
  have hgrad : ∀ y : List ℝ, y.length = 2 → IsGradientAt 2 (fun y => y.getD 0 0 * y.getD 1 0) y
      (fun j => [y.getD 1 0, y.getD 0 0].getD j 0) := by
    intro y hy j hj
    obtain ⟨a, b, rfl⟩ : ∃ a b, y = [a, b] := by
      match y, hy with
      | [a, b], _ => exact ⟨a, b, rfl⟩
    have hj' : j = 0 ∨ j = 1 := by omega
    rcases hj' with rfl | rfl
    · simpa using (hasDerivAt_id a).mul_const b
    · simpa using (hasDerivAt_id b).const_mul a
  refine IsHessianAt.of_global hy ⟨_, hgrad, ?_⟩
  obtain ⟨a, b, rfl⟩ : ∃ a b, y = [a, b] := by
    match y, hy with
    | [a, b], _ => exact ⟨a, b, rfl⟩
  intro i j hi hj hij
  have hi' : i = 0 ∨ i = 1 := by omega
  have hj' : j = 0 ∨ j = 1 := by omega
  rcases hi' with rfl | rfl <;> rcases hj' with rfl | rfl <;> simp [assemble, LowerT] at hij ⊢
  · exact hasDerivAt_const _ _
  · exact hasDerivAt_id _
  · exact hasDerivAt_const _ _

/-- **C14 (finding: the lower triangle is lost).** The objective `x₀·x₁`, constructed with the right values for the lower
triangle of its Hessian, is accepted; the Hessian of the problem made from it is empty, without any error, although the mixed
second derivative of the objective is one. -/
theorem C14_lower_lost :
    (∀ y : List ℝ, y.length = 2 → IsHessianAt 2 (fun y => y.getD 0 0 * y.getD 1 0) y LowerT (assemble [1] [0] [1])) ∧
    ∃ o : Obj, Obj.make 2 (fun y => y.getD 0 0 * y.getD 1 0) (fun y => [y.getD 1 0, y.getD 0 0]) (fun _ => [1]) (some ([1], [0])) = .ok o ∧
    ((Prob.init 2).addObjective "f" o).2 = none ∧
    ((Prob.init 2).addObjective "f" o).1.hessianstructure.2 = .ok ([], []) ∧
    ∀ x, (((Prob.init 2).addObjective "f" o).1.hessianstructure.1.hessian x [] 1).2 = .ok [] := by
  refine ⟨exLower_hessian, exLower, ?_, ?_, ?_, ?_⟩
  · simp [Obj.make, Obj.updateHessScales, exLower, Obj.stateOf, gather, bind, Except.bind, pure, Except.pure, vmul]
  · simp [Prob.addObjective, Prob.init, hasKey, exLower_set]
  · simp [Prob.addObjective, Prob.init, hasKey, exLower_set, Prob.hessianstructure, Prob.hessPieces]
    simp [exLower, Obj.stateOf, keep]
  · intro x
    simp [Prob.addObjective, Prob.init, hasKey, exLower_set, Prob.hessianstructure, Prob.hessPieces, Prob.hessian]
    simp [exLower, Obj.stateOf, Obj.hessian, keep, vdiv]

end Lumos.NLP
