import Verif.Ocp.ContLemmas
/-!
# Model of `ConvConstraints` (lumos/optimal_control/convolution.py)
-/

namespace Lumos.Ocp

open Lumos DecVar DecVar.Layout Conv

/-- A unit problem: a `MappedConstraints` object (nlp.py:189-232) with the parameters already bound. The
callables take the flat variables of one stage, the mesh point of the stage, and (Hessian) the multipliers of
the stage. Jacobian and Hessian values are read raveled, the structures raveled as well
(convolution.py:119-147). -/
structure UnitProblem where
  numIn : Nat
  numCon : Nat
  con : List ℝ → ℝ → List ℝ
  jac : List ℝ → ℝ → List ℝ
  hess : List ℝ → List ℝ → ℝ → List ℝ
  jacStruct : List Nat × List Nat
  hessStruct : List Nat × List Nat

namespace OCP

/-- `_transform_inputs` (convolution.py:113-116): the global variables are split off, the stage variables cut
into windows of `unit_problem.num_in`. -/
def transformInputs (o : OCP) (u : UnitProblem) (x : List ℝ) : Py (List (List ℝ)) :=
  batchConv1d (x.take o.L.numAllStageVar) u.numIn o.L.numVarStage

/-- `_get_mesh` (convolution.py:118-119). -/
noncomputable def stageMesh (o : OCP) (mesh : List ℝ) (x : List ℝ) : Py (List ℝ) := do
  let ms ← o.meshScale x
  return mesh.map (· * ms)

/-- `unit_problem.mapped_...`: apply to all rows; the mapped functions (`lmap`, `jax.vmap`, `cmap`) raise
ValueError when the leading dimensions differ (as `jax.vmap` does; for `lmap` see C79). -/
def mapRows {β : Type} (f : List ℝ → ℝ → List β) (rows : List (List ℝ)) (mesh : List ℝ) : Py (List (List β)) :=
  if rows.length = mesh.length then .ok (List.zipWith f rows mesh) else .error .valueError

/-- `_constraints` of `ConvConstraints.__init__` (convolution.py:55-61). -/
noncomputable def stageConstraints (o : OCP) (u : UnitProblem) (mesh : List ℝ) (x : List ℝ) : Py (List ℝ) := do
  let rows ← o.transformInputs u x
  let ms ← o.stageMesh mesh x
  let out ← mapRows u.con rows ms
  return out.flatten

/-- `_jacobian` (convolution.py:63-69). -/
noncomputable def stageJacobian (o : OCP) (u : UnitProblem) (mesh : List ℝ) (x : List ℝ) : Py (List ℝ) := do
  let rows ← o.transformInputs u x
  let ms ← o.stageMesh mesh x
  let out ← mapRows u.jac rows ms
  return out.flatten

/-- `_hessian` (convolution.py:71-87). -/
noncomputable def stageHessian (o : OCP) (u : UnitProblem) (mesh : List ℝ) (x lagrange : List ℝ) :
    Py (List ℝ) := do
  let rows ← o.transformInputs u x
  if o.L.numStages * u.numCon ≠ lagrange.length then .error .valueError
  else
    let lag := Np.reshapeRows o.L.numStages u.numCon lagrange
    let ms ← o.stageMesh mesh x
    if rows.length = ms.length ∧ rows.length = lag.length then
      return (List.zipWith (fun (p : List ℝ × List ℝ) m => u.hess p.1 p.2 m) (rows.zip lag) ms).flatten
    else .error .valueError

/-- `_build_jac_and_hess_struct` (convolution.py:121-148), Jacobian part. -/
def stageJacStructure (o : OCP) (u : UnitProblem) : Py (List Nat × List Nat) :=
  createOffsetStructure u.jacStruct.1 u.jacStruct.2 u.numCon o.L.numVarStage o.L.numStages

/-- `_build_jac_and_hess_struct` (convolution.py:121-148), Hessian part. -/
def stageHessStructure (o : OCP) (u : UnitProblem) : Py (List Nat × List Nat) :=
  createOffsetStructure u.hessStruct.1 u.hessStruct.2 o.L.numVarStage o.L.numVarStage o.L.numStages

end OCP

end Lumos.Ocp
