import Verif.Ocp.StageModel
import Verif.NLP.Model
/-!
# Model of the model algebra of an explicit state-space model (lumos/models/base.py:282-320, 408-760) and of
`JaxMappedConstraints` (lumos/optimal_control/nlp.py:235-281)
-/

namespace Lumos.Ocp

open Lumos

/-- A `StateSpaceModel` that is explicit (`x_dot = f`, `con_outputs = h`, `residuals = r`; base.py:429-437), with
its parameters bound and its `forward_with_arrays` (base.py:508-530) given as functions on arrays: states, inputs,
mesh. `states_dot` has the names of `states` (base.py:56-87). -/
structure ExplicitModel where
  states : List String
  inputs : List String
  conOutputs : List String
  residuals : List String
  f : List ℝ → List ℝ → ℝ → List ℝ
  h : List ℝ → List ℝ → ℝ → List ℝ
  r : List ℝ → List ℝ → ℝ → List ℝ

namespace ExplicitModel

/-- `num_states`, `num_inputs`, `num_con_outputs`, `num_residuals` (base.py:337-351, 497-499). -/
def nx (M : ExplicitModel) : Nat := M.states.length
def nu (M : ExplicitModel) : Nat := M.inputs.length
def ny (M : ExplicitModel) : Nat := M.conOutputs.length
def nr (M : ExplicitModel) : Nat := M.residuals.length

/-- `num_implicit_res` (base.py:488-490). -/
def numRes (M : ExplicitModel) : Nat := M.nx + M.ny + M.nr

/-- `_implicit_inputs` with the names of each group (base.py:420, 287-290). -/
def groups (M : ExplicitModel) : List (String × List String) :=
  [("states", M.states), ("inputs", M.inputs), ("states_dot", M.states), ("con_outputs", M.conOutputs)]

/-- `num_implicit_var` (base.py:492-494). -/
def numVar (M : ExplicitModel) : Nat := (M.groups.map fun g => g.2.length).sum

/-- `get_var_index_in_flat` (base.py:292-306): KeyError for an unknown name; offsets are the running sums. -/
def varIndexInFlat (M : ExplicitModel) (group name : String) : Py Nat :=
  match M.groups.lookup group with
  | none => .error .attributeError
  | some ns =>
    if name ∈ ns then
      let offsets := 0 :: (Np.cumsum (M.groups.map fun g => g.2.length)).dropLast
      match ((M.groups.map (·.1)).zip offsets).lookup group with
      | none => .error .keyError
      | some off => .ok (ns.idxOf name + off)
    else .error .keyError

/-- `get_group_indices_in_flat` (base.py:308-313), for the four groups of the implicit equations, which are all that lumos asks
for. Simplified: any other group is an AttributeError here (in the code `outputs` and `residuals` are a KeyError, or an empty
array if the model has none). -/
def groupIndices (M : ExplicitModel) (group : String) : Py (List Nat) :=
  match M.groups.lookup group with
  | none => .error .attributeError
  | some ns => ns.mapM fun n => M.varIndexInFlat group n

/-- `_apply_and_flat_implicit` (base.py:583-595) with `_split_flat_vars` (574-581) and `implicit` (532-572).
Array subtraction is elementwise on arrays of equal length. -/
noncomputable def flatImplicit (M : ExplicitModel) (v : List ℝ) (μ : ℝ) : List ℝ :=
  let parts := Np.split v (Np.cumsum (M.groups.map fun g => g.2.length)).dropLast
  let x := parts.getD 0 []
  let u := parts.getD 1 []
  let xd := parts.getD 2 []
  let y := parts.getD 3 []
  List.zipWith (· - ·) (M.f x u μ) xd ++ (List.zipWith (· - ·) (M.h x u μ) y ++ M.r x u μ)

/-- `_model_algebra_jacobianstructure` (base.py:661-702). `np.stack` of no arrays raises ValueError (no states and
no inputs, or no residuals at all). -/
def jacStructure (M : ExplicitModel) : Py (List Nat × List Nat) :=
  if M.nx + M.nu = 0 ∨ M.numRes = 0 then .error .valueError
  else do
    let cs ← M.groupIndices "states"
    let ci ← M.groupIndices "inputs"
    let cd ← M.groupIndices "states_dot"
    let cy ← M.groupIndices "con_outputs"
    -- np.stack([arange(nres)] * (nx + nu)).T.ravel()
    let rows := (List.range M.numRes).flatMap fun r => List.replicate (M.nx + M.nu) r
    let cols := (List.replicate M.numRes (cs ++ ci)).flatten
    return (rows ++ List.range M.nx ++ (List.range M.ny).map (M.nx + ·), cols ++ cd ++ cy)

/-- `_model_algebra_hessianstructure` (base.py:704-730). -/
def hessStructure (M : ExplicitModel) : Py (List Nat × List Nat) := do
  let cd ← M.groupIndices "states_dot"
  let cy ← M.groupIndices "con_outputs"
  let st := NLP.denseStructure M.numVar M.numVar
  let remove := cd ++ cy
  let keepMask := List.zipWith (fun r c => decide (r ∉ remove) && decide (c ∉ remove)) st.1 st.2
  return (keep keepMask st.1, keep keepMask st.2)

/-- `_make_jax_model_algebra_cons` (base.py:732-754) with `JaxMappedConstraints.__init__` (nlp.py:235-281):
the dense derivatives `D`, `D2` computed by `jax.jacobian` / `jax.hessian` (trusted to be the derivatives) are read
at the structure positions, `fn(*args)[rows, cols]`. -/
noncomputable def jaxUnit (M : ExplicitModel) (D : List ℝ → ℝ → Nat → Nat → ℝ)
    (D2 : List ℝ → List ℝ → ℝ → Nat → Nat → ℝ) : Py UnitProblem := do
  let js ← M.jacStructure
  let hs ← M.hessStructure
  return { numIn := M.numVar, numCon := M.numRes, con := M.flatImplicit
           jac := fun v μ => List.zipWith (D v μ) js.1 js.2
           hess := fun v l μ => List.zipWith (D2 v l μ) hs.1 hs.2
           jacStruct := js, hessStruct := hs }

end ExplicitModel

end Lumos.Ocp
