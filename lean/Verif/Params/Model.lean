import Verif.Tree.CompositionProps
import Verif.Tree.Flat
/-!
# Model of the parameters of an optimal control problem

lumos/optimal_control/scaled_mesh_ocp.py:78-171 (`__init__`, `_set_model_params`, `modify_model_param`), lumos/optimal_control/convolution.py:104-113
(`set_params`), lumos/models/base.py:630-661 (`make_model_algebra_cons`) and 440-449, 581-595 (`apply_and_forward_with_arrays`,
`_apply_and_flat_implicit`).

There are three places that hold parameters: the problem (`_params`), the stage constraints and the model object. Where the stage constraints hold
the problem's tree by reference they are not represented separately. Array values are not mutated in place.
-/

namespace Lumos.Trees.OcpParams

open Lumos

/-- A parameter value: a number, or a symbol that a backend put in its place while it traced the model. -/
inductive Num (V : Type)
  | val (v : V)
  | tracer

/-- The backends. -/
inductive Backend
  | jax | casadi | custom
  deriving DecidableEq

variable {V : Type}

/-- A problem. -/
structure Prob (V : Type) where
  backend : Backend
  condensed : Bool
  /-- `self._params` of the problem. With the backends 'jax' and 'custom' the stage constraints hold the same object (convolution.py:113). -/
  ocp : Tree (Num V)
  /-- With the backend 'casadi' the stage constraints hold the flattened parameters (convolution.py:111); the vector is represented by the tree
  it was made of (what of a matrix arrives in the compiled functions: C96). -/
  flat : Tree (Num V)
  /-- The number of parameters that the compiled casadi functions take. -/
  compiled : Nat
  /-- `self.model`. -/
  model : Mod (Num V)

/-- All parameters replaced by symbols. -/
def traced (t : Tree (Num V)) : Tree (Num V) := Tree.relabel .dict (.val .tracer) t

/-- The number of parameters of a tree. -/
def count (t : Tree (Num V)) : Nat := (Tree.leaves .dict t).length

/-- The model after `make_model_algebra_cons` (base.py:630-661): the casadi backend evaluates the model with symbols for parameters; the original
parameters, copied before (through a dictionary, C39), are restored after. The other two backends do not evaluate the model here. -/
def makeAlgebra (b : Backend) (m : Mod (Num V)) : Mod (Num V) :=
  let params := Mod.getParams m
  let m1 := match b with
    | .casadi => (Mod.setParams m (traced params)).1
    | .jax => m
    | .custom => m
  (Mod.setParams m1 params).1

/-- The constructor, as far as parameters are concerned (scaled_mesh_ocp.py:84, 120, 1293). -/
def construct (b : Backend) (condensed : Bool) (m : Mod (Num V)) : Prob V :=
  { backend := b, condensed := condensed, ocp := Mod.getParams m, flat := Mod.getParams m, compiled := count (Mod.getParams m)
    model := makeAlgebra b m }

/-- What a user can do. -/
inductive Op (V : Type)
  /-- `modify_model_param(path, value)`. -/
  | modify (path : String) (value : PV (Num V))
  /-- Evaluate the stage constraints or their derivatives; for the backend 'jax', whether the call traces the function (the first one does). -/
  | stage (traces : Bool)
  /-- `model.batched_forward(..., self._params)` as in the condensed Jacobian and in logging (scaled_mesh_ocp.py:302-307, 902-907). -/
  | forward (traces : Bool)
  /-- `model.set_recursive_params(t)` on the model object. -/
  | setModel (t : Tree (Num V))
  /-- `model.forward(...)` on the model object. -/
  | callModel

/-- A parameter value that can be computed with. -/
def concrete : PV (Num V) → Bool
  | .val .tracer => false
  | _ => true

/-- `modify_model_param` (scaled_mesh_ocp.py:158-170): the problem's tree is changed in place, then given to the model and to the constraints
named "model_algebra", which in a condensed problem are constraints without parameters (AttributeError). -/
def modify (p : Prob V) (path : String) (value : PV (Num V)) : Prob V × Option PyErr :=
  match Tree.setParam p.ocp path value with
  | (t, some e) => ({ p with ocp := t }, some e)
  | (t, none) =>
    match Mod.setParams p.model t with
    | (m, some e) => ({ p with ocp := t, model := m }, some e)
    | (m, none) =>
      if p.condensed then ({ p with ocp := t, model := m }, some .attributeError)
      else ({ p with ocp := t, model := m, flat := t }, none)

/-- A function that sets the parameters of the model object to `t` and computes with `used`. -/
def apply (p : Prob V) (t used : Tree (Num V)) : Prob V × Py (Option (Tree (Num V))) :=
  match Mod.setParams p.model t with
  | (m, some e) => ({ p with model := m }, .error e)
  | (m, none) => ({ p with model := m }, .ok (some used))

/-- One operation: the problem afterwards, and what parameters the computation used (none for an operation that computes nothing). Evaluations:
the functions of 'jax', when they are traced, and the methods of 'custom' set the parameters of the model object to what they are given
(base.py:445, 584); a compiled casadi function takes a vector of the length it was made for. The batched forward evaluation of 'custom' raises
IndexError; the Hessian of its stage constraints, which raises AttributeError, is left out here (C79). -/
def step (p : Prob V) : Op V → Prob V × Py (Option (Tree (Num V)))
  | .modify path value =>
    match modify p path value with
    | (q, some e) => (q, .error e)
    | (q, none) => (q, .ok none)
  | .stage traces =>
    match p.backend with
    | .jax => if traces then apply p (traced p.ocp) p.ocp else (p, .ok (some p.ocp))
    | .casadi => (p, if count p.flat = p.compiled then .ok (some p.flat) else .error .runtimeError)
    | .custom => apply p p.ocp p.ocp
  | .forward traces =>
    match p.backend with
    | .jax => if traces then apply p (traced p.ocp) p.ocp else (p, .ok (some p.ocp))
    | .casadi => (p, if count p.ocp = p.compiled then .ok (some p.ocp) else .error .runtimeError)
    | .custom => ((apply p p.ocp p.ocp).1, .error .indexError)
  | .setModel t =>
    match Mod.setParams p.model t with
    | (m, some e) => ({ p with model := m }, .error e)
    | (m, none) => ({ p with model := m }, .ok none)
  | .callModel =>
    (p, if (Tree.leaves .dict (Mod.getParams p.model)).all (fun a => concrete a.2) then .ok (some (Mod.getParams p.model)) else .error .typeError)

/-- A history of operations. -/
def steps (p : Prob V) : List (Op V) → Prob V
  | [] => p
  | op :: l => steps (step p op).1 l

end Lumos.Trees.OcpParams
