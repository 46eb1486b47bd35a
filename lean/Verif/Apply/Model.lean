import Verif.Tree.Composition

/-!
# Model of evaluating a model with given parameters (`lumos/models/base.py`)

`apply_and_forward` and `apply_and_forward_with_arrays` of `Model` (base.py:148-154) and `StateSpaceModel`
(base.py:439-445), next to `forward`, `forward_with_arrays`, `set_recursive_params` and `get_recursive_params`.
-/

namespace Lumos.Trees.Apply

open Lumos

/-- A model object. `D`, `R`: arguments and results of `forward`; `X`, `Y`: those of `forward_with_arrays`. A state-space
model takes states, inputs and mesh, a stateless one only inputs (base.py:124, 408). Simplification: an evaluation
computes from the parameters held and its arguments only; for the buffers of submodel returns see C51. -/
structure Obj (V D X R Y : Type) where
  stateSpace : Bool
  mod : Mod V
  forward : Tree V → D → Py R
  forwardArrays : Tree V → X → Py Y

/-- What a user calls. -/
inductive Op (V D X : Type) where
  /-- `set_recursive_params(t)` -/
  | set (t : Tree V)
  /-- `forward(...)` -/
  | forward (a : D)
  /-- `forward_with_arrays(...)` -/
  | forwardArrays (a : X)
  /-- `apply_and_forward(..., params=t)` -/
  | apply (a : D) (t : Tree V)
  /-- `apply_and_forward_with_arrays(..., params=t)` -/
  | applyArrays (a : X) (t : Tree V)

/-- What a call returns. -/
inductive Answer (R Y : Type) where
  | none
  | dict (r : R)
  | arrays (y : Y)
  deriving DecidableEq

variable {V D X R Y : Type}

namespace Obj

/-- `forward` (base.py:139-146, 428-437): computes with the parameters held. -/
def callForward (o : Obj V D X R Y) (a : D) : Py (Answer R Y) := do
  return .dict (← o.forward (Mod.getParams o.mod) a)

/-- `forward_with_arrays` (base.py:325-335, 508-527): computes with the parameters held. -/
def callArrays (o : Obj V D X R Y) (a : X) : Py (Answer R Y) := do
  return .arrays (← o.forwardArrays (Mod.getParams o.mod) a)

/-- `apply_and_forward` (base.py:148-150, 439-441). -/
def applyAndForward (o : Obj V D X R Y) (a : D) (t : Tree V) : Obj V D X R Y × Py (Answer R Y) :=
  match Mod.setParams o.mod t with
  | (m, some e) => ({ o with mod := m }, .error e)
  | (m, none) =>
    let o := { o with mod := m }
    (o, o.callForward a)

/-- `apply_and_forward_with_arrays`: a stateless model sets the parameters and then calls a method `forward_with_array` that
does not exist (base.py:152-154); a state-space model calls `forward_with_arrays` (base.py:443-445). -/
def applyAndForwardWithArrays (o : Obj V D X R Y) (a : X) (t : Tree V) : Obj V D X R Y × Py (Answer R Y) :=
  match Mod.setParams o.mod t with
  | (m, some e) => ({ o with mod := m }, .error e)
  | (m, none) =>
    let o := { o with mod := m }
    if o.stateSpace then (o, o.callArrays a) else (o, .error .attributeError)

/-- One call: the object afterwards and what the call returns or raises. -/
def step (o : Obj V D X R Y) : Op V D X → Obj V D X R Y × Py (Answer R Y)
  | .set t =>
    match Mod.setParams o.mod t with
    | (m, some e) => ({ o with mod := m }, .error e)
    | (m, none) => ({ o with mod := m }, .ok .none)
  | .forward a => (o, o.callForward a)
  | .forwardArrays a => (o, o.callArrays a)
  | .apply a t => o.applyAndForward a t
  | .applyArrays a t => o.applyAndForwardWithArrays a t

/-- A history of calls; each exception is caught by the user, who goes on. -/
def after (o : Obj V D X R Y) : List (Op V D X) → Obj V D X R Y
  | [] => o
  | op :: ops => (o.step op).1.after ops

end Obj

end Lumos.Trees.Apply
