import Verif.DecVar.Props
import Mathlib.Order.BoundedOrder.Basic
/-!
# Model of the decision-variable bounds (scaled_mesh_ocp.py:623-638, 724-791; config.py:8-42; nlp.py:874-882)

The value type `V` is any linear order with a least and a greatest element (`-inf`, `inf`), e.g. `EReal`.
Simplification: NaN is not modelled (it makes every comparison false, so it always raises AssertionError).
-/

namespace Lumos.Bounds

open Lumos DecVar DecVar.Layout

/-- A bound value: a Python scalar or a 1-d NumPy array. -/
inductive BVal (V : Type)
  | scalar (v : V)
  | array (vs : List V)
  deriving DecidableEq, Repr

/-- The `bounds` argument: a tuple `(lb, ub)` or one value used for both (scaled_mesh_ocp.py:750-753). -/
inductive BArg (V : Type)
  | pair (lb ub : BVal V)
  | single (v : BVal V)
  deriving DecidableEq, Repr

/-- `lb, ub = bounds` or `lb = ub = bounds` (scaled_mesh_ocp.py:750-753). -/
def BArg.lb {V : Type} : BArg V → BVal V
  | .pair l _ => l
  | .single v => v

/-- See `BArg.lb`. -/
def BArg.ub {V : Type} : BArg V → BVal V
  | .pair _ u => u
  | .single v => v

/-- `BoundConfig` (config.py:7-18), before validation. -/
structure BoundConfig (V : Type) where
  group : String
  name : String
  lb : BVal V
  ub : BVal V
  deriving DecidableEq, Repr

/-- `BoundaryConditionConfig` (config.py:56-63). Its fields are not validated, so the value is any bounds
argument and the stage may be `None`. -/
structure BC (V : Type) where
  stage : Option Int
  group : String
  name : String
  value : BArg V
  deriving DecidableEq, Repr

/-- The part of the problem's state that concerns bounds. -/
structure St (V : Type) where
  lb : List V
  ub : List V
  bcs : List (BC V)
  deriving DecidableEq, Repr

section
variable {V : Type} [LinearOrder V]

/-- `np.all(lb <= ub)` with NumPy broadcasting (scaled_mesh_ocp.py:761): ValueError if the shapes do not
broadcast. -/
def leAll : BVal V → BVal V → Py Bool
  | .scalar a, .scalar b => .ok (decide (a ≤ b))
  | .scalar a, .array bs => .ok (bs.all fun b => decide (a ≤ b))
  | .array as, .scalar b => .ok (as.all fun a => decide (a ≤ b))
  | .array as, .array bs =>
    if as.length = bs.length then .ok ((as.zip bs).all fun p => decide (p.1 ≤ p.2))
    else match as, bs with
      | [a], bs => .ok (bs.all fun b => decide (a ≤ b))
      | as, [b] => .ok (as.all fun a => decide (a ≤ b))
      | _, _ => .error .valueError

/-- `BoundConfig.__post_init__` (config.py:19-42): AssertionError when a check fails, TypeError on a mix of
scalar and array. Simplification: arrays of dimension other than one are not modelled. -/
def BoundConfig.make (group name : String) (lb ub : BVal V) : Py (BoundConfig V) :=
  match lb, ub with
  | .scalar a, .scalar b => if a ≤ b then .ok ⟨group, name, lb, ub⟩ else .error .assertionError
  | .array as, .array bs =>
    if as.length = bs.length then
      if (as.zip bs).all fun p => decide (p.1 ≤ p.2) then .ok ⟨group, name, lb, ub⟩
      else .error .assertionError
    else .error .assertionError
  | _, _ => .error .typeError

end

section
variable {V : Type}

/-- Writing values at several positions in order (NumPy fancy assignment). -/
def setMany (x : List V) (ps : List (Nat × V)) : List V := ps.foldl (fun x p => x.set p.1 p.2) x

/-- `x[idx] = v` (scaled_mesh_ocp.py:763-764): an array can be stored in one position only if it has one
element, and in several positions only if it has one element or as many elements as positions, otherwise
ValueError. The index always comes from `get_var_index_in_dec`, so it is in range (C01). -/
def assign (x : List V) : Idx → BVal V → Py (List V)
  | .scalar i, .scalar v => .ok (x.set i v)
  | .scalar i, .array [v] => .ok (x.set i v)
  | .scalar _, .array _ => .error .valueError
  | .array is, .scalar v => .ok (setMany x (is.map fun i => (i, v)))
  | .array is, .array vs =>
    if vs.length = is.length then .ok (setMany x (is.zip vs))
    else match vs with
      | [v] => .ok (setMany x (is.map fun i => (i, v)))
      | _ => .error .valueError

/-- The size check of scaled_mesh_ocp.py:755-759. -/
def sizeOk (L : Layout) : Idx → BVal V → Bool
  | .array _, .array vs => decide (vs.length = L.numStages)
  | _, _ => true

end

section
variable {V : Type} [LinearOrder V]

/-- `_set_var_bounds` (scaled_mesh_ocp.py:738-764). Returns the new state and the exception raised, if any:
the lower bounds are written before the upper ones, so an exception may leave the former changed. -/
def setVarBounds (L : Layout) (s : St V) (group name : String) (stage : Option Int) (b : BArg V) :
    St V × Option PyErr :=
  match L.indexInDec group name stage with
  | .error e => (s, some e)
  | .ok idx =>
    if sizeOk L idx b.lb then
      match leAll b.lb b.ub with
      | .error e => (s, some e)
      | .ok false => (s, some .assertionError)
      | .ok true =>
        match assign s.lb idx b.lb with
        | .error e => (s, some e)
        | .ok lb' =>
          match assign s.ub idx b.ub with
          | .error e => ({ s with lb := lb' }, some e)
          | .ok ub' => ({ s with lb := lb', ub := ub' }, none)
    else (s, some .assertionError)

/-- `set_state_bounds`, `set_input_bounds`, `set_con_output_bounds` (scaled_mesh_ocp.py:767-781) and
`_set_var_bounds` itself all take such a request. -/
structure Req (V : Type) where
  group : String
  name : String
  stage : Option Int
  arg : BArg V
  deriving DecidableEq, Repr

/-- A `for` loop of `_set_var_bounds` calls, stopped by the first exception. -/
def setAll (L : Layout) (s : St V) : List (Req V) → St V × Option PyErr
  | [] => (s, none)
  | r :: rs =>
    match setVarBounds L s r.group r.name r.stage r.arg with
    | (s', some e) => (s', some e)
    | (s', none) => setAll L s' rs

/-- The request a bound config makes (scaled_mesh_ocp.py:631-634). -/
def BoundConfig.req (c : BoundConfig V) : Req V := ⟨c.group, c.name, none, .pair c.lb c.ub⟩

/-- The request a boundary condition makes (scaled_mesh_ocp.py:733-736). -/
def BC.req (c : BC V) : Req V := ⟨c.group, c.name, c.stage, c.value⟩

/-- `_apply_boundary_conditions` (scaled_mesh_ocp.py:731-736). -/
def applyBCs (L : Layout) (s : St V) : St V × Option PyErr := setAll L s (s.bcs.map BC.req)

/-- `update_bounds` (scaled_mesh_ocp.py:623-638). -/
def updateBounds (L : Layout) (s : St V) (cs : List (BoundConfig V)) : St V × Option PyErr :=
  match setAll L s (cs.map BoundConfig.req) with
  | (s', some e) => (s', some e)
  | (s', none) => applyBCs L s'

/-- `update_boundary_conditions` (scaled_mesh_ocp.py:724-729): appends, then applies all. -/
def updateBCs (L : Layout) (s : St V) (bs : List (BC V)) : St V × Option PyErr :=
  applyBCs L { s with bcs := s.bcs ++ bs }

/-- `set_default_bounds` (nlp.py:874-882), and no boundary conditions yet (scaled_mesh_ocp.py class attribute). -/
def fresh (L : Layout) [OrderBot V] [OrderTop V] : St V :=
  ⟨List.replicate L.numDec ⊥, List.replicate L.numDec ⊤, []⟩

/-- A call of the bounds API. -/
inductive Call (V : Type)
  | updateBounds (cs : List (BoundConfig V))
  | updateBCs (bs : List (BC V))
  | set (r : Req V)

/-- Perform a call. -/
def Call.run (L : Layout) (s : St V) : Call V → St V × Option PyErr
  | .updateBounds cs => Bounds.updateBounds L s cs
  | .updateBCs bs => Bounds.updateBCs L s bs
  | .set r => setVarBounds L s r.group r.name r.stage r.arg

/-- A history of calls; a call that raises leaves whatever it changed, and the program goes on. -/
def runAll (L : Layout) (s : St V) (cs : List (Call V)) : St V :=
  cs.foldl (fun s c => (c.run L s).1) s

end

end Lumos.Bounds
