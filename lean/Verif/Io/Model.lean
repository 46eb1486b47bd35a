import Verif.Base.Dict
/-!
# Model of the inputs and outputs of models by name (lumos/models/base.py:24-405, 408-530)

The tree of submodels and its construction are the subject of `Verif/Tree`; here a model object is a class with the names
it declares, its `forward`, and its submodels. Parameters do not change during a call and are part of `forward`.
Values (`V`) are numbers, tracers or casadi symbols: no arithmetic is done on them here. Logged warnings are not modelled.
-/

namespace Lumos.Io

open Lumos

/-- `ModelIO` / `StateSpaceIO` (base.py:35-41). `states_dot` has the names of `states` (base.py:56-87); a stateless model
has neither states nor constrained outputs, and asking for them is an AttributeError. -/
structure Names where
  stateSpace : Bool
  states : List String
  inputs : List String
  outputs : List String
  conOutputs : List String
  residuals : List String
  deriving DecidableEq

namespace Names

/-- `get_group_names`: `getattr(self.names, group)` (base.py:287-290). -/
def group (nm : Names) (g : String) : Py (List String) :=
  if g = "inputs" then .ok nm.inputs
  else if g = "outputs" then .ok nm.outputs
  else if g = "residuals" then .ok nm.residuals
  else if nm.stateSpace && (g == "states" || g == "states_dot") then .ok nm.states
  else if nm.stateSpace && g == "con_outputs" then .ok nm.conOutputs
  else .error .attributeError

/-- `get_var_index` (base.py:292-297). -/
def varIndex (nm : Names) (g n : String) : Py Nat := do
  let ns ← nm.group g
  if n ∈ ns then .ok (ns.idxOf n) else .error .keyError

/-- `get_num_vars` (base.py:315-316). -/
def numVars (nm : Names) (g : String) : Py Nat := do
  let ns ← nm.group g
  return ns.length

/-- `_check_names` (base.py:465-474): only state-space models do it. -/
def check (nm : Names) : Py Unit :=
  if nm.stateSpace then
    if ∀ c ∈ nm.conOutputs, c ∈ nm.outputs then
      if ∀ c ∈ nm.residuals, c ∈ nm.outputs then .ok () else .error .valueError
    else .error .valueError
  else .ok ()

/-- `set_con_outputs` (base.py:476-480): no check. -/
def setConOutputs (nm : Names) (c : List String) : Names := { nm with conOutputs := c }

variable {V : Type}

/-- Calling a Python function with `**d` when it has parameters of the names `taken`: TypeError for a key among them. -/
def starArgs (taken : List String) (d : Dict V) : Py Unit :=
  if ∃ k ∈ taken, k ∈ d.keys then .error .typeError else .ok ()

/-- `_check_keys` (base.py:365-376): superfluous keys are only logged. -/
def checkKeys (nm : Names) (g : String) (d : Dict V) : Py Unit := do
  let ns ← nm.group g
  if ∀ n ∈ ns, n ∈ d.keys then .ok () else .error .keyError

/-- `make_vector` (base.py:378-381). -/
def makeVector (nm : Names) (g : String) (d : Dict V) : Py (List V) := do
  starArgs ["self", "group"] d
  checkKeys nm g d
  let ns ← nm.group g
  ns.mapM d.get

/-- `make_dict` (base.py:383-390). -/
def makeDict (nm : Names) (g : String) (d : Dict V) : Py (Dict V) := do
  starArgs ["self", "group"] d
  checkKeys nm g d
  return d

/-- `make_const_dict` (base.py:392-394). -/
def makeConstDict (nm : Names) (g : String) (v : V) : Py (Dict V) := do
  let ns ← nm.group g
  return ns.foldl (fun (d : Dict V) (n : String) => d.set n v) []

/-- `get_input`, `get_output`, `get_state` (base.py:319-323, 505-506). -/
def readVar (nm : Names) (g : String) (v : List V) (n : String) : Py V := do
  let i ← nm.varIndex g n
  match v[i]? with
  | some a => .ok a
  | none => .error .indexError

end Names

/-- One item of the comprehension in `_array_to_dict` (base.py:30). -/
def arrayItem {V : Type} (vs : List V) (d : Dict V) (p : String × Nat) : Py (Dict V) :=
  match vs[p.2]? with
  | some v => .ok (d.set p.1 v)
  | none => .error .indexError

/-- `_array_to_dict` (base.py:26-30): `{name: values[idx] for idx, name in enumerate(names)}`. -/
def arrayToDict {V : Type} (ns : List String) (vs : List V) : Py (Dict V) := ns.zipIdx.foldlM (arrayItem vs) []

/-- `ModelReturn` / `StateSpaceModelReturn` (base.py:89-102). -/
structure Ret (V : Type) where
  statesDot : Dict V := []
  outputs : Dict V := []
  conOutputs : Dict V := []
  residuals : Dict V := []

/-- The keyword arguments of a `forward`. -/
structure Kw (V : Type) where
  states : Option (Dict V) := none
  inputs : Option (Dict V) := none
  mesh : Option V := none

/-- What the body of a user's `forward` does, as far as the model object is concerned: it returns, raises, calls a submodel
and goes on with its return, or calls `make_outputs_dict` and goes on with the dictionary. A body that catches exceptions of
these calls, or that reaches around `call_submodel`, is not of this form. -/
inductive Prog (V : Type)
  | done (r : Ret V)
  | fail (e : PyErr)
  | call (name : String) (kw : Kw V) (k : Ret V → Prog V)
  | makeOutputs (kw : Dict V) (k : Dict V → Prog V)

/-- A model class: `_direct_names` (base.py:44-87) and `forward`. -/
structure Cls (V : Type) where
  direct : Names
  forward : Kw V → Prog V

/-- A model object with its submodels. -/
inductive Mdl (V : Type)
  | node (cls : Cls V) (subs : List (String × Mdl V))

namespace Mdl

variable {V : Type}

def cls : Mdl V → Cls V
  | node c _ => c

def subs : Mdl V → List (String × Mdl V)
  | node _ s => s

/-- `submodel_name + "." + n` for every name (base.py:167-169, 181-183). -/
def addPrefix (p : String) (ns : List String) : List String := ns.map fun n => p ++ "." ++ n

mutual
/-- `_construct_io_names` (base.py:156-165, 447-463). -/
def names : Mdl V → Names
  | node c s =>
    let cs := namesL s
    { c.direct with
      outputs := c.direct.outputs ++ cs.flatMap fun p => addPrefix p.1 p.2.outputs
      residuals := c.direct.residuals ++ cs.flatMap fun p => addPrefix p.1 p.2.residuals }
/-- The loops over `_submodels` (base.py:167-191). -/
def namesL : List (String × Mdl V) → List (String × Names)
  | [] => []
  | (n, m) :: ms => (n, names m) :: namesL ms
end

mutual
/-- The checks made while the object and, before it, its submodels are constructed (base.py:422-426, 465-474). -/
def init : Mdl V → Py Unit
  | node c s => do
    initL s
    (names (node c s)).check
/-- The submodels, in order. -/
def initL : List (String × Mdl V) → Py Unit
  | [] => .ok ()
  | (_, m) :: ms => do
    init m
    initL ms
end

end Mdl

/-- `_submodel_return_buffer` of every model in the tree, by the path to the model: for each direct submodel `None` or its
return. -/
abbrev State (V : Type) := List String → Dict (Option (Ret V))

namespace State

variable {V : Type}

/-- The buffers of a submodel. -/
def sub (σ : State V) (n : String) : State V := fun p => σ (n :: p)

/-- The buffers after those of a submodel have become `τ`. -/
def setSub (σ : State V) (n : String) (τ : State V) : State V
  | [] => σ []
  | k :: p => if k = n then τ p else σ (k :: p)

/-- The buffers after the model's own has become `b`. -/
def setTop (σ : State V) (b : Dict (Option (Ret V))) : State V
  | [] => b
  | k :: p => σ (k :: p)

end State

namespace Mdl

variable {V : Type}

mutual
/-- The buffers after construction (base.py:127-137, 193-202). -/
def clear : Mdl V → State V
  | node _ s, [] => s.map fun p => (p.1, none)
  | node _ s, n :: p => clearL s n p
def clearL : List (String × Mdl V) → String → State V
  | [], _, _ => []
  | (k, m) :: ms, n, p => if n = k then clear m p else clearL ms n p
end

/-- One round of the loop of `_combine_submodel_outputs` (base.py:262-273). -/
def combineItem (acc : Dict V) (p : String × Option (Ret V)) : Py (Dict V) :=
  match p.2 with
  | none => .error .keyError
  | some r => .ok (acc.update (r.outputs.map fun kv => (p.1 ++ "." ++ kv.1, kv.2)))

/-- `_combine_submodel_outputs` (base.py:252-278): KeyError as soon as a return is missing, before the buffer is cleared. -/
def combine (b : Dict (Option (Ret V))) : Py (Dict V) := b.foldlM combineItem []

/-- The call `self.make_dict(group="outputs", **kwargs, **submodel_outputs)` of `make_outputs_dict` (base.py:396-402): a key
in both is a TypeError. -/
def mergeOutputs (nm : Names) (kw sub : Dict V) : Py (Dict V) := do
  if ∃ k ∈ kw.keys, k ∈ sub.keys then .error .typeError
  else nm.makeDict "outputs" (kw ++ sub)

/-- The tests of `call_submodel` before the submodel runs (base.py:236-243): `kwargs[group]` and `_check_keys`. -/
def checkCall (nm : Names) (kw : Kw V) : Py Unit := do
  match kw.inputs with
  | none => .error .keyError
  | some d => nm.checkKeys "inputs" d
  if nm.stateSpace then
    match kw.states with
    | none => .error .keyError
    | some d => nm.checkKeys "states" d
  else .ok ()

/-- Running the body of a `forward` of a model with names `nm`, where `look` gives the submodels: `call_submodel`
(base.py:204-250) and `make_outputs_dict` (base.py:396-402). Simplification: a submodel name with a dot is not found (in
`get_submodel` it would be read as a path, and the buffer has no such key). -/
def runProg (nm : Names) (look : String → Option (Names × (State V → Kw V → State V × Py (Ret V)))) :
    Prog V → State V → State V × Py (Ret V)
  | .done r, σ => (σ, .ok r)
  | .fail e, σ => (σ, .error e)
  | .call n kw k, σ =>
    match look n with
    | none => (σ, .error .keyError)
    | some (snm, fwd) =>
      match (σ []).lookup n with
      | none => (σ, .error .keyError)
      | some (some _) => (σ, .error .runtimeError)
      | some none =>
        match checkCall snm kw with
        | .error e => (σ, .error e)
        | .ok () =>
          match fwd (σ.sub n) kw with
          | (τ, .error e) => (σ.setSub n τ, .error e)
          | (τ, .ok r) =>
            let σ := σ.setSub n τ
            runProg nm look (k r) (σ.setTop ((σ []).set n (some r)))
  | .makeOutputs kw k, σ =>
    if "self" ∈ kw.keys then (σ, .error .typeError)
    else
      match combine (σ []) with
      | .error e => (σ, .error e)
      | .ok d =>
        let σ := σ.setTop ((σ []).map fun p => (p.1, none))
        match mergeOutputs nm kw d with
        | .error e => (σ, .error e)
        | .ok d => runProg nm look (k d) σ

mutual
/-- Calling `forward` of a model object. -/
def run : Mdl V → State V → Kw V → State V × Py (Ret V)
  | node c s, σ, kw => runProg (names (node c s)) (runL s) (c.forward kw) σ
/-- The submodels, by name. -/
def runL : List (String × Mdl V) → String → Option (Names × (State V → Kw V → State V × Py (Ret V)))
  | [], _ => none
  | (n, m) :: ms, k => if k = n then some (names m, run m) else runL ms k
end

/-- `ArrayModelReturn` / `ArrayStateSpaceModelReturn` (base.py:105-121). -/
structure ArrayRet (V : Type) where
  statesDot : List V := []
  outputs : List V := []
  conOutputs : List V := []
  residuals : List V := []

/-- One item of the comprehension in `_extract_residuals` (base.py:483). -/
def extractItem (outputs : Dict V) (d : Dict V) (c : String) : Py (Dict V) := do
  return d.set c (← outputs.get c)

/-- `_extract_residuals`, `_extract_con_outputs` (base.py:482-486). -/
def extract (ns : List String) (outputs : Dict V) : Py (Dict V) := ns.foldlM (extractItem outputs) []

/-- `Model.forward_with_arrays` (base.py:325-335), with `self.names = nm`. -/
def forwardArrays (m : Mdl V) (nm : Names) (σ : State V) (inputs : List V) : State V × Py (ArrayRet V) :=
  match arrayToDict nm.inputs inputs with
  | .error e => (σ, .error e)
  | .ok u =>
    match m.run σ { inputs := some u } with
    | (τ, .error e) => (τ, .error e)
    | (τ, .ok r) => (τ, do
      let o ← nm.makeVector "outputs" r.outputs
      let res ← nm.makeVector "residuals" r.residuals
      return { outputs := o, residuals := res })

/-- `StateSpaceModel.forward_with_arrays` (base.py:508-530), with `self.names = nm`: the constrained outputs and the
residuals are taken from the outputs, whatever the model returned as such. -/
def forwardArraysSS (m : Mdl V) (nm : Names) (σ : State V) (states inputs : List V) (mesh : V) :
    State V × Py (ArrayRet V) :=
  match arrayToDict nm.states states, arrayToDict nm.inputs inputs with
  | .error e, _ => (σ, .error e)
  | .ok _, .error e => (σ, .error e)
  | .ok x, .ok u =>
    match m.run σ { states := some x, inputs := some u, mesh := some mesh } with
    | (τ, .error e) => (τ, .error e)
    | (τ, .ok r) => (τ, do
      let sd ← nm.makeVector "states_dot" r.statesDot
      let o ← nm.makeVector "outputs" r.outputs
      let co ← nm.makeVector "con_outputs" (← extract nm.conOutputs r.outputs)
      let res ← nm.makeVector "residuals" (← extract nm.residuals r.outputs)
      return { statesDot := sd, outputs := o, conOutputs := co, residuals := res })

end Mdl

end Lumos.Io
