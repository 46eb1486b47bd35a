import Verif.Tree.Flat
/-!
# Composite models and their parameters (C42, C45, C46)

Models `lumos/models/composition.py`: the registry of `ModelMaker` and the tree structure, construction and parameters
of `CompositeModel`. Objects are values here; what is shared between objects is the subject of `Verif/Tree/Heap.lean`.
`if not model_config` / `if not params` (composition.py:97, 112) are false for every tree, because `Tree` defines neither
`__bool__` nor `__len__`.
-/

namespace Lumos.Trees

open Lumos

variable {V : Type}

/-- What a model class contributes: `__name__`, `get_default_submodel_config` (submodel names with the names of their
types) and `get_default_params`. -/
structure ClassDef (V : Type) where
  /-- `cls.__name__`. -/
  name : String
  /-- `cls.get_default_submodel_config()` (composition.py:132-139). -/
  submodels : List (String × String)
  /-- `cls.get_default_params()` (composition.py:180-192). -/
  defaults : List (String × PV V)

/-- `ModelMaker._registry` (composition.py:36). -/
abbrev Registry (V : Type) := List (String × ClassDef V)

namespace Registry

/-- `get_model_class` (composition.py:39-47). -/
def getClass (reg : Registry V) (name : String) : Py (ClassDef V) :=
  match reg.lookup name with
  | none => .error .keyError
  | some c => .ok c

/-- `add_to_registry` (composition.py:65-79), with the registry afterwards. -/
def add (reg : Registry V) (c : ClassDef V) : Registry V × Option PyErr :=
  if c.name ∈ Dict.keys reg then (reg, some .valueError) else (Dict.set reg c.name c, none)

/-- `remove_from_registry` (composition.py:81-84). -/
def remove (reg : Registry V) (c : ClassDef V) : Registry V × Option PyErr :=
  if c.name ∈ Dict.keys reg then (reg.filter (fun p => p.1 ≠ c.name), none) else (reg, some .keyError)

end Registry

/-- A `CompositeModel` object: its class, `_params` and `_submodels`. -/
inductive Mod (V : Type)
  | node (cls : ClassDef V) (params : List (String × PV V)) (subs : List (String × Mod V))

namespace Mod

/-- The class of the object. -/
def cls : Mod V → ClassDef V
  | node c _ _ => c

/-- `_params`. -/
def params : Mod V → List (String × PV V)
  | node _ p _ => p

/-- `_submodels`. -/
def subs : Mod V → List (String × Mod V)
  | node _ _ s => s

/-- `get_submodel_names` (composition.py:117-125). -/
def _root_.Lumos.Trees.ClassDef.submodelNames (c : ClassDef V) : List String := Dict.keys c.submodels

/-- `is_leaf` (composition.py:127-130). -/
def _root_.Lumos.Trees.ClassDef.isLeaf (c : ClassDef V) : Bool := c.submodelNames.isEmpty

mutual
/-- `get_recursive_params` (composition.py:219-231). -/
def getParams : Mod V → Tree V
  | node c p s => .node (.dict p) (if c.isLeaf then [] else getParamsL s)
/-- The loop of `get_recursive_params`. -/
def getParamsL : List (String × Mod V) → List (String × Tree V)
  | [] => []
  | (n, m) :: ms => (n, getParams m) :: getParamsL ms
end

mutual
/-- `get_recursive_default_params` (composition.py:194-204). -/
def defaultParams : Mod V → Tree V
  | node c _ s => .node (.dict c.defaults) (if c.isLeaf then [] else defaultParamsL s)
/-- The loop of `get_recursive_default_params`. -/
def defaultParamsL : List (String × Mod V) → List (String × Tree V)
  | [] => []
  | (n, m) :: ms => (n, defaultParams m) :: defaultParamsL ms
end

mutual
/-- `set_recursive_params` (composition.py:206-217), with the object as it is afterwards and the exception, if any.
`params.data.copy()` needs a dictionary: AttributeError for a string. -/
def setParams : Mod V → Tree V → Mod V × Option PyErr
  | node c p s, t =>
    match t.data with
    | .dict kvs =>
      if c.isLeaf then (node c kvs s, none)
      else
        let r := setParamsL s t
        (node c kvs r.1, r.2)
    | _ => (node c p s, some .attributeError)
/-- The loop of `set_recursive_params` (composition.py:215-217): it stops at the first exception. -/
def setParamsL : List (String × Mod V) → Tree V → List (String × Mod V) × Option PyErr
  | [], _ => ([], none)
  | (n, m) :: ms, t =>
    match t.children.lookup n with
    | none => ((n, m) :: ms, some .keyError)
    | some c =>
      match setParams m c with
      | (m', some e) => ((n, m') :: ms, some e)
      | (m', none) =>
        let r := setParamsL ms t
        ((n, m') :: r.1, r.2)
end

/-- The loop of `get_submodel` (composition.py:170-178). -/
def getNames : Mod V → List String → Py (Mod V)
  | m, [] => .ok m
  | m, n :: ns =>
    match m.subs.lookup n with
    | none => .error .keyError
    | some c => getNames c ns

/-- `get_submodel` (composition.py:160-178): the empty path is split into one empty name. -/
def getSubmodel (m : Mod V) (path : String) (delimiter : Char := '.') : Py (Mod V) := getNames m (pySplit delimiter path)

end Mod

theorem sizeOf_lookup' {l : List (String × Tree V)} {n : String} {c : Tree V} (h : l.lookup n = some c) :
    sizeOf c < sizeOf l := by
  induction l with
  | nil => simp at h
  | cons p l ih =>
    obtain ⟨k, x⟩ := p
    rw [List.lookup_cons] at h
    split at h
    · injection h with h
      subst h
      simp
      omega
    · have := ih h
      simp
      omega

mutual
/-- `CompositeModel.__init__` of class `c` (composition.py:88-115) with a configuration and optional parameters. An
exception leaves no object. -/
def construct (reg : Registry V) (c : ClassDef V) (cfg : Tree V) (params : Option (Tree V)) : Py (Mod V) :=
  match cfg with
  | .node d cs =>
    match d with
    | .str actual =>
      if actual ≠ c.name then .error .typeError
      else do
        let subs ← if c.isLeaf then pure [] else buildSubmodels reg c.submodelNames cs
        let m := Mod.node c [] subs
        match m.setParams (params.getD m.defaultParams) with
        | (m', none) => .ok m'
        | (_, some e) => .error e
    | _ => .error .typeError
termination_by (sizeOf cfg, 0)
/-- `_build_submodels` (composition.py:153-158), with `make_model_from_config` (composition.py:55-59) inlined: the class is
looked up under the data of the configuration of the child. -/
def buildSubmodels (reg : Registry V) (names : List String) (cs : List (String × Tree V)) : Py (List (String × Mod V)) :=
  match names with
  | [] => .ok []
  | n :: ns =>
    match h : cs.lookup n with
    | none => .error .keyError
    | some cfg =>
      match cfg with
      | .node (.str typeName) cs' => do
        let c ← reg.getClass typeName
        let m ← construct reg c (.node (.str typeName) cs') none
        let rest ← buildSubmodels reg ns cs
        return (n, m) :: rest
      | _ => .error .keyError
termination_by (sizeOf cs, names.length + 1)
decreasing_by
  · have := sizeOf_lookup' h
    simp only [Prod.lex_def]
    left
    simpa using this
  · simp [Prod.lex_def]
end

/-- `make_model_from_config` (composition.py:55-59). Simplification: configuration data that are not strings, which no
registry contains, raise KeyError. -/
def makeModel (reg : Registry V) (cfg : Tree V) : Py (Mod V) :=
  match cfg.data with
  | .str typeName => do
    let c ← reg.getClass typeName
    construct reg c cfg none
  | _ => .error .keyError

mutual
/-- `get_recursive_default_model_config` (composition.py:141-151) with Python's recursion limit as `fuel` (RecursionError
is a RuntimeError). -/
def defaultConfig (reg : Registry V) : Nat → ClassDef V → Py (Tree V)
  | 0, _ => .error .runtimeError
  | fuel + 1, c => do
    let cs ← if c.isLeaf then pure [] else defaultConfigL reg fuel c.submodels
    return .node (.str c.name) cs
/-- The loop of `get_recursive_default_model_config` with `make_config` (composition.py:49-53) inlined. -/
def defaultConfigL (reg : Registry V) : Nat → List (String × String) → Py (List (String × Tree V))
  | _, [] => .ok []
  | fuel, (n, ty) :: l => do
    let c ← reg.getClass ty
    let t ← defaultConfig reg fuel c
    let rest ← defaultConfigL reg fuel l
    return (n, t) :: rest
end

/-- `make_model_from_name` (composition.py:61-63). -/
def makeModelFromName (reg : Registry V) (fuel : Nat) (typeName : String) : Py (Mod V) := do
  let c ← reg.getClass typeName
  let cfg ← defaultConfig reg fuel c
  makeModel reg cfg

end Lumos.Trees
