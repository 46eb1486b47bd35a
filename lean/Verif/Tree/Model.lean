import Verif.Base.Dict
/-!
# Model of `lumos/models/tree_utils.py`: trees of parameters and of configurations

A tree is a value: `deepcopy` is the identity and sharing between trees is not represented here
`V` is the type of parameter values.
-/

namespace Lumos.Trees

open Lumos

/-- The Python values that occur in trees and in their dictionaries. -/
inductive PV (V : Type)
  | str (s : String)
  | val (v : V)
  | dict (items : List (String × PV V))

/-- `Tree` (tree_utils.py:27-57): `_data` and `_children`. -/
inductive Tree (V : Type)
  | node (data : PV V) (children : List (String × Tree V))

variable {V : Type}

/-- `_data_type`: `str` for ConfigTree, `dict` for ParameterTree (tree_utils.py:170-172, 212-214). -/
inductive DataType
  | str | dict
  deriving DecidableEq

namespace Tree

/-- `_data`. -/
def data : Tree V → PV V
  | node d _ => d

/-- `_children`. -/
def children : Tree V → List (String × Tree V)
  | node _ c => c

/-- The loop over `child_names` in `_get_subtree` with `get_child` (tree_utils.py:56-66): KeyError for a missing
child. -/
def getNames : Tree V → List String → Py (Tree V)
  | t, [] => .ok t
  | t, n :: ns =>
    match t.children.lookup n with
    | none => .error .keyError
    | some c => getNames c ns

/-- The child names a path stands for (tree_utils.py:60-67): the empty path is the node itself. -/
def resolve (path : String) (delimiter : Char) : List String := if path = "" then [] else pySplit delimiter path

/-- `_get_subtree` (tree_utils.py:59-67). -/
def getSubtree (t : Tree V) (path : String) (delimiter : Char := '.') : Py (Tree V) :=
  getNames t (resolve path delimiter)

/-- In-place modification of the descendant reached by child names (the object returned by `_get_subtree` is part of
the tree, so changing it changes the tree). The exception, if any, comes with the tree as it is then. -/
def updateAt : Tree V → List String → (Tree V → Tree V × Option PyErr) → Tree V × Option PyErr
  | t, [], f => f t
  | t, n :: ns, f =>
    match t.children.lookup n with
    | none => (t, some .keyError)
    | some c =>
      let r := updateAt c ns f
      (node t.data (Dict.set t.children n r.1), r.2)

/-- `*names, key = path.split(delimiter)`: the last part. -/
def pathKey (path : String) (delimiter : Char) : String := (pySplit delimiter path).getLastD ""

/-- `delimiter.join(names)` for `*names, key = path.split(delimiter)`. -/
def pathParent (path : String) (delimiter : Char) : String := pyJoin delimiter (pySplit delimiter path).dropLast

/-- `subtree._data = value` (tree_utils.py:98). -/
def putData (value : PV V) (s : Tree V) : Tree V × Option PyErr := (node value s.children, none)

/-- `subtree._data[key] = value` (tree_utils.py:102). -/
def putKey (key : String) (value : PV V) (s : Tree V) : Tree V × Option PyErr :=
  match s.data with
  | .dict kvs => (node (.dict (Dict.set kvs key value)) s.children, none)
  | _ => (s, some .typeError)

/-- `_set_leaf` (tree_utils.py:95-104). NOTE the second `_get_subtree` call in the code does not pass the delimiter. -/
def setLeaf (ty : DataType) (t : Tree V) (path : String) (value : PV V) (delimiter : Char := '.') :
    Tree V × Option PyErr :=
  match ty with
  | .str => updateAt t (resolve path delimiter) (putData value)
  | .dict => updateAt t (resolve (pathParent path delimiter) '.') (putKey (pathKey path delimiter) value)

/-- `parent._children[child_name] = subtree` if there is such a child (tree_utils.py:116-120). -/
def putChild (name : String) (subtree : Tree V) (s : Tree V) : Tree V × Option PyErr :=
  match s.children.lookup name with
  | some _ => (node s.data (Dict.set s.children name subtree), none)
  | none => (s, some .keyError)

/-- `replace_subtree` (tree_utils.py:106-120). -/
def replaceSubtree (t : Tree V) (path : String) (subtree : Tree V) (delimiter : Char := '.') : Tree V × Option PyErr :=
  updateAt t (resolve (pathParent path delimiter) '.') (putChild (pathKey path delimiter) subtree)

/-- `ParameterTree.get_param` (tree_utils.py:174-177). -/
def getParam (t : Tree V) (path : String) (delimiter : Char := '.') : Py (PV V) := do
  let s ← getSubtree t (pathParent path delimiter)
  match s.data with
  | .dict kvs => Dict.get kvs (pathKey path delimiter)
  | _ => .error .typeError

/-- `ParameterTree.set_param` (tree_utils.py:179-180). -/
def setParam (t : Tree V) (path : String) (value : PV V) (delimiter : Char := '.') : Tree V × Option PyErr :=
  setLeaf .dict t path value delimiter

mutual
/-- `to_dict` (tree_utils.py:69-82). -/
def toDict : Tree V → PV V
  | node d cs => .dict [("data", d), ("children", .dict (toDictL cs))]
/-- The dictionary comprehension in `to_dict` (tree_utils.py:78). -/
def toDictL : List (String × Tree V) → List (String × PV V)
  | [] => []
  | (k, c) :: cs => (k, toDict c) :: toDictL cs
end

theorem sizeOf_lookup {l : List (String × PV V)} {k : String} {v : PV V} (h : l.lookup k = some v) :
    sizeOf v < sizeOf l := by
  induction l with
  | nil => simp at h
  | cons p l ih =>
    obtain ⟨a, b⟩ := p
    rw [Dict.lookup_cons] at h
    by_cases h2 : k = a
    · simp only [h2, if_true, Option.some.injEq] at h
      subst h
      simp
      omega
    · simp only [h2, if_false] at h
      have := ih h
      simp
      omega

mutual
/-- `from_dict` (tree_utils.py:84-93). -/
def fromDict : PV V → Py (Tree V)
  | .dict kvs =>
    match h1 : kvs.lookup "data" with
    | none => .error .keyError
    | some d =>
      match h2 : kvs.lookup "children" with
      | none => .error .keyError
      | some (.dict cs) =>
        have : sizeOf cs < sizeOf kvs := by
          have := sizeOf_lookup h2
          simp at this
          omega
        fromDictL (node d []) cs
      | some _ => .error .attributeError
  | _ => .error .typeError
termination_by p => sizeOf p
/-- The loop adding the children (tree_utils.py:90-91). -/
def fromDictL (t : Tree V) : List (String × PV V) → Py (Tree V)
  | [] => .ok t
  | (k, p) :: cs =>
    match fromDict p with
    | .error e => .error e
    | .ok c => fromDictL (node t.data (Dict.set t.children k c)) cs
termination_by l => sizeOf l
end

/-- `_add_prefix` (tree_utils.py:217-225). -/
def addPrefix (d : List (String × PV V)) (pre : String) : List (String × PV V) :=
  if pre = "" then d
  else d.foldl (fun (acc : List (String × PV V)) (nv : String × PV V) => Dict.set acc (pre ++ "." ++ nv.1) nv.2) []

mutual
/-- `_make_flat_dict` (tree_utils.py:125-142). `_add_prefix` asserts that the data is a dictionary. -/
def makeFlatDict (ty : DataType) : Tree V → String → Py (List (String × PV V))
  | node d cs, pre =>
    match ty, d with
    | .dict, .dict kvs => makeFlatDictL ty cs pre (addPrefix kvs pre)
    | .dict, _ => .error .assertionError
    | .str, d => makeFlatDictL ty cs pre [(pre, d)]
/-- The loop over the children (tree_utils.py:138-140). -/
def makeFlatDictL (ty : DataType) : List (String × Tree V) → String → List (String × PV V) →
    Py (List (String × PV V))
  | [], _, acc => .ok acc
  | (name, c) :: cs, pre, acc =>
    match makeFlatDict ty c name with
    | .error e => .error e
    | .ok f => makeFlatDictL ty cs pre (Dict.update acc (addPrefix f pre))
end

/-- A loop of `_set_leaf` calls (tree_utils.py:148-151, 160-161). -/
def setLeaves (ty : DataType) (t : Tree V) : List (String × PV V) → Py (Tree V)
  | [] => .ok t
  | (k, v) :: kvs =>
    match setLeaf ty t k v with
    | (_, some e) => .error e
    | (t', none) => setLeaves ty t' kvs

/-- `_make_tree_def` (tree_utils.py:144-152). -/
def makeTreeDef (ty : DataType) (t : Tree V) : Py (PV V) := do
  let flat ← makeFlatDict ty t ""
  let t1 ← fromDict (toDict t)
  let t2 ← setLeaves ty t1 (flat.map fun (kv : String × PV V) => (kv.1, .str "*"))
  return toDict t2

/-- `to_flat_dict` (tree_utils.py:122-123). -/
def toFlatDict (ty : DataType) (t : Tree V) : Py (List (String × PV V) × PV V) := do
  let flat ← makeFlatDict ty t ""
  let td ← makeTreeDef ty t
  return (flat, td)

/-- `from_flat_dict` (tree_utils.py:154-163). -/
def fromFlatDict (ty : DataType) (treeDef : PV V) (flat : List (String × PV V)) : Py (Tree V) := do
  let t ← fromDict treeDef
  setLeaves ty t flat

end Tree

end Lumos.Trees
