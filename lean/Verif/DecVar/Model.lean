import Verif.Base.Py
import Verif.Base.Np
/-!
# Model of `DecVarOperator` (lumos/optimal_control/utils.py:41-299)

Values are of an arbitrary type `α` (the operations only move values). A 2-d array is a list of rows.
-/

namespace Lumos.DecVar

open Lumos

/-- The fields stored by `DecVarOperator.__init__` (utils.py:46-73).
`names` is `model_var_names`, a NamedTuple from group name to the variable names of the group.
Simplification: `num_intervals` and `num_stages_per_interval` are naturals (Python: ints). -/
structure Layout where
  names : List (String × List String)
  groups : List String
  globals : List String
  numIntervals : Nat
  nspi : Nat
  deriving DecidableEq, Repr

namespace Layout

/-- `getattr(self._model_var_names, group)` (utils.py:104-105, 178, 199, 273):
AttributeError when the group is not a field. -/
def getNames (L : Layout) (group : String) : Py (List String) :=
  match L.names.lookup group with
  | some ns => .ok ns
  | none => .error .attributeError

/-- Total form of `getNames`, used after the constructor has checked that each stage group exists. -/
def namesOf (L : Layout) (group : String) : List String := (L.names.lookup group).getD []

/-- `get_stage_var_size` (utils.py:104-105), total form. -/
def size (L : Layout) (group : String) : Nat := (L.namesOf group).length

/-- The sizes of all stage groups, `size_list` (utils.py:109). -/
def sizes (L : Layout) : List Nat := L.groups.map L.size

/-- `num_var_stage` (utils.py:77-79). -/
def numVarStage (L : Layout) : Nat := L.sizes.sum

/-- `num_var_interval` (utils.py:81-83). -/
def numVarInterval (L : Layout) : Nat := L.numVarStage * L.nspi

/-- `num_stages` (utils.py:85-87). Natural subtraction: equal to the Python integer expression when
`nspi ≥ 1`, which `WF` requires. -/
def numStages (L : Layout) : Nat := L.numIntervals * (L.nspi - 1) + 1

/-- `num_all_stage_var` (utils.py:89-91). -/
def numAllStageVar (L : Layout) : Nat := L.numStages * L.numVarStage

/-- `num_global_var` (utils.py:93-95). -/
def numGlobal (L : Layout) : Nat := L.globals.length

/-- `num_dec` (utils.py:97-99). -/
def numDec (L : Layout) : Nat := L.numAllStageVar + L.numGlobal

/-- `_make_stage_var_name` (utils.py:169-170). -/
def fullName (group name : String) : String := group ++ "." ++ name

/-- `stage_var_names` (utils.py:172-180). -/
def stageVarNames (L : Layout) : List String :=
  L.groups.flatMap fun g => (L.namesOf g).map (fullName g)

/-- `__init__` (utils.py:46-73) with `_construct_stage_var_enum` (182-183) and
`_construct_global_var_enum` (185-188): a missing group raises AttributeError in `stage_var_names`;
`IntEnum` raises TypeError when a member name is reused.
Simplification: other `IntEnum` naming restrictions (`_sunder_` names, "mro") are not modelled. -/
def make (names : List (String × List String)) (groups globals : List String)
    (numIntervals nspi : Nat) : Py Layout :=
  let L : Layout := ⟨names, groups, globals, numIntervals, nspi⟩
  if groups.all (fun g => (names.lookup g).isSome) then
    if L.stageVarNames.Nodup then
      if globals.Nodup then .ok L else .error .typeError
    else .error .typeError
  else .error .attributeError

/-- `self._stage_var_enum[key]`: KeyError for an unknown member (utils.py:228, 248, 272). -/
def stageEnum (L : Layout) (key : String) : Py Nat :=
  if key ∈ L.stageVarNames then .ok (L.stageVarNames.idxOf key) else .error .keyError

/-- `self._global_var_enum[name]`, members start at `num_all_stage_var` (utils.py:185-188). -/
def globalEnum (L : Layout) (name : String) : Py Nat :=
  if name ∈ L.globals then .ok (L.numAllStageVar + L.globals.idxOf name) else .error .keyError

/-- `get_var_index_in_group` (utils.py:190-199). `tuple.index` raises ValueError. -/
def indexInGroup (L : Layout) (group name : String) : Py Nat := do
  if group = "global" then
    let i ← L.globalEnum name
    return i - L.numAllStageVar
  else
    let ns ← L.getNames group
    if name ∈ ns then return ns.idxOf name else .error .valueError

/-- What an index query returns: a single position or an array of positions. -/
inductive Idx
  | scalar (i : Nat)
  | array (is : List Nat)
  deriving DecidableEq, Repr

/-- Python's `stage %= n` for `n > 0`. -/
def wrapStage (L : Layout) (stage : Int) : Nat := (stage % (L.numStages : Int)).toNat

/-- The range test `stage > num_stages - 1 or stage < -num_stages` (utils.py:237, 258). -/
def badStage (L : Layout) (stage : Int) : Bool :=
  decide (stage > (L.numStages : Int) - 1) || decide (stage < -(L.numStages : Int))

/-- `get_var_index_in_dec` (utils.py:201-254). -/
def indexInDec (L : Layout) (group name : String) (stage : Option Int) : Py Idx :=
  if group = "global" then
    (L.globalEnum name).map .scalar
  else
    match stage with
    | none => do
      let e ← L.stageEnum (fullName group name)
      return .array ((List.range L.numStages).map fun s => e + s * L.numVarStage)
    | some st =>
      if L.badStage st then .error .valueError
      else do
        let e ← L.stageEnum (fullName group name)
        return .scalar (e + L.wrapStage st * L.numVarStage)

/-- `get_group_indices_at_stage` (utils.py:256-277). -/
def groupIndicesAtStage (L : Layout) (group : String) (stage : Int) : Py (List Nat) :=
  if L.badStage stage then .error .valueError
  else do
    let ns ← L.getNames group
    let es ← ns.mapM fun n => L.stageEnum (fullName group n)
    return es.map (· + L.wrapStage stage * L.numVarStage)

/-- `get_group_indcies_in_dec` (utils.py:279-286). -/
def groupIndicesInDec (L : Layout) (group : String) : Py (List Nat) := do
  let parts ← (List.range L.numStages).mapM fun (s : Nat) => L.groupIndicesAtStage group (s : Int)
  return parts.flatten

/-- Structured variables: the `DecisionVariables` namedtuple (utils.py:130-133); one 2-d array
(stage × variable) per stage group and one scalar per global. -/
structure Vars (α : Type) where
  stage : List (String × List (List α))
  glob : List (String × α)
  deriving DecidableEq, Repr

/-- `np.concatenate(ms, axis=-1)` of 2-d arrays: ValueError on no arrays or on differing row counts. -/
def hcat {α : Type} (ms : List (List (List α))) : Py (List (List α)) :=
  match ms with
  | [] => .error .valueError
  | m :: rest =>
    if rest.all (fun m' => m'.length = m.length) then
      .ok (rest.foldl (List.zipWith (· ++ ·)) m)
    else .error .valueError

/-- dict lookup raising KeyError. -/
def getKey {β : Type} (d : List (String × β)) (k : String) : Py β :=
  match d.lookup k with
  | some v => .ok v
  | none => .error .keyError

/-- `flatten_var(**kwargs)` (utils.py:135-140), then `merge_stage_and_global_vars` (120-128, `np.append`).
Simplification: the kwargs are given as two dictionaries, stage groups and globals. -/
def flattenVar {α : Type} (L : Layout) (v : Vars α) : Py (List α) := do
  let gs ← L.globals.mapM (getKey v.glob)
  let ms ← L.groups.mapM (getKey v.stage)
  let m ← hcat ms
  return m.flatten ++ gs

/-- `np.split(stage_vars, idx, axis=-1)`: split every row (utils.py:147). -/
def splitCols {α : Type} (rows : List (List α)) (idx : List Nat) : List (List (List α)) :=
  (List.range (idx.length + 1)).map fun k => rows.map fun r => (Np.split r idx).getD k []

/-- `stage_vars.reshape((-1, w))` (utils.py:146): ValueError if `w = 0` or if `w` does not divide the size. -/
def reshapeInfer {α : Type} (w : Nat) (x : List α) : Py (List (List α)) :=
  if w = 0 then .error .valueError
  else if x.length % w = 0 then .ok (Np.reshapeRows (x.length / w) w x)
  else .error .valueError

/-- `unflatten_var` (utils.py:142-153) with `split_stage_and_global_vars` (115-118),
`_build_group_split_indices` (107-113) and `_make_decision_varialbes` (130-133): the namedtuple
constructor raises ValueError on repeated field names and TypeError on missing values. -/
def unflattenVar {α : Type} (L : Layout) (x : List α) : Py (Vars α) := do
  let stage := x.take L.numAllStageVar
  let glob := x.drop L.numAllStageVar
  let rows ← reshapeInfer L.numVarStage stage
  let parts := splitCols rows (Np.cumsum L.sizes.dropLast)
  if (L.groups ++ L.globals).Nodup then
    if glob.length < L.globals.length then .error .typeError
    else return ⟨L.groups.zip parts, L.globals.zip glob⟩
  else .error .valueError

/-- NumPy integer indexing `x[i]` with a non-negative index. -/
def getAt {α : Type} (x : List α) (i : Nat) : Py α :=
  match x[i]? with
  | some v => .ok v
  | none => .error .indexError

/-- The result of `x[idx]`: a scalar or an array. -/
inductive Val (α : Type)
  | scalar (a : α)
  | array (as : List α)
  deriving DecidableEq, Repr

/-- `x[idx]` for the result of an index query (scalar or fancy indexing). -/
def getIdx {α : Type} (x : List α) : Idx → Py (Val α)
  | .scalar i => do return .scalar (← getAt x i)
  | .array is => do return .array (← is.mapM (getAt x))

/-- `get_var` (utils.py:288-291). -/
def getVar {α : Type} (L : Layout) (x : List α) (group name : String) (stage : Option Int) :
    Py (Val α) := do
  let i ← L.indexInDec group name stage
  getIdx x i

/-- `get_stage_var_array` (utils.py:293-299): `np.reshape(x[:num_dec-num_global], (num_stages, num_var_stage))`,
ValueError when the sizes do not match. -/
def stageVarArray {α : Type} (L : Layout) (x : List α) : Py (List (List α)) :=
  let y := x.take (L.numDec - L.numGlobal)
  if y.length = L.numStages * L.numVarStage then
    .ok (Np.reshapeRows L.numStages L.numVarStage y)
  else .error .valueError

end Layout

end Lumos.DecVar
