import Verif.Tree.Ravel
import Verif.Tree.CompositionProps
import Verif.Io.Model
import Mathlib.Data.Real.Basic
/-!
# Model of the parameters in generated code

lumos/models/tree_utils.py:195-317 (`tree_ravel`, `_ravel_flat_dict` and its helpers, with the casadi branches) and
lumos/models/base.py:780-949 (`_make_casadi_model_algebra_cons`, `export_c_code`): the parameters of the generated functions are a vector of
symbols, cut and reshaped into the parameter tree the model is evaluated with.

What casadi does (trusted, as in its documentation): a matrix always has two dimensions and keeps its entries column by column; `reshape` keeps
the entries in that order; a function that was made from symbols computes, for given values of the symbols, what the expressions give for these
values.
-/

namespace Lumos.Trees.Gen

open Lumos Lumos.Trees

/-- A casadi matrix: its entries column by column. -/
structure CMat where
  rows : Nat
  cols : Nat
  data : List ℝ

/-- A parameter value: a number or numpy array (with its entries row by row, `NArr`), a casadi matrix, or a symbol. -/
inductive Val
  | np (a : NArr ℝ)
  | cas (m : CMat)
  | sym

/-- `_split` of a casadi vector (tree_utils.py:256-261): `casadi.vertsplit(arr, offsets)`, whose offsets start with zero, do not decrease and end
with the number of rows. -/
def casSplit (arr : List ℝ) (indices : List Nat) : Py (List (List ℝ)) :=
  let offsets := 0 :: indices ++ [arr.length]
  if offsets.IsChain (· ≤ ·) then .ok ((offsets.zip offsets.tail).map fun (p : Nat × Nat) => slice arr p.1 p.2)
  else .error .runtimeError

/-- The shape that is asked for of a casadi vector (tree_utils.py:299-305). -/
def newShape : List Nat → List Nat
  | [n] => [n, 1]
  | s => s

/-- `chunk.reshape(shape) if _size(chunk) > 1 else chunk[0]` for a casadi vector (tree_utils.py:311-313): casadi has no `reshape` to other than
two dimensions. -/
def casRebuild (chunk : List ℝ) (shape : List Nat) : Py CMat :=
  if 1 < chunk.length then
    match shape with
    | [r, c] => if r * c = chunk.length then .ok ⟨r, c, chunk⟩ else .error .runtimeError
    | _ => .error .notImplementedError
  else
    match chunk with
    | [] => .error .runtimeError
    | x :: _ => .ok ⟨1, 1, [x]⟩

/-- The list comprehension over the pieces (tree_utils.py:310-314). -/
def casRebuildAll : List (List ℝ × List Nat) → Py (List CMat)
  | [] => .ok []
  | (c, s) :: l => do
    let v ← casRebuild c s
    let vs ← casRebuildAll l
    return v :: vs

/-- The arrays of a flat dictionary of numbers and numpy arrays. Simplification: any other value makes the model raise TypeError. -/
def npValues : List (String × PV Val) → Py (List (String × NArr ℝ))
  | [] => .ok []
  | (k, .val (.np a)) :: l => do
    let r ← npValues l
    return (k, a) :: r
  | _ => .error .typeError

/-- `unravel` of `_ravel_flat_dict(flat)` applied to a casadi vector (tree_utils.py:285-315). -/
def casUnravel (flat : List (String × NArr ℝ)) (arr : List ℝ) : Py (List (String × CMat)) :=
  match flat with
  | [] => .ok []
  | _ => do
    let chunks ← casSplit arr (cumsumFrom 0 (flat.map fun (kv : String × NArr ℝ) => kv.2.data.length)).dropLast
    let vs ← casRebuildAll (chunks.zip (flat.map fun (kv : String × NArr ℝ) => newShape kv.2.shape))
    return (flat.map Prod.fst).zip vs

/-- `tree_ravel()` of a tree of numbers and numpy arrays (tree_utils.py:195-209): the vector, and `unravel_pytree` as it acts on casadi
vectors. (How it acts on numpy vectors is `treeRavel`, C41.) -/
def ravel (t : Tree Val) : Py (List ℝ × (List ℝ → Py (Tree Val))) := do
  let r ← Tree.toFlatDict .dict t
  let flat ← npValues r.1
  return ((flat.map fun (kv : String × NArr ℝ) => kv.2.data).flatten, fun x => do
    let d ← casUnravel flat x
    Tree.fromFlatDict .dict r.2 ((r.1.map Prod.fst).zip (d.map fun (kv : String × CMat) => PV.val (.cas kv.2))))

/-- All values of a tree replaced by symbols. -/
def symbolic (t : Tree Val) : Tree Val := Tree.relabel .dict (.val .sym) t

/-- A model: its classes, parameters and submodels, and what `forward_with_arrays(states, inputs, mesh)` gives under casadi for the parameters
it holds (base.py:505-527). -/
structure Model where
  mod : Mod Val
  run : Tree Val → List ℝ → List ℝ → ℝ → Py (Io.Mdl.ArrayRet ℝ)

/-- A generated function: takes states, inputs, mesh and the parameter vector. -/
abbrev Generated := List ℝ → List ℝ → ℝ → List ℝ → Py (Io.Mdl.ArrayRet ℝ)

/-- The part that `export_c_code` (base.py:909-937) and `_make_casadi_model_algebra_cons` (base.py:783-857) have in common, up to what is done
with the generated code: the model's parameters are replaced by symbols made from a vector of their number, the model is evaluated, the code is
generated. `raised` is the exception of anything after the parameters were replaced: the evaluation of the model with symbols, the code
generator (a file name with a directory), the compiler (not installed), loading the library. Returns the model and the generated function
"forward"; its value for a parameter vector is what the model gives with the parameters unraveled from it. -/
def generate (m : Model) (raised : Option PyErr) : Model × Py Generated :=
  let params := Mod.getParams m.mod
  match ravel params with
  | .error e => (m, .error e)
  | .ok (flat, unravel) =>
    match unravel flat with
    | .error e => (m, .error e)
    | .ok t =>
      match Mod.setParams m.mod (symbolic t) with
      | (m', some e) => ({ m with mod := m' }, .error e)
      | (m', none) =>
        match raised with
        | some e => ({ m with mod := m' }, .error e)
        | none => ({ m with mod := m' }, .ok fun x u s p => (unravel p).bind fun w => m.run w x u s)

/-- `export_c_code` (base.py:888-949): at the end the parameters from before are given back to the model. (`get_recursive_params` copies, C42.)
`make_model_algebra_cons` (base.py:640-659) does the same around `_make_casadi_model_algebra_cons`. -/
def exportC (m : Model) (raised : Option PyErr) : Model × Py Generated :=
  let params := Mod.getParams m.mod
  match generate m raised with
  | (m', .error e) => (m', .error e)
  | (m', .ok g) =>
    match Mod.setParams m'.mod params with
    | (m'', some e) => ({ m' with mod := m'' }, .error e)
    | (m'', none) => ({ m' with mod := m'' }, .ok g)

/-- `forward_with_arrays` on the model object under casadi or numpy: computes with the parameters the model holds; symbols left in it make it
return an expression or raise, no numbers (TypeError stands for both). -/
def forwardNow (m : Model) (states inputs : List ℝ) (mesh : ℝ) : Py (Io.Mdl.ArrayRet ℝ) :=
  if (Tree.leaves .dict (Mod.getParams m.mod)).all (fun a => match a.2 with
    | .val .sym => false
    | _ => true) then m.run (Mod.getParams m.mod) states inputs mesh
  else .error .typeError

end Lumos.Trees.Gen
