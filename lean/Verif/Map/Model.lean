import Verif.Base.Py
import Mathlib.Data.Real.Basic
import Mathlib.Data.List.Basic
/-!
# Model of the batched maps (lumos/numpy/utils.py:96-253: `cmap`, `lmap`)

Simplification: an array is a nested list; an array with a dimension of length zero forgets the dimensions after it.
-/

namespace Lumos.Map

open Lumos

/-- A numpy array (or scalar). -/
inductive Arr
  | num (x : ℝ)
  | rows (l : List Arr)

/-- `a.shape`. -/
def Arr.shape : Arr → List Nat
  | .num _ => []
  | .rows [] => [0]
  | .rows (a :: l) => (l.length + 1) :: a.shape

/-- An argument: `None`, an array, or another object (a parameter tree, a dictionary). -/
inductive Arg (P : Type)
  | none
  | arr (a : Arr)
  | obj (p : P)

/-- What a mapped function returns: an array, or a tuple or named tuple of arrays (with the name of its class). -/
inductive Out
  | arr (a : Arr)
  | tup (cls : String) (l : List Arr)

/-- `in_axes` (utils.py:98, 211): one for all arguments or one for each. -/
inductive Axes
  | one (a : Option Int)
  | each (l : List (Option Int))

variable {P : Type}

/-- `full_in_axes` (utils.py:122-126, 219-223): AssertionError for a list of the wrong length. -/
def fullAxes (axes : Axes) (n : Nat) : Py (List (Option Int)) :=
  match axes with
  | .each l => if l.length = n then .ok l else .error .assertionError
  | .one a => .ok (List.replicate n a)

/-- `next(a for a in args if a is not None).shape[0]` (utils.py:129-130, 226-227). -/
def batchSize : List (Arg P) → Py Nat
  | [] => .error .stopIteration
  | .none :: l => batchSize l
  | .arr (.rows l) :: _ => .ok l.length
  | .arr (.num _) :: _ => .error .indexError
  | .obj _ :: _ => .error .attributeError

/-- `a[idx]`. Another object is taken not to be subscriptable. -/
def Arg.item (a : Arg P) (idx : Nat) : Py (Arg P) :=
  match a with
  | .none => .error .typeError
  | .obj _ => .error .typeError
  | .arr (.num _) => .error .indexError
  | .arr (.rows l) => match l[idx]? with
    | some b => .ok (.arr b)
    | Option.none => .error .indexError

/-- One element of `sample_args` (utils.py:231-234). -/
def sampleArg (idx : Nat) (p : Arg P × Option Int) : Py (Arg P) :=
  match p.2 with
  | Option.none => .ok p.1
  | some _ => p.1.item idx

/-- `o[tuple_idx]`. -/
def Out.item (o : Out) (i : Nat) : Py Arr :=
  match o with
  | .tup _ l => match l[i]? with
    | some b => .ok b
    | Option.none => .error .indexError
  | .arr (.rows l) => match l[i]? with
    | some b => .ok b
    | Option.none => .error .indexError
  | .arr (.num _) => .error .indexError

/-- `np.stack(l)` / `np.array(l)` of a non-empty list of arrays: ValueError unless all have the same shape. -/
def stack (l : List Arr) : Py Arr :=
  match l with
  | [] => .error .valueError
  | a :: l => if ∀ b ∈ l, b.shape = a.shape then .ok (.rows (a :: l)) else .error .valueError

/-- The array of an output that is not a tuple. A function that returns an array first and a tuple later is taken to make `np.stack`
raise ValueError. -/
def Out.array (o : Out) : Py Arr :=
  match o with
  | .arr a => .ok a
  | .tup _ _ => .error .valueError

/-- `lmap(fn, in_axes)(*args)` (utils.py:210-253). -/
def lmap (fn : List (Arg P) → Py Out) (axes : Axes) (args : List (Arg P)) : Py Out := do
  let full ← fullAxes axes args.length
  let batch ← batchSize args
  let outs ← (List.range batch).mapM fun idx => do
    let sample ← (args.zip full).mapM (sampleArg idx)
    fn sample
  match outs with
  | [] => .error .indexError
  | .tup cls l :: rest => do
    let parts ← (List.range l.length).mapM fun i => do
      let column ← (.tup cls l :: rest).mapM fun o => o.item i
      stack column
    return .tup cls parts
  | .arr a :: rest => do
    let column ← (.arr a :: rest).mapM Out.array
    let r ← stack column
    return .arr r

/-! ## `cmap` -/

/-- A casadi `Function`: `fn.map(n, "thread", num_workers)` may raise; the mapped function of `n` samples applied to arguments. -/
structure CasFn (A B : Type) where
  map : Nat → Py Unit
  run : Nat → A → Py B

/-- The attributes of `fmapped` (utils.py:135-148): the batch size and the size of the cached mapped function. -/
structure Cache where
  batchSize : Option Nat := none
  rawMapped : Option Nat := none

/-- One call of the function that `cmap` returns, up to the transpositions and the reshape of the result (utils.py:121-163): `batch` is the
size found in the first argument that is not `None`. The batch size is stored before the new mapped function is made. With no mapped
function yet, `None(*args)` raises TypeError. -/
def cmapCall {A B : Type} (fn : CasFn A B) (c : Cache) (batch : Nat) (args : A) : Py B × Cache :=
  if some batch ≠ c.batchSize then
    match fn.map batch with
    | .ok () => (fn.run batch args, ⟨some batch, some batch⟩)
    | .error e => (.error e, ⟨some batch, c.rawMapped⟩)
  else match c.rawMapped with
    | some n => (fn.run n args, c)
    | none => (.error .typeError, c)

/-- A sequence of calls of one function that `cmap` returned. -/
def cmapCalls {A B : Type} (fn : CasFn A B) (c : Cache) : List (Nat × A) → Cache
  | [] => c
  | q :: l => cmapCalls fn (cmapCall fn c q.1 q.2).2 l

/-- The sparse output of a mapped casadi function and its reshape (utils.py:174-198): the values of the samples, one after the other, cut
into rows of `int(nnz / batch)`; ZeroDivisionError for an empty batch. -/
def sparseRows (batch : Nat) (data : List ℝ) : Py (List (List ℝ)) :=
  if batch = 0 then .error .zeroDivisionError
  else
    let nnz := data.length / batch
    if batch * nnz = data.length then .ok ((List.range batch).map fun s => (data.drop (s * nnz)).take nnz) else .error .valueError

/-- The dense output of a mapped casadi function and its transposition (utils.py:199-205): the samples' outputs side by side (a list of
columns), of which the transpose has the columns as rows. -/
def denseRows (outs : List (List (List ℝ))) : List (List ℝ) := outs.flatten

end Lumos.Map
