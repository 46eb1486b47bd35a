import Verif.Base.Py
import Mathlib.Analysis.Real.Sqrt
import Mathlib.Algebra.BigOperators.Group.Finset.Basic
import Mathlib.Algebra.BigOperators.Group.List.Basic
import Mathlib.Analysis.SpecialFunctions.Log.Base
/-!
# The array functions of the casadi backend

Models `lumos/numpy/casadi_numpy/{array,arithmetic,calculus,conditionals,linalg,linalg_top_level,logicals,spacing,interpolate}.py` and the
vector functions of `lumos/numpy/utils.py`, for arguments that are casadi matrices (numbers and numpy vectors among them count as the casadi
matrices that casadi converts them to). A symbolic matrix stands for its values. Entries are real numbers (exact, no NaN).
-/

namespace Lumos.Cas

open Lumos

/-- A casadi matrix: always two-dimensional. Only the entries inside count. -/
structure Mx where
  rows : Nat
  cols : Nat
  at' : Nat → Nat → ℝ

/-! ### casadi (taken as its documentation describes it) -/

/-- `x.T`. -/
def Mx.T (x : Mx) : Mx := ⟨x.cols, x.rows, fun i j => x.at' j i⟩

/-- A number as a matrix. -/
def scalar (a : ℝ) : Mx := ⟨1, 1, fun _ _ => a⟩

/-- One matrix above another. -/
def above (a b : Mx) : Py Mx :=
  if a.cols = b.cols then .ok ⟨a.rows + b.rows, a.cols, fun i j => if i < a.rows then a.at' i j else b.at' (i - a.rows) j⟩
  else .error .runtimeError

/-- `casadi.vertcat(*l)`. Simplification: every pair must have the same number of columns (casadi skips empty matrices). -/
def vertcat : List Mx → Py Mx
  | [] => .ok ⟨0, 0, fun _ _ => 0⟩
  | [a] => .ok a
  | a :: l => (vertcat l).bind (above a)

/-- `casadi.horzcat(*l)`. -/
def horzcat (l : List Mx) : Py Mx := (vertcat (l.map Mx.T)).bind fun x => .ok x.T

/-- The rows `lo` to `hi - 1`. -/
def Mx.slice (x : Mx) (lo hi : Nat) : Mx := ⟨hi - lo, x.cols, fun i j => x.at' (lo + i) j⟩

/-- The pieces between consecutive offsets. -/
def between (x : Mx) : List Nat → List Mx
  | a :: b :: l => x.slice a b :: between x (b :: l)
  | _ => []

/-- `casadi.vertsplit(x, offsets)`: the offsets start with zero, do not decrease and end with the number of rows. -/
def vertsplitAt (x : Mx) (offsets : List Nat) : Py (List Mx) :=
  if offsets.head? = some 0 ∧ offsets.IsChain (· ≤ ·) ∧ offsets.getLast? = some x.rows then .ok (between x offsets) else .error .runtimeError

/-- `casadi.vertsplit(x, incr)`: pieces of `incr` rows. -/
def vertsplitBy (x : Mx) (incr : Nat) : Py (List Mx) :=
  if incr = 0 then .error .runtimeError
  else vertsplitAt x ((List.range ((x.rows + incr - 1) / incr)).map (· * incr) ++ [x.rows])

/-- `casadi.sum1`: the sums of the columns, as a row. -/
noncomputable def sum1 (x : Mx) : Mx := ⟨1, x.cols, fun _ j => ∑ i ∈ Finset.range x.rows, x.at' i j⟩

/-- `casadi.sum2`: the sums of the rows, as a column. -/
noncomputable def sum2 (x : Mx) : Mx := ⟨x.rows, 1, fun i _ => ∑ j ∈ Finset.range x.cols, x.at' i j⟩

/-- A function of one number, element by element. -/
def Mx.map (f : ℝ → ℝ) (x : Mx) : Mx := ⟨x.rows, x.cols, fun i j => f (x.at' i j)⟩

/-- A function of two numbers, element by element: equal sizes, or one of the two is a single number. -/
def elementwise (f : ℝ → ℝ → ℝ) (x y : Mx) : Py Mx :=
  if x.rows = y.rows ∧ x.cols = y.cols then .ok ⟨x.rows, x.cols, fun i j => f (x.at' i j) (y.at' i j)⟩
  else if x.rows = 1 ∧ x.cols = 1 then .ok (y.map (f (x.at' 0 0)))
  else if y.rows = 1 ∧ y.cols = 1 then .ok (x.map (f · (y.at' 0 0)))
  else .error .runtimeError

/-- `casadi.dot(x, y)`: the sum of the products of the entries; equal sizes. -/
noncomputable def casDot (x y : Mx) : Py Mx :=
  if x.rows = y.rows ∧ x.cols = y.cols then .ok (scalar (∑ i ∈ Finset.range x.rows, ∑ j ∈ Finset.range x.cols, x.at' i j * y.at' i j))
  else .error .runtimeError

/-- `x @ y`. -/
noncomputable def matmul (x y : Mx) : Py Mx :=
  if x.cols = y.rows then .ok ⟨x.rows, y.cols, fun i j => ∑ k ∈ Finset.range x.cols, x.at' i k * y.at' k j⟩ else .error .runtimeError

/-- The component `k` of the cross product of two vectors. -/
def cross3 (a b : Nat → ℝ) (k : Nat) : ℝ := a ((k + 1) % 3) * b ((k + 2) % 3) - a ((k + 2) % 3) * b ((k + 1) % 3)

/-- `casadi.cross(a, b)`: column by column if there are three rows, otherwise row by row. -/
def casCross (a b : Mx) : Py Mx :=
  if a.rows = b.rows ∧ a.cols = b.cols then
    if a.rows = 3 then .ok ⟨3, a.cols, fun i j => cross3 (fun k => a.at' k j) (fun k => b.at' k j) i⟩
    else if a.cols = 3 then .ok ⟨a.rows, 3, fun i j => cross3 (a.at' i) (b.at' i) j⟩
    else .error .runtimeError
  else .error .runtimeError

/-- `casadi.diff(x)` of a column. -/
def casDiff (x : Mx) : Mx := ⟨x.rows - 1, x.cols, fun i j => x.at' (i + 1) j - x.at' i j⟩

/-- `casadi.reshape(x, (r, c))`: the entries column by column. -/
def casReshape (x : Mx) (r c : Nat) : Py Mx :=
  if x.rows * x.cols = r * c then .ok ⟨r, c, fun i j => x.at' ((i + j * r) % x.rows) ((i + j * r) / x.rows)⟩ else .error .runtimeError

/-- `casadi.repmat(x, n, 1)`. -/
def repmatRows (x : Mx) (n : Nat) : Mx := ⟨n * x.rows, x.cols, fun i j => x.at' (i % x.rows) j⟩

/-- `casadi.diag(v)` of a row or a column. -/
def casDiag (x : Mx) : Mx :=
  if x.cols = 1 then ⟨x.rows, x.rows, fun i j => if i = j then x.at' i 0 else 0⟩
  else ⟨x.cols, x.cols, fun i j => if i = j then x.at' 0 i else 0⟩

/-- `casadi.linspace(a, b, n)` with at least two points. -/
noncomputable def casLinspace (a b : ℝ) (n : Nat) : Mx := ⟨n, 1, fun i _ => a + i * ((b - a) / (n - 1))⟩

/-- `casadi.interpolant("LUT", "linear", [xp], fp)(x)` for an increasing grid: the line through the values at the ends of the interval with
`x`; the first and the last interval continue outside. -/
noncomputable def interpolant (xp fp : List ℝ) (x : ℝ) : ℝ :=
  let k := min ((xp.filter (· ≤ x)).length - 1) (xp.length - 2)
  let x0 := xp.getD k 0
  let x1 := xp.getD (k + 1) 0
  fp.getD k 0 + (x - x0) * ((fp.getD (k + 1) 0 - fp.getD k 0) / (x1 - x0))

/-! ### `lumos/numpy/casadi_numpy` -/

/-- What stands in the list given to `array`: a matrix or number, or a list of these. -/
inductive Item where
  | elem (x : Mx)
  | row (l : List Mx)

/-- `make_row(contents)` (array.py:27-31): a list becomes a row; a matrix is not iterable and stays. (A row that cannot be made is passed on
as a list, which `vertcat` refuses.) -/
def makeRow : Item → Py Mx
  | .elem x => .ok x
  | .row r => horzcat r

/-- `array(array_like)` of a list with casadi types in it (array.py:25-33). -/
def array (l : List Item) : Py Mx := (l.mapM makeRow).bind vertcat

/-- `concatenate(arrays, axis)` (array.py:36-54). -/
def concatenate (l : List Mx) (axis : Int) : Py Mx :=
  if axis = 0 then vertcat l else if axis = 1 then horzcat l else .error .valueError

/-- `stack(arrays, axis)` (array.py:57-85). -/
def stack (l : List Mx) (axis : Int) : Py Mx :=
  if ∀ x ∈ l, x.cols = 1 then
    if axis = 0 ∨ axis = -2 then (horzcat l).bind fun x => .ok x.T
    else if axis = 1 ∨ axis = -1 then horzcat l
    else .error .valueError
  else .error .valueError

/-- `hstack(arrays)` (array.py:88-90). -/
def hstack (l : List Mx) : Py Mx := horzcat l

/-- `vstack(arrays)` (array.py:93-95). -/
def vstack (l : List Mx) : Py Mx := vertcat l

/-- `_check_1d_arrays` (array.py:98-104). -/
def check1d (l : List Mx) : Bool := l.all fun x => x.cols = 1

/-- `column_stack(arrays)` (array.py:107-117). -/
def columnStack (l : List Mx) : Py Mx := if check1d l then horzcat l else .error .valueError

/-- `row_stack(arrays)` (array.py:120-131). -/
def rowStack (l : List Mx) : Py Mx := if check1d l then (horzcat l).bind fun x => .ok x.T else .error .valueError

/-- The second argument of `split`: the number of parts or the places to cut. -/
inductive Cuts where
  | parts (n : Nat)
  | places (l : List Nat)

/-- The splitting along the rows (array.py:142-156). -/
def splitRows (x : Mx) : Cuts → Py (List Mx)
  | .parts n => if n = 0 then .error .zeroDivisionError
    else if x.rows % n = 0 then vertsplitBy x (x.rows / n) else .error .valueError
  | .places l => vertsplitAt x (0 :: l ++ [x.rows])

/-- `split(array, indices_or_sections, axis)` (array.py:134-156): `axis` has no default (TypeError); for another axis `split_func` is not
bound. -/
def split (x : Mx) (cuts : Cuts) (axis : Option Int) : Py (List Mx) :=
  match axis with
  | none => .error .typeError
  | some a => if a = 0 then splitRows x cuts
    else if a = 1 ∨ a = -1 then (splitRows x.T cuts).bind fun l => .ok (l.map Mx.T)
    else .error .nameError

/-- `length(array)` (array.py:177-196). -/
def length (x : Mx) : Nat := if x.rows ≠ 1 then x.rows else x.cols

/-- `diag(v, k)` (array.py:199-221). -/
def diag (x : Mx) (k : Int) : Py Mx :=
  if k ≠ 0 then .error .notImplementedError
  else if x.rows = 1 ∨ x.cols = 1 then .ok (casDiag x)
  else if x.rows = x.cols then .error .notImplementedError
  else .error .valueError

/-- `a[:stop, :]` with a stop that counts from the end if negative. -/
def upTo (x : Mx) (stop : Int) : Mx :=
  x.slice 0 (if stop < 0 then (x.rows + stop).toNat else min stop.toNat x.rows)

/-- `a[i, :]`, an index that counts from the end if negative. -/
def rowAt (x : Mx) (i : Int) : Py Mx :=
  if 0 ≤ i ∧ i < x.rows then .ok (x.slice i.toNat (i.toNat + 1))
  else if -(x.rows : Int) ≤ i ∧ i < 0 then .ok (x.slice (x.rows + i).toNat ((x.rows + i).toNat + 1))
  else .error .runtimeError

/-- `roll(a, shift, axis)` (array.py:224-260); the bare `Exception` at the end is modelled as RuntimeError. -/
def roll (x : Mx) (shift : Int) (axis : Option Int) : Py Mx :=
  let axis := axis.getD 0
  if (x.rows = 1 ∨ x.cols = 1) ∧ axis = 0 then (rowAt x (-shift)).bind fun a => vertcat [a, upTo x (-shift)]
  else if axis = 0 then
    (rowAt x (-shift)).bind fun a => (vertcat [a.T, (upTo x (-shift)).T]).bind fun y => .ok y.T
  else if axis = 1 then
    (rowAt x.T (-shift)).bind fun a => horzcat [a.T, (upTo x.T (-shift)).T]
  else .error .runtimeError

/-- `reshape(a, newshape)` with two numbers (array.py:285-291). -/
def reshape (x : Mx) (r c : Nat) : Py Mx := casReshape x r c

/-- `sum(x, axis)` (arithmetic.py:6-26). -/
noncomputable def sum (x : Mx) : Option Int → Py Mx
  | some a => if a = 0 then .ok (sum1 x).T else if a = 1 then .ok (sum2 x) else .error .valueError
  | none => .ok (sum1 (sum1 x).T).T

/-- `mean(x, axis)` with an axis (arithmetic.py:39-42). -/
noncomputable def meanAlong (x : Mx) (a : Int) : Py Mx :=
  if a = 0 then (sum x (some 0)).bind fun s => .ok (s.map (· / x.rows))
  else if a = 1 then (sum x (some 1)).bind fun s => .ok (s.map (· / x.cols))
  else .error .valueError

/-- `mean(x, axis)` (arithmetic.py:29-48). Simplification: an empty matrix divides by zero. -/
noncomputable def mean (x : Mx) : Option Int → Py Mx
  | some a => meanAlong x a
  | none => (meanAlong x 0).bind fun m => meanAlong m 1

/-- `abs(x)` (arithmetic.py:51-56). -/
def abs (x : Mx) : Mx := x.map fun a => |a|

/-- `minimum(x1, x2)` (logicals.py:20-22). -/
def minimum (x y : Mx) : Py Mx := elementwise min x y

/-- `maximum(x1, x2)` (logicals.py:25-27). -/
def maximum (x y : Mx) : Py Mx := elementwise max x y

/-- `clip(x, min, max)` (logicals.py:6-17). -/
def clip (x lo hi : Mx) : Py Mx := (elementwise max x lo).bind fun y => elementwise min y hi

/-- `where(condition, value_if_true, value_if_false)` (conditionals.py:6-12); the condition has the values 0 and 1. Simplification: the three
have equal sizes or are single numbers. -/
noncomputable def where' (c x y : Mx) : Py Mx := do
  let a ← elementwise (fun c a => if c ≠ 0 then a else 0) c x
  let b ← elementwise (fun c a => if c ≠ 0 then 0 else a) c y
  elementwise (· + ·) a b

/-- `dot(a, b)` (linalg_top_level.py:7-17). -/
noncomputable def dot (x y : Mx) : Py Mx := casDot x y

/-- `linalg.inner(x, y)` (linalg.py:7-17). -/
noncomputable def inner (x y : Mx) : Py Mx := casDot x y

/-- `linalg.outer(x, y)` (linalg.py:20-33). -/
noncomputable def outer (x y : Mx) : Py Mx := matmul x y.T

/-- One operand or the result of `cross` turned for its axis (linalg_top_level.py:39-57). -/
def turn (x : Mx) (axis : Int) : Py Mx := if axis = -1 ∨ axis = 1 then .ok x.T else if axis = 0 then .ok x else .error .valueError

/-- `cross(a, b, axis=axis)` (linalg_top_level.py:20-65); without axis the three axes are -1. -/
def cross (a b : Mx) (axis : Option Int) : Py Mx := do
  let k := axis.getD (-1)
  if k ≠ -1 ∧ k ≠ 0 ∧ k ≠ 1 then .error .valueError
  else
    let a ← turn a k
    let b ← turn b k
    let c ← casCross a b
    turn c k

/-- The argument `ord` of `norm`. -/
inductive Ord where
  | one
  | two
  | fro
  | other

/-- The axis that `norm` works along (linalg.py:55-66). -/
def normAxis (x : Mx) : Option Int → Py (Option Int)
  | some a => if a = 0 ∨ a = 1 ∨ a = -1 then .ok (some a) else .error .valueError
  | none => .ok (if x.rows = 1 then some 1 else if x.cols = 1 then some 0 else none)

/-- The norm of one order along an axis (linalg.py:73-96): the name `np` is not defined there. -/
noncomputable def normOf (x : Mx) (axis : Option Int) : Ord → Py Mx
  | .one => sum (abs x) axis
  | .two => (sum (x.map (· ^ 2)) axis).bind fun s => .ok (s.map fun a => a ^ (0.5 : ℝ))
  | .fro => .ok (scalar (Real.sqrt (∑ i ∈ Finset.range x.rows, ∑ j ∈ Finset.range x.cols, x.at' i j ^ 2)))
  | .other => .error .nameError

/-- `linalg.norm(x, ord, axis)` (linalg.py:52-96). -/
noncomputable def norm (x : Mx) (ord : Option Ord) (axis : Option Int) : Py Mx :=
  (normAxis x axis).bind fun axis => normOf x axis (ord.getD (if axis.isSome then .two else .fro))

/-- `diff(a, n, axis)` of a column (calculus.py:6-25): every pass starts from `a`. -/
def diff (x : Mx) (n : Nat) (axis : Int) : Py Mx :=
  if axis ≠ -1 then .error .notImplementedError
  else .ok ((List.range n).foldl (fun _ _ => casDiff x) x)

/-- `linspace(start, stop, num)` (spacing.py:6-15). -/
noncomputable def linspace (a b : ℝ) (n : Nat) : Mx := casLinspace a b n

/-- `cosspace(start, stop, num)` (spacing.py:18-33). -/
noncomputable def cosspace (a b : ℝ) (n : Nat) : Mx :=
  let mean := (b + a) / 2
  let amp := (b - a) / 2
  (casLinspace Real.pi 0 n).map fun t => mean + amp * Real.cos t

/-- `logspace(start, stop, num)` (spacing.py:36-45). -/
noncomputable def logspace (a b : ℝ) (n : Nat) : Mx := (linspace a b n).map fun t => (10 : ℝ) ^ t

/-- `geomspace(start, stop, num)` (spacing.py:48-61); the ends are casadi numbers, not symbols. -/
noncomputable def geomspace (a b : ℝ) (n : Nat) : Py Mx :=
  if a ≤ 0 ∨ b ≤ 0 then .error .valueError else .ok ((linspace a b n).map fun t => Real.logb 10 ((10 : ℝ) ^ t))

/-- `interp(x, xp, fp, left, right, period)` of one number (interpolate.py:5-27); calling `NotImplemented` raises TypeError. -/
noncomputable def interp (x : ℝ) (xp fp : List ℝ) (left right period : Option ℝ) : Py ℝ :=
  if period.isSome then .error .typeError
  else
    let f := interpolant xp fp x
    let left := left.getD (fp.getD 0 0)
    let right := right.getD (fp.getD (fp.length - 1) 0)
    let f := if x < xp.getD 0 0 then left else f
    let f := if x > xp.getD (xp.length - 1) 0 then right else f
    .ok f

/-- `vector_concat(arrays)` under casadi (utils.py:56-66). -/
def vectorConcat (l : List Mx) : Py Mx := vertcat l

/-- `vector_split(array, split_indices)` under casadi (utils.py:69-78). -/
def vectorSplit (x : Mx) (l : List Nat) : Py (List Mx) := vertsplitAt x (0 :: l ++ [x.rows])

/-- `vector_tile(vec, reps)` under casadi (utils.py:81-93). -/
def vectorTile (x : Mx) (n : Nat) : Mx := repmatRows x.T n

end Lumos.Cas
