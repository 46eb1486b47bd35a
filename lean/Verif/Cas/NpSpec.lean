import Verif.Cas.ArrModel
/-!
# What numpy does (the specification for the casadi backend)

The functions of numpy that the functions of `lumos/numpy/casadi_numpy` are named after and whose documentation they cite ("See syntax
here"), on arrays with at most two dimensions; and when a casadi matrix shows a numpy array.
-/

namespace Lumos.Cas.Np

open Lumos

/-- A numpy array with at most two dimensions. Only the entries inside count. -/
inductive Nd where
  | num (a : ℝ)
  | vec (n : Nat) (f : Nat → ℝ)
  | mat (r c : Nat) (f : Nat → Nat → ℝ)

/-- The casadi matrix that shows a numpy array: a number is 1×1, a vector is a column. -/
def Shows : Nd → Mx → Prop
  | .num a, x => x.rows = 1 ∧ x.cols = 1 ∧ x.at' 0 0 = a
  | .vec n f, x => x.rows = n ∧ x.cols = 1 ∧ ∀ i < n, x.at' i 0 = f i
  | .mat r c f, x => x.rows = r ∧ x.cols = c ∧ ∀ i < r, ∀ j < c, x.at' i j = f i j

/-- The transposed matrix; vectors and numbers stay. -/
def tr : Nd → Nd
  | .mat r c f => .mat c r fun i j => f j i
  | a => a

/-- Two arrays joined along the first axis. -/
def join : Nd → Nd → Py Nd
  | .vec n f, .vec m g => .ok (.vec (n + m) fun i => if i < n then f i else g (i - n))
  | .mat r c f, .mat r' c' g => if c = c' then .ok (.mat (r + r') c fun i j => if i < r then f i j else g (i - r) j) else .error .valueError
  | _, _ => .error .valueError

/-- `np.concatenate(l, axis=0)`. -/
def concat0 : List Nd → Py Nd
  | [] => .error .valueError
  | [.num _] => .error .valueError
  | [a] => .ok a
  | a :: l => (concat0 l).bind (join a)

/-- The arrays are matrices. -/
def isMat : Nd → Bool
  | .mat .. => true
  | _ => false

/-- `np.concatenate(l, axis)`. -/
def concatenate (l : List Nd) (axis : Int) : Py Nd :=
  if axis = 0 then concat0 l
  else if axis = 1 then if l.all isMat then (concat0 (l.map tr)).bind fun x => .ok (tr x) else .error .valueError
  else .error .valueError

/-- A vector as a matrix with one row. -/
def asRow : Nd → Nd
  | .vec n f => .mat 1 n fun _ j => f j
  | a => a

/-- A vector as a matrix with one column. -/
def asCol : Nd → Nd
  | .vec n f => .mat n 1 fun i _ => f i
  | a => a

/-- The arrays are vectors. -/
def isVec : Nd → Bool
  | .vec .. => true
  | _ => false

/-- `np.stack(l, axis)` of vectors. -/
def stack (l : List Nd) (axis : Int) : Py Nd :=
  if l.all isVec then
    if axis = 0 ∨ axis = -2 then concatenate (l.map asRow) 0
    else if axis = 1 ∨ axis = -1 then concatenate (l.map asCol) 1
    else .error .valueError
  else .error .valueError

/-- `np.hstack(l)`: vectors along their only axis, matrices along the second. -/
def hstack (l : List Nd) : Py Nd := if l.all isVec then concatenate l 0 else concatenate l 1

/-- `np.vstack(l)`, also `np.row_stack`: vectors become rows. -/
def vstack (l : List Nd) : Py Nd := concatenate (l.map asRow) 0

/-- `np.column_stack(l)`: vectors become columns. -/
def columnStack (l : List Nd) : Py Nd := concatenate (l.map asCol) 1

/-- `np.array` of a list of numbers. -/
def ofNumbers (l : List ℝ) : Nd := .vec l.length fun i => l.getD i 0

/-- `np.array` of a list of lists of numbers, all of the same length. -/
def ofRows (c : Nat) (l : List (List ℝ)) : Nd := .mat l.length c fun i j => (l.getD i []).getD j 0

/-- `a[lo:hi]` along the first axis. -/
def slice (lo hi : Nat) : Nd → Nd
  | .num a => .num a
  | .vec _ f => .vec (hi - lo) fun i => f (lo + i)
  | .mat _ c f => .mat (hi - lo) c fun i j => f (lo + i) j

/-- The length of the first axis. -/
def len : Nd → Nat
  | .num _ => 0
  | .vec n _ => n
  | .mat r _ _ => r

/-- `np.split(a, n)` along the first axis: `n` equal parts. -/
def splitParts (a : Nd) (n : Nat) : Py (List Nd) :=
  if n ≠ 0 ∧ len a % n = 0 then .ok ((List.range n).map fun k => slice (k * (len a / n)) ((k + 1) * (len a / n)) a) else .error .valueError

/-- `np.split(a, places)` along the first axis, for places in order and inside. -/
def splitPlaces (a : Nd) (places : List Nat) : List Nd :=
  List.zipWith (fun lo hi => slice lo hi a) (0 :: places) (places ++ [len a])

/-- `np.sum(a, axis)`. -/
noncomputable def sum : Nd → Option Int → Py Nd
  | .num a, none => .ok (.num a)
  | .num _, some _ => .error .valueError
  | .vec n f, k => if k = none ∨ k = some 0 ∨ k = some (-1) then .ok (.num (∑ i ∈ Finset.range n, f i)) else .error .valueError
  | .mat r c f, none => .ok (.num (∑ i ∈ Finset.range r, ∑ j ∈ Finset.range c, f i j))
  | .mat r c f, some k =>
    if k = 0 ∨ k = -2 then .ok (.vec c fun j => ∑ i ∈ Finset.range r, f i j)
    else if k = 1 ∨ k = -1 then .ok (.vec r fun i => ∑ j ∈ Finset.range c, f i j)
    else .error .valueError

/-- Every entry with a function. -/
def map (g : ℝ → ℝ) : Nd → Nd
  | .num a => .num (g a)
  | .vec n f => .vec n fun i => g (f i)
  | .mat r c f => .mat r c fun i j => g (f i j)

/-- How many numbers one number of `np.sum(a, axis)` adds. -/
def count : Nd → Option Int → Nat
  | .num _, _ => 1
  | .vec n _, _ => n
  | .mat r c _, none => r * c
  | .mat r c _, some k => if k = 0 ∨ k = -2 then r else c

/-- `np.mean(a, axis)` (not of empty arrays). -/
noncomputable def mean (a : Nd) (axis : Option Int) : Py Nd := (sum a axis).bind fun s => .ok (map (· / count a axis) s)

/-- A function of two numbers, element by element: equal shapes, or one of the two is a number (the broadcasting of other shapes is left out). -/
def zip (g : ℝ → ℝ → ℝ) : Nd → Nd → Py Nd
  | .num a, b => .ok (map (g a) b)
  | a, .num b => .ok (map (g · b) a)
  | .vec n f, .vec m h => if n = m then .ok (.vec n fun i => g (f i) (h i)) else .error .valueError
  | .mat r c f, .mat r' c' h => if r = r' ∧ c = c' then .ok (.mat r c fun i j => g (f i j) (h i j)) else .error .valueError
  | _, _ => .error .valueError

/-- An entry; a number has the same entry everywhere. -/
def entry : Nd → Nat → Nat → ℝ
  | .num a, _, _ => a
  | .vec _ f, i, _ => f i
  | .mat _ _ f, i, j => f i j

/-- The array of the same shape with other entries. -/
def like (g : Nat → Nat → ℝ) : Nd → Nd
  | .num _ => .num (g 0 0)
  | .vec n _ => .vec n fun i => g i 0
  | .mat r c _ => .mat r c g

/-- `a` is a number or has the shape of `c`. -/
def Fits : Nd → Nd → Prop
  | .num _, _ => True
  | .vec n _, .vec m _ => n = m
  | .mat r c _, .mat r' c' _ => r = r' ∧ c = c'
  | _, _ => False

/-- `np.where(c, a, b)` for `a` and `b` that fit `c`. -/
noncomputable def choose (c a b : Nd) : Nd := like (fun i j => if entry c i j ≠ 0 then entry a i j else entry b i j) c

/-- `np.clip(a, lo, hi)` for limits that fit `a`. -/
noncomputable def clip (a lo hi : Nd) : Nd := like (fun i j => min (max (entry a i j) (entry lo i j)) (entry hi i j)) a

/-- `np.dot(a, b)` of two vectors or two matrices. -/
noncomputable def dot : Nd → Nd → Py Nd
  | .vec n f, .vec m g => if n = m then .ok (.num (∑ i ∈ Finset.range n, f i * g i)) else .error .valueError
  | .mat r c f, .mat r' c' g => if c = r' then .ok (.mat r c' fun i j => ∑ k ∈ Finset.range c, f i k * g k j) else .error .valueError
  | _, _ => .error .valueError

/-- `np.outer(a, b)` of two vectors. -/
def outer : Nd → Nd → Py Nd
  | .vec n f, .vec m g => .ok (.mat n m fun i j => f i * g j)
  | _, _ => .error .valueError

/-- `np.cross(a, b)` of two vectors with three entries, or row by row. -/
def cross : Nd → Nd → Py Nd
  | .vec n f, .vec m g => if n = 3 ∧ m = 3 then .ok (.vec 3 fun k => f ((k + 1) % 3) * g ((k + 2) % 3) - f ((k + 2) % 3) * g ((k + 1) % 3)) else .error .valueError
  | .mat r c f, .mat r' c' g => if r = r' ∧ c = 3 ∧ c' = 3 then
      .ok (.mat r 3 fun i k => f i ((k + 1) % 3) * g i ((k + 2) % 3) - f i ((k + 2) % 3) * g i ((k + 1) % 3)) else .error .valueError
  | _, _ => .error .valueError

/-- `np.diff(a)` of a vector. -/
def diff1 : Nd → Py Nd
  | .vec n f => .ok (.vec (n - 1) fun i => f (i + 1) - f i)
  | _ => .error .valueError

/-- `np.diff(a, n)` of a vector: `n` times. -/
def diff (a : Nd) : Nat → Py Nd
  | 0 => .ok a
  | n + 1 => (diff a n).bind diff1

/-- `np.roll(a, shift)` of a vector: the entry `i` moves to `i + shift`, around the end. -/
def roll (shift : Int) : Nd → Py Nd
  | .vec n f => .ok (.vec n fun i => f (((i : Int) - shift) % n).toNat)
  | _ => .error .valueError

/-- `np.roll(a, shift, axis)` of a matrix. -/
def rollAxis (shift : Int) (axis : Nat) : Nd → Py Nd
  | .mat r c f => if axis = 0 then .ok (.mat r c fun i j => f (((i : Int) - shift) % r).toNat j)
    else .ok (.mat r c fun i j => f i (((j : Int) - shift) % c).toNat)
  | _ => .error .valueError

/-- `np.reshape(a, (r, c))` of a vector or a matrix: the entries row by row. -/
def reshape (r c : Nat) : Nd → Py Nd
  | .num _ => .error .valueError
  | .vec n f => if n = r * c then .ok (.mat r c fun i j => f (i * c + j)) else .error .valueError
  | .mat r' c' f => if r' * c' = r * c then .ok (.mat r c fun i j => f ((i * c + j) / c') ((i * c + j) % c')) else .error .valueError

/-- `np.diag(v)` of a vector. -/
def diag : Nd → Py Nd
  | .vec n f => .ok (.mat n n fun i j => if i = j then f i else 0)
  | _ => .error .valueError

/-- `np.tile(v, (n, 1))` of a vector. -/
def tile (n : Nat) : Nd → Py Nd
  | .vec m f => .ok (.mat n m fun _ j => f j)
  | _ => .error .valueError

/-- `np.linalg.norm(v)` of a vector. -/
noncomputable def norm2 : Nd → Py Nd
  | .vec n f => .ok (.num (Real.sqrt (∑ i ∈ Finset.range n, f i ^ 2)))
  | _ => .error .valueError

/-- `np.linspace(a, b, n)` with at least two points. -/
noncomputable def linspace (a b : ℝ) (n : Nat) : Nd := .vec n fun i => a + (b - a) * i / (n - 1)

/-- `np.logspace(a, b, n)` with at least two points. -/
noncomputable def logspace (a b : ℝ) (n : Nat) : Nd := .vec n fun i => (10 : ℝ) ^ (a + (b - a) * i / (n - 1))

/-- `np.geomspace(a, b, n)` for positive ends, with at least two points. -/
noncomputable def geomspace (a b : ℝ) (n : Nat) : Nd := .vec n fun i => a * (b / a) ^ ((i : ℝ) / (n - 1))

/-- `f` under casadi does the same as `g` under numpy: whenever numpy has a result, casadi has a result, and it shows numpy's. -/
def Same (g : Py Nd) (f : Py Mx) : Prop := ∀ y, g = .ok y → ∃ x, f = .ok x ∧ Shows y x

end Lumos.Cas.Np
