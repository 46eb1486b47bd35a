import Verif.Cas.NpSpec
import Mathlib.Analysis.SpecialFunctions.Complex.Arg
import Mathlib.Analysis.SpecialFunctions.Trigonometric.Inverse
/-!
# Numpy arrays and casadi matrices together; logic, angles, trapezoids

Models `lumos/numpy/casadi_numpy/determine_type.py`, the choice between numpy and casadi at the head of the functions of
`array.py`, `conditionals.py`, `logicals.py`, `linalg.py` and `linalg_top_level.py`, and the functions of `trig.py`, `calculus.py`, `spacing.py` and
`array.py` that `Cas/ArrModel` leaves out.
-/

namespace Lumos.Cas

open Lumos Lumos.Cas.Np

/-- A Python value that the functions may be given: a casadi matrix (`SX`, `MX` or `DM`), a numpy array or number, a list or tuple, anything
else (a dictionary, a string, ...). -/
inductive Obj where
  | cas (x : Mx)
  | np (a : Nd)
  | seq (l : List Obj)
  | thing

mutual
/-- `is_casadi_type(array_like, recursive=True)` (determine_type.py:18-27). -/
def isCasadi : Obj → Bool
  | .seq l => isCasadiAny l
  | .cas _ => true
  | .np _ => false
  | .thing => false

/-- The loop over the elements (determine_type.py:19-21). -/
def isCasadiAny : List Obj → Bool
  | [] => false
  | o :: l => if isCasadi o then true else isCasadiAny l
end

/-- `is_casadi_type(array_like, recursive)` (determine_type.py:4-27). -/
def isCasadiType (o : Obj) (recursive : Bool := true) : Bool :=
  if recursive then isCasadi o else match o with
    | .cas _ => true
    | _ => false

/-- The matrix that casadi makes of an argument: numpy arrays are converted, vectors to columns (casadi's typemaps); lists of matrices and other
things are refused. -/
def toMx : Obj → Py Mx
  | .cas x => .ok x
  | .np (.num a) => .ok (scalar a)
  | .np (.vec n f) => .ok ⟨n, 1, fun i _ => f i⟩
  | .np (.mat r c f) => .ok ⟨r, c, f⟩
  | _ => .error .notImplementedError

/-- The array that numpy reads from an argument. Simplification: lists are not converted. -/
def toNd : Obj → Py Nd
  | .np a => .ok a
  | _ => .error .typeError

/-- The result of a numpy function, as a value. -/
def npOut (a : Py Nd) : Py Obj := a.bind fun y => .ok (.np y)

/-- The result of a casadi function, as a value. -/
def casOut (a : Py Mx) : Py Obj := a.bind fun y => .ok (.cas y)

/-- The head of a function of two arguments: `if not is_casadi_type([x, y], recursive=True)` numpy's function, else casadi's. -/
def pick2 (np : Nd → Nd → Py Nd) (cas : Mx → Mx → Py Mx) (x y : Obj) : Py Obj :=
  if !isCasadiType (.seq [x, y]) then (toNd x).bind fun a => (toNd y).bind fun b => npOut (np a b)
  else (toMx x).bind fun a => (toMx y).bind fun b => casOut (cas a b)

/-- 1 for true and 0 for false. -/
noncomputable def truth (p : Prop) : ℝ := by
  classical exact if p then 1 else 0

/-- `casadi.logic_and`, `np.logical_and` of two numbers: a number is true if it is not zero. -/
noncomputable def andR (a b : ℝ) : ℝ := truth (a ≠ 0 ∧ b ≠ 0)

/-- `casadi.logic_or`, `np.logical_or` of two numbers. -/
noncomputable def orR (a b : ℝ) : ℝ := truth (a ≠ 0 ∨ b ≠ 0)

/-- `casadi.logic_not`, `np.logical_not` of a number. -/
noncomputable def notR (a : ℝ) : ℝ := truth (a = 0)

/-- `casadi.logic_all(x)` of a dense matrix of zeros and ones. -/
noncomputable def logicAll (x : Mx) : Mx := scalar (truth (∀ i < x.rows, ∀ j < x.cols, x.at' i j = 1))

/-- `casadi.logic_any(x)` of a dense matrix of zeros and ones. -/
noncomputable def logicAny (x : Mx) : Mx := scalar (truth (∃ i < x.rows, ∃ j < x.cols, x.at' i j = 1))

/-- `logical_and(x1, x2)` (logicals.py:30-40). -/
noncomputable def logicalAnd (x y : Obj) : Py Obj := pick2 (Np.zip andR) (elementwise andR) x y

/-- `logical_or(x1, x2)` (logicals.py:43-53). -/
noncomputable def logicalOr (x y : Obj) : Py Obj := pick2 (Np.zip orR) (elementwise orR) x y

/-- The head of `logical_not`, `all` and `any`: `if not is_casadi_type(x, recursive=False)`. -/
def pick1 (np : Nd → Nd) (cas : Mx → Mx) (x : Obj) : Py Obj :=
  if !isCasadiType x false then (toNd x).bind fun a => npOut (.ok (np a))
  else (toMx x).bind fun a => casOut (.ok (cas a))

/-- Some entry of an array is not zero. -/
def someEntry : Nd → Prop
  | .num a => a ≠ 0
  | .vec n f => ∃ i < n, f i ≠ 0
  | .mat r c f => ∃ i < r, ∃ j < c, f i j ≠ 0

/-- No entry of an array is zero. -/
def everyEntry : Nd → Prop
  | .num a => a ≠ 0
  | .vec n f => ∀ i < n, f i ≠ 0
  | .mat r c f => ∀ i < r, ∀ j < c, f i j ≠ 0

/-- `logical_not(x)` (logicals.py:56-66). -/
noncomputable def logicalNot (x : Obj) : Py Obj := pick1 (Np.map notR) (Mx.map notR) x

/-- `all(a)` (logicals.py:69-79). -/
noncomputable def all (x : Obj) : Py Obj := pick1 (fun a => .num (truth (everyEntry a))) logicAll x

/-- `any(a)` (logicals.py:82-92). -/
noncomputable def any (x : Obj) : Py Obj := pick1 (fun a => .num (truth (someEntry a))) logicAny x

/-- `dot(a, b)` with its choice (linalg_top_level.py:7-17). -/
noncomputable def mixDot (x y : Obj) : Py Obj := pick2 Np.dot dot x y

/-- `linalg.inner(x, y)` with its choice (linalg.py:7-17). Numpy's `inner` of two vectors. -/
noncomputable def mixInner (x y : Obj) : Py Obj := pick2 Np.dot inner x y

/-- `cross(a, b)` with its choice (linalg_top_level.py:20-65). -/
def mixCross (x y : Obj) : Py Obj := pick2 Np.cross (fun a b => cross a b none) x y

/-- `where(condition, value_if_true, value_if_false)` with its choice (conditionals.py:6-12). Numpy's `where` for values that fit the condition. -/
noncomputable def mixWhere (c x y : Obj) : Py Obj :=
  if !isCasadiType (.seq [c, x, y]) then (toNd c).bind fun c => (toNd x).bind fun a => (toNd y).bind fun b => npOut (.ok (choose c a b))
  else (toMx c).bind fun c => (toMx x).bind fun a => (toMx y).bind fun b => casOut (where' c a b)

/-- `concatenate(arrays, axis)` with its choice (array.py:36-54). -/
def mixConcatenate (l : List Obj) (axis : Int) : Py Obj :=
  if !isCasadiType (.seq l) then (l.mapM toNd).bind fun as => npOut (Np.concatenate as axis)
  else (l.mapM toMx).bind fun xs => casOut (concatenate xs axis)

/-- An array that `stack` takes beside casadi matrices (array.py:67-76): a casadi column or a numpy vector. -/
def stackable : Obj → Bool
  | .cas x => x.cols = 1
  | .np a => isVec a
  | _ => false

/-- `stack(arrays, axis)` with its choice (array.py:57-85). Simplification: a list among the arrays (which has no `shape`) is refused with the
same error as a matrix. -/
def mixStack (l : List Obj) (axis : Int) : Py Obj :=
  if !isCasadiType (.seq l) then (l.mapM toNd).bind fun as => npOut (Np.stack as axis)
  else if l.all stackable then (l.mapM toMx).bind fun xs => casOut (stack xs axis)
  else .error .valueError

/-- `dstack(arrays)` beside casadi matrices (array.py:167-174); numpy's result has three dimensions and is left out. -/
def dstack (l : List Obj) : Option (Py Obj) := if !isCasadiType (.seq l) then none else some (.error .valueError)

/-- `length(array)` with its choice (array.py:177-196): `len` of a number raises TypeError, which is caught; a list in which a casadi matrix
occurs counts as casadi's (determine_type.py:18-21), and has no `shape`. -/
def mixLength (o : Obj) : Py Nat :=
  if !isCasadiType o then
    match o with
    | .np (.num _) => .ok 1
    | .np a => .ok (len a)
    | .seq l => .ok l.length
    | _ => .ok 1
  else
    match o with
    | .cas x => .ok (length x)
    | _ => .error .attributeError

/-! ### Trapezoids (calculus.py:28-44) -/

/-- A vector: a numpy vector or a casadi column. -/
structure Vec where
  n : Nat
  f : Nat → ℝ

/-- `v[k] = v[k] + a`. -/
def Vec.add (v : Vec) (k : Nat) (a : ℝ) : Vec := ⟨v.n, fun i => if i = k then v.f i + a else v.f i⟩

/-- `trapz(x, modify_endpoints)` (calculus.py:28-44): the first and the last index raise where there is no piece. -/
noncomputable def trapz (x : Vec) (modifyEndpoints : Bool := false) : Py Vec :=
  let integral : Vec := ⟨x.n - 1, fun i => (x.f (i + 1) + x.f i) / 2⟩
  if modifyEndpoints then
    if integral.n = 0 then .error .indexError
    else
      let integral := integral.add 0 (x.f 0 * 0.5)
      .ok (integral.add (integral.n - 1) (x.f (x.n - 1) * 0.5))
  else .ok integral

/-! ### Angles in degrees (trig.py), for one number; arrays element by element -/

/-- `degrees(x)` (trig.py:5-7). -/
noncomputable def degrees (x : ℝ) : ℝ := x * 180 / Real.pi

/-- `radians(x)` (trig.py:10-12). -/
noncomputable def radians (x : ℝ) : ℝ := x * Real.pi / 180

/-- `sind(x)` (trig.py:15-17). -/
noncomputable def sind (x : ℝ) : ℝ := Real.sin (radians x)

/-- `cosd(x)` (trig.py:20-22). -/
noncomputable def cosd (x : ℝ) : ℝ := Real.cos (radians x)

/-- `tand(x)` (trig.py:25-27). -/
noncomputable def tand (x : ℝ) : ℝ := Real.tan (radians x)

/-- `arcsind(x)` (trig.py:30-32), for numbers between -1 and 1. -/
noncomputable def arcsind (x : ℝ) : ℝ := degrees (Real.arcsin x)

/-- `arccosd(x)` (trig.py:35-37), for numbers between -1 and 1. -/
noncomputable def arccosd (x : ℝ) : ℝ := degrees (Real.arccos x)

/-- `np.arctan2(y, x)`: the angle of the point `(x, y)`, in `(-π, π]`. -/
noncomputable def arctan2 (y x : ℝ) : ℝ := Complex.arg ⟨x, y⟩

/-- `arctan2d(y, x)` (trig.py:40-42). -/
noncomputable def arctan2d (y x : ℝ) : ℝ := degrees (arctan2 y x)

/-! ### Constant arrays (array.py:294-307) -/

/-- The argument `shape`: a number or a pair. -/
inductive Shape where
  | one (n : Nat)
  | two (r c : Nat)

/-- `SX` with every entry the same, of a shape: one number is a column. -/
def filled (a : ℝ) : Shape → Mx
  | .one n => ⟨n, 1, fun _ _ => a⟩
  | .two r c => ⟨r, c, fun _ _ => a⟩

/-- `zeros(shape)` (array.py:294-295). -/
def zeros (s : Shape) : Obj := .cas (filled 0 s)

/-- `ones(shape)` (array.py:306-307). -/
def ones (s : Shape) : Obj := .cas (filled 1 s)

/-- `zeros_like(array)` of a casadi matrix (array.py:298-299). -/
def zerosLike (x : Mx) : Obj := .cas (filled 0 (.two x.rows x.cols))

/-- `eye(n)` (array.py:302-303). -/
def eye (n : Nat) : Obj := .cas ⟨n, n, fun i j => if i = j then 1 else 0⟩

end Lumos.Cas
