import Verif.Base.Py
import Verif.Trans.Legendre
/-!
# Model of `lumos/optimal_control/collocation.py` and `lumos/optimal_control/transcription.py`

Numbers are exact reals; `numpy` polynomials are `ℝ[X]`; matrices are lists of rows.
-/

namespace Lumos.Trans

open Polynomial Lumos

/-! ## collocation.py -/

/-- `numpy.polynomial.legendre.Legendre(c)`: the Legendre series with coefficients `c` (collocation.py:47, 54, 59). -/
noncomputable def legSeries (c : List ℝ) : ℝ[X] :=
  ((List.range c.length).map fun (i : Nat) => C (c.getD i 0) * legendreP i).sum

/-- `Legendre(..).roots()`: the roots in increasing order, repeated roots repeated; empty for a constant series.
Simplification: exact roots instead of the eigenvalues of the companion matrix, and real roots only (the series
used here have only real roots, see `legendre_roots` and `radau_roots`). -/
noncomputable def polyRoots (p : ℝ[X]) : List ℝ := p.roots.sort (· ≤ ·)

/-- `CollocationEnum` (collocation.py:9-21). -/
inductive Scheme
  | LG | LGR | LGL
  deriving DecidableEq

/-- `get_collocation_points` (collocation.py:25-65). The type check of `scheme` is the Lean type. -/
noncomputable def collocationPoints (numPoints : Int) (scheme : Scheme) : Py (List ℝ) :=
  if numPoints < 1 then .error .assertionError
  else
    match scheme with
    | .LGR =>
      .ok ((polyRoots (legSeries (List.replicate (numPoints - 1).toNat 0 ++ [1, 1]))).reverse.map fun t => -t)
    | .LG => .ok (polyRoots (legSeries (List.replicate numPoints.toNat 0 ++ [1])))
    | .LGL =>
      .ok ((-1 : ℝ) :: polyRoots (derivative (legSeries (List.replicate (numPoints - 1).toNat 0 ++ [1]))) ++ [1])

/-- `scipy.interpolate.lagrange(x, w)`: `sum_j w_j prod_{k ≠ j} (X - x_k) / (x_j - x_k)`, in scipy's order of
operations. Simplification: exact; scipy divides by zero (infinities) when two points coincide, the model by the
convention `1 / 0 = 0` — the properties only use distinct points. -/
noncomputable def scipyLagrange (x w : List ℝ) : ℝ[X] :=
  ((List.range x.length).map fun (j : Nat) =>
    ((List.range x.length).filter (· ≠ j)).foldl
      (fun (pt : ℝ[X]) (k : Nat) => pt * (C (1 / (x.getD j 0 - x.getD k 0)) * (X - C (x.getD k 0))))
      (C (w.getD j 0))).sum

/-- `make_lagrange_polynomial` (collocation.py:68-77). -/
noncomputable def makeLagrange (support : List ℝ) (index : Nat) : ℝ[X] :=
  scipyLagrange support ((List.replicate support.length 0).set index 1)

/-- `make_lagrange_basis` (collocation.py:80-83). -/
noncomputable def lagrangeBasis (support : List ℝ) : List ℝ[X] :=
  (List.range support.length).map (makeLagrange support)

/-- `Polynomial.integ()`: the antiderivative with zero constant term. -/
noncomputable def integ (p : ℝ[X]) : ℝ[X] := p.sum fun k a => monomial (k + 1) (a / ((k : ℝ) + 1))

/-- `np.array([row for p in ps]).T` where the row of `p` is `f p e` for the evaluation points `e`. -/
noncomputable def evalMatrix (ps : List ℝ[X]) (pts : List ℝ) (f : ℝ[X] → ℝ → ℝ) : List (List ℝ) :=
  pts.map fun e => ps.map fun p => f p e

/-- `build_lagrange_differential_matrix` (collocation.py:86-97). -/
noncomputable def diffMatrix (support pts : List ℝ) : List (List ℝ) :=
  evalMatrix ((lagrangeBasis support).map fun p => derivative p) pts fun p e => p.eval e

/-- `build_lagrange_integration_matrix` (collocation.py:100-113). -/
noncomputable def integMatrix (support pts : List ℝ) : List (List ℝ) :=
  evalMatrix ((lagrangeBasis support).map integ) pts fun p e => p.eval e - p.eval (support.getD 0 0)

/-! ## transcription.py -/

/-- The attributes set by `Collocation.__init__` (transcription.py:106-114). -/
structure Colloc where
  numStages : Nat
  collocationPoints : List ℝ
  interpPoints : List ℝ
  dMatrix : List (List ℝ)

/-- The transcription objects (classes ForwardEuler, Trapezoidal, LGR, LGRIntegral; transcription.py:65-180). -/
inductive Transcription
  | forwardEuler
  | trapezoidal
  | lgr (c : Colloc)
  | lgrIntegral (c : Colloc) (iMatrix : List (List ℝ))

/-- `Collocation.__init__` as run by `LGR` (transcription.py:106-114, 141-155): the points mapped to [0, 1], a 0
inserted in front, and the differentiation matrix. -/
noncomputable def mkColloc (numStages : Int) : Py Colloc := do
  let pts ← collocationPoints (numStages - 1) .LGR
  let col := pts.map fun t => (t + 1) / 2
  let interp := 0 :: col
  return ⟨numStages.toNat, col, interp, diffMatrix interp col⟩

/-- `LGR.__init__` (transcription.py:141-142). -/
noncomputable def mkLGR (numStages : Int) : Py Transcription := do
  let c ← mkColloc numStages
  return .lgr c

/-- `LGRIntegral.__init__` (transcription.py:161-169). -/
noncomputable def mkLGRIntegral (numStages : Int) : Py Transcription := do
  let c ← mkColloc numStages
  return .lgrIntegral c (integMatrix c.interpPoints c.collocationPoints)

/-- Calling a constructor `f(num_stages=3)` with keyword arguments: an unknown keyword is a TypeError.
Simplification: keyword values are integers. -/
def callNumStages {α : Type} (f : Int → Py α) (kwargs : List (String × Int)) : Py α :=
  if kwargs.all (fun (kv : String × Int) => kv.1 == "num_stages") then
    f ((kwargs.lookup "num_stages").getD 3)
  else .error .typeError

/-- Calling a constructor without parameters with keyword arguments. -/
def callPlain {α : Type} (a : α) (kwargs : List (String × Int)) : Py α :=
  if kwargs = [] then .ok a else .error .typeError

/-- `get_transcription_options` / keys of `TRANSCRIPTION_OPTIONS` (transcription.py:183-194). -/
def options : List String := ["ForwardEuler", "Trapezoidal", "LGR", "LGRIntegral"]

/-- `make_transcription` (transcription.py:197-220); `kwargs = None` is the empty dictionary. -/
noncomputable def makeTranscription (name : String) (kwargs : List (String × Int)) : Py Transcription :=
  if name = "ForwardEuler" then callPlain .forwardEuler kwargs
  else if name = "Trapezoidal" then callPlain .trapezoidal kwargs
  else if name = "LGR" then callNumStages mkLGR kwargs
  else if name = "LGRIntegral" then callNumStages mkLGRIntegral kwargs
  else .error .runtimeError

namespace Transcription

/-- `num_stages_per_interval` (transcription.py:68, 81, 107). -/
def stages : Transcription → Nat
  | forwardEuler => 2
  | trapezoidal => 2
  | lgr c => c.numStages
  | lgrIntegral c _ => c.numStages

/-- `num_constraints_per_interval` (transcription.py:69, 82, 116-118). -/
def numCons : Transcription → Nat
  | forwardEuler => 1
  | trapezoidal => 1
  | lgr c => c.collocationPoints.length
  | lgrIntegral c _ => c.collocationPoints.length

/-- `interp_points` of the collocation schemes; the others have no such attribute. -/
def interp : Transcription → Option (List ℝ)
  | forwardEuler => none
  | trapezoidal => none
  | lgr c => some c.interpPoints
  | lgrIntegral c _ => some c.interpPoints

end Transcription

/-- `scipy.sparse.diags(values, offsets, shape).toarray()` with scalar diagonals and offsets `≥ 0`. -/
noncomputable def diags (values : List ℝ) (offsets : List Nat) (r c : Nat) : List (List ℝ) :=
  (List.range r).map fun (i : Nat) => (List.range c).map fun (j : Nat) =>
    ((values.zip offsets).map fun (vo : ℝ × Nat) => if j = i + vo.2 then vo.1 else 0).sum

/-- `np.eye(n)`. -/
noncomputable def eye (n : Nat) : List (List ℝ) :=
  (List.range n).map fun (i : Nat) => (List.range n).map fun (j : Nat) => if i = j then 1 else 0

namespace Transcription

/-- `_get_A_matrix` (transcription.py:71-72, 84-85, 128-132, 171-177). -/
noncomputable def A (t : Transcription) : List (List ℝ) :=
  match t with
  | forwardEuler => diags [-1, 1] [0, 1] t.numCons t.stages
  | trapezoidal => diags [-1, 1] [0, 1] t.numCons t.stages
  | lgr c => c.dMatrix
  | lgrIntegral c _ => (eye (c.numStages - 1)).map fun row => -1 :: row

/-- `_get_B_matrix` (transcription.py:74-75, 87-88, 134-135, 179-180). -/
noncomputable def B (t : Transcription) : List (List ℝ) :=
  match t with
  | forwardEuler => diags [1] [0] t.numCons t.stages
  | trapezoidal => diags [0.5, 0.5] [0, 1] t.numCons t.stages
  | lgr _ => diags [1] [1] t.numCons t.stages
  | lgrIntegral _ i => i

end Transcription

/-- `M @ X` for a matrix and a two-dimensional array; ValueError when the inner dimensions differ. -/
noncomputable def matmul (M Y : List (List ℝ)) : Py (List (List ℝ)) :=
  if M.all (fun row => row.length == Y.length) then
    .ok (M.map fun row => (List.range (Y.getD 0 []).length).map fun (k : Nat) =>
      ((List.range Y.length).map fun (j : Nat) => row.getD j 0 * (Y.getD j []).getD k 0).sum)
  else .error .valueError

/-- `continuity_con` (transcription.py:48-54). Simplification: `x` and `x_dot` have equally many columns (no
broadcasting in the subtraction). -/
noncomputable def Transcription.continuityCon (t : Transcription) (x xdot : List (List ℝ)) (h : ℝ) :
    Py (List (List ℝ)) := do
  let a ← matmul t.A x
  let b ← matmul t.B xdot
  return List.zipWith (fun ra rb => List.zipWith (fun p q => p - q * h) ra rb) a b

end Lumos.Trans
