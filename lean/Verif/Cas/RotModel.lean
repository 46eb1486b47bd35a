import Verif.Base.Py
import Mathlib.Analysis.Real.Sqrt
import Mathlib.Analysis.Complex.Trigonometric
import Mathlib.LinearAlgebra.Matrix.Notation
import Mathlib.LinearAlgebra.CrossProduct
/-!
# Rotation matrices

Models `lumos/numpy/casadi_numpy/rotations.py` (numbers, exact; one angle).
-/

namespace Lumos.Cas

open Lumos Matrix

/-- `rotation_matrix_2D(angle)` (rotations.py:6-18). -/
noncomputable def rotationMatrix2D (angle : ℝ) : Matrix (Fin 2) (Fin 2) ℝ :=
  let sintheta := Real.sin angle
  let costheta := Real.cos angle
  !![costheta, -sintheta; sintheta, costheta]

/-- `linalg.norm(axis)` of a vector with three entries (linalg.py:52-96: `ord` is 2). -/
noncomputable def norm3 (a : Fin 3 → ℝ) : ℝ := Real.sqrt (a 0 ^ 2 + a 1 ^ 2 + a 2 ^ 2)

/-- `linalg.outer(x, y)` (linalg.py:20-33). -/
def outer3 (x y : Fin 3 → ℝ) : Matrix (Fin 3) (Fin 3) ℝ := fun i j => x i * y j

/-- The end of `rotation_matrix_3D` (rotations.py:36-44). -/
noncomputable def rodrigues (angle : ℝ) (axis : Fin 3 → ℝ) : Matrix (Fin 3) (Fin 3) ℝ :=
  let sintheta := Real.sin angle
  let costheta := Real.cos angle
  let cpm : Matrix (Fin 3) (Fin 3) ℝ := !![0, -axis 2, axis 1; axis 2, 0, -axis 0; -axis 1, axis 0, 0]
  let outer_axis := outer3 axis axis
  costheta • 1 + sintheta • cpm + (1 - costheta) • outer_axis

/-- `rotation_matrix_3D(angle, axis, _axis_already_normalized)` (rotations.py:21-44). A zero axis that must be normalized divides zero by
zero: `ZeroDivisionError` (simplification: numpy and casadi go on with NaN). -/
noncomputable def rotationMatrix3D (angle : ℝ) (axis : Fin 3 → ℝ) (alreadyNormalized : Bool) : Py (Matrix (Fin 3) (Fin 3) ℝ) :=
  if alreadyNormalized then .ok (rodrigues angle axis)
  else if norm3 axis = 0 then .error .zeroDivisionError
  else .ok (rodrigues angle (fun i => axis i / norm3 axis))

end Lumos.Cas
