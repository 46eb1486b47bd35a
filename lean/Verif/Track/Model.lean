import Verif.Base.Py
import Mathlib.Analysis.SpecialFunctions.Complex.Arg
import Mathlib.Analysis.SpecialFunctions.Pow.Real
import Mathlib.Algebra.BigOperators.Group.Finset.Basic
import Mathlib.Data.Nat.Find
/-!
# Model of the tracks (lumos/models/tracks.py)

Arrays are lists; the element-wise formulas are written on the index (`l.at i` is `l[i]`). Simplifications: floating point is the
reals, and a division by zero gives 0 (in NumPy a warning and a NaN or infinity); the log lines are left out; `from_tum_csv` is
`from_cartesian` of the columns of the file (reading the file is not modelled).
-/

namespace Lumos.Track

open Lumos

/-- `l[i]` (only read inside the bounds). -/
def at_ (l : List ℝ) (i : ℕ) : ℝ := l.getD i 0

/-- The array of `n` elements given by a formula on the index. -/
def arr (n : ℕ) (f : ℕ → ℝ) : List ℝ := (List.range n).map f

/-- `np.diff(x)[i]`. -/
def diff (x : ℕ → ℝ) (i : ℕ) : ℝ := x (i + 1) - x i

/-- `np.cumsum(np.insert(d, 0, 0.0))[i]`. -/
noncomputable def cumsum0 (d : ℕ → ℝ) (i : ℕ) : ℝ := ∑ k ∈ Finset.range i, d k

/-- `_trapz(y, x)` (tracks.py:34-37). -/
noncomputable def trapz (y x : ℕ → ℝ) : ℕ → ℝ := cumsum0 fun k => (y k + y (k + 1)) / 2 * diff x k

/-- `np.gradient(f, s)` of arrays of `n` elements: second order inside, one-sided at the ends. -/
noncomputable def gradient (n : ℕ) (f s : ℕ → ℝ) (i : ℕ) : ℝ :=
  if i = 0 then (f 1 - f 0) / (s 1 - s 0)
  else if i = n - 1 then (f (n - 1) - f (n - 2)) / (s (n - 1) - s (n - 2))
  else
    let dx1 := s i - s (i - 1)
    let dx2 := s (i + 1) - s i
    (-dx2) / (dx1 * (dx1 + dx2)) * f (i - 1) + (dx2 - dx1) / (dx1 * dx2) * f i + dx1 / (dx2 * (dx1 + dx2)) * f (i + 1)

/-- `np.arctan2(y, x)`. -/
noncomputable def arctan2 (y x : ℝ) : ℝ := Complex.arg ⟨x, y⟩

/-- `s` of `cartesian_to_curvilinear` (tracks.py:41-42). -/
noncomputable def arcLength (x y : ℕ → ℝ) : ℕ → ℝ := cumsum0 fun k => Real.sqrt (diff x k ^ 2 + diff y k ^ 2)

/-- `curvature` of `cartesian_to_curvilinear` from `s` (tracks.py:44-53). -/
noncomputable def curvatureOf (n : ℕ) (x y s : ℕ → ℝ) (i : ℕ) : ℝ :=
  let dx := gradient n x s
  let dy := gradient n y s
  let d2x := gradient n dx s
  let d2y := gradient n dy s
  (dx i * d2y i - d2x i * dy i) / (dx i * dx i + dy i * dy i) ^ (1.5 : ℝ)

/-- `heading` of `cartesian_to_curvilinear` from `s` and the curvature (tracks.py:55-56). -/
noncomputable def headingOf (n : ℕ) (x y s curvature : ℕ → ℝ) (i : ℕ) : ℝ :=
  trapz curvature s i + arctan2 (gradient n y s 0) (gradient n x s 0)

/-- What `cartesian_to_curvilinear` returns. -/
structure Curvilinear where
  s : List ℝ
  curvature : List ℝ
  heading : List ℝ

/-- `cartesian_to_curvilinear` (tracks.py:40-57). Arrays of different lengths are a ValueError of `np.gradient` (or already of the
sum of the squares), as are arrays of fewer than two points. -/
noncomputable def cartesianToCurvilinear (x y : List ℝ) : Py Curvilinear :=
  if x.length ≠ y.length then .error .valueError
  else if x.length < 2 then .error .valueError
  else
    let n := x.length
    let s := arcLength (at_ x) (at_ y)
    let curvature := curvatureOf n (at_ x) (at_ y) s
    .ok { s := arr n s, curvature := arr n curvature, heading := arr n (headingOf n (at_ x) (at_ y) s curvature) }

/-- What `curvilinear_to_cartesian` returns. -/
structure Cartesian where
  x : List ℝ
  y : List ℝ
  heading : List ℝ

/-- `curvilinear_to_cartesian` (tracks.py:60-67). Arrays of different lengths are a ValueError when they are multiplied (an array of
two elements broadcasts its single difference; left out). Arrays without elements give arrays of one. -/
noncomputable def curvilinearToCartesian (s curvature : List ℝ) (x0 y0 heading0 : ℝ) : Py Cartesian :=
  if s.length ≠ curvature.length then .error .valueError
  else
    let n := max s.length 1
    let heading := fun i => trapz (at_ curvature) (at_ s) i + heading0
    .ok { x := arr n fun i => trapz (fun k => Real.cos (heading k)) (at_ s) i + x0
          y := arr n fun i => trapz (fun k => Real.sin (heading k)) (at_ s) i + y0
          heading := arr n heading }

/-- `self._track_data` of a `RaceTrack` (tracks.py:98-109). -/
structure RaceTrack where
  s : List ℝ
  curvature : List ℝ
  heading : List ℝ
  x : List ℝ
  y : List ℝ
  left_distance : List ℝ
  right_distance : List ℝ

/-- Two arrays can be multiplied element by element (the same length, or one of them has one element). -/
def Broadcast (a b : List ℝ) : Prop := a.length = b.length ∨ a.length = 1 ∨ b.length = 1

instance (a b : List ℝ) : Decidable (Broadcast a b) := inferInstanceAs (Decidable (_ ∨ _ ∨ _))

/-- `RaceTrack.__init__` (tracks.py:70-109). -/
noncomputable def RaceTrack.mk' (x y s curvature heading : List ℝ) (left_distance right_distance : Option (List ℝ)) : Py RaceTrack :=
  let left := left_distance.getD (s.map fun _ => 1 * 5)
  let right := right_distance.getD (s.map fun _ => 1 * 5)
  if ¬Broadcast curvature left then .error .valueError
  else if ¬Broadcast curvature right then .error .valueError
  else if s.length = 0 then .error .indexError
  else .ok { s := s.map fun v => v - at_ s 0, curvature := curvature, heading := heading, x := x, y := y,
             left_distance := left, right_distance := right }

/-- `RaceTrack.from_cartesian` (tracks.py:112-123). -/
noncomputable def RaceTrack.fromCartesian (x y : List ℝ) (left_distance right_distance : Option (List ℝ)) : Py RaceTrack := do
  let c ← cartesianToCurvilinear x y
  RaceTrack.mk' x y c.s c.curvature c.heading left_distance right_distance

/-- `RaceTrack.from_curvilinear` (tracks.py:125-138). -/
noncomputable def RaceTrack.fromCurvilinear (s curvature : List ℝ) (heading0 : ℝ) (left_distance right_distance : Option (List ℝ)) :
    Py RaceTrack := do
  let c ← curvilinearToCartesian s curvature 0 0 heading0
  RaceTrack.mk' c.x c.y s curvature c.heading left_distance right_distance

/-- `np.interp(v, xp, fp)` for `xp` in order: clamped outside; inside, linear on the segment that starts at the last `xp[j] ≤ v`. -/
noncomputable def interp (xp fp : List ℝ) (v : ℝ) : Py ℝ :=
  if xp.length ≠ fp.length ∨ xp.length = 0 then .error .valueError
  else if v < at_ xp 0 then .ok (at_ fp 0)
  else
    open Classical in
    let j := Nat.findGreatest (fun j => at_ xp j ≤ v) (xp.length - 1)
    if j = xp.length - 1 then .ok (at_ fp j)
    else .ok ((at_ fp (j + 1) - at_ fp j) / (at_ xp (j + 1) - at_ xp j) * (v - at_ xp j) + at_ fp j)

namespace RaceTrack

/-- `curvature_at` (tracks.py:153-155). -/
noncomputable def curvatureAt (t : RaceTrack) (s : ℝ) : Py ℝ := interp t.s t.curvature s

/-- `heading_at` (tracks.py:157-159). -/
noncomputable def headingAt (t : RaceTrack) (s : ℝ) : Py ℝ := interp t.s t.heading s

/-- `left_distance_at` (tracks.py:161-163). -/
noncomputable def leftDistanceAt (t : RaceTrack) (s : ℝ) : Py ℝ := interp t.s t.left_distance s

/-- `right_distance_at` (tracks.py:165-167). -/
noncomputable def rightDistanceAt (t : RaceTrack) (s : ℝ) : Py ℝ := interp t.s t.right_distance s

/-- `total_distance` (tracks.py:169-171). -/
def totalDistance (t : RaceTrack) : ℝ := at_ t.s (t.s.length - 1)

end RaceTrack

/-- `ConstCurvTrack` (tracks.py:174-183). -/
structure ConstCurvTrack where
  curvature : ℝ
  start_heading : ℝ
  half_width : ℝ

namespace ConstCurvTrack

/-- `heading_at` (tracks.py:185-194). -/
def headingAt (t : ConstCurvTrack) (s : ℝ) : ℝ := t.start_heading + t.curvature * s

/-- `curvature_at` (tracks.py:196-197). -/
def curvatureAt (t : ConstCurvTrack) (_s : ℝ) : ℝ := t.curvature

/-- `left_distance_at`, inherited: `Track` is not an abstract base class, so the body `pass` runs and returns None
(tracks.py:22-25). -/
def leftDistanceAt (_t : ConstCurvTrack) (_s : ℝ) : Option ℝ := none

/-- `right_distance_at`, inherited (tracks.py:27-30). -/
def rightDistanceAt (_t : ConstCurvTrack) (_s : ℝ) : Option ℝ := none

/-- `half_width_at` (tracks.py:199-201). -/
def halfWidthAt (t : ConstCurvTrack) (_s : ℝ) : ℝ := t.half_width

end ConstCurvTrack

end Lumos.Track
