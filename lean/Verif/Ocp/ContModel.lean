import Verif.Conv.Props
import Verif.Base.Coord
import Verif.NLP.Model
import Verif.Ocp.Mesh
/-!
# Model of the continuity constraints of both OCP classes
(scaled_mesh_ocp.py:531-575, 591-597, 1044-1236; fixed_mesh_ocp.py:17-70; transcription.py:36-52)
-/

namespace Lumos.Ocp

open Lumos DecVar DecVar.Layout Conv

/-- The parts of an OCP that the continuity constraints use. `A`, `B` are the transcription's continuity
matrices (shape `(m-1) × m`, `m = L.nspi`, see C38); `normLen` is `_normalized_interval_length`; `fixedScale` is
`some s` for a `FixedMeshOCP` with mesh scale `s` and `none` for a `ScaledMeshOCP`. -/
structure OCP where
  L : Layout
  A : Nat → Nat → ℝ
  B : Nat → Nat → ℝ
  normLen : List ℝ
  fixedScale : Option ℝ

namespace OCP

/-- `self.model.num_states`: number of names in the model's states group. -/
def numStates (o : OCP) : Nat := o.L.size "states"

/-- All multi-indices of a shape, row-major. -/
def multiIndices : List Nat → List (List Nat)
  | [] => [[]]
  | n :: ns => (List.range n).flatMap fun (i : Nat) => (multiIndices ns).map (i :: ·)

/-- `np.ravel`. -/
def ravel {α : Type} (x : Nd α) : List α := (multiIndices x.shape).map x.get

/-- Entry of a 3-d array given as nested lists. -/
def at3 (t : List (List (List ℝ))) (i j k : Nat) : ℝ := ((t.getD i []).getD j []).getD k 0

/-- `_get_mesh_scale` (scaled_mesh_ocp.py:546-559; fixed_mesh_ocp.py:42-44). -/
def meshScale (o : OCP) (x : List ℝ) : Py ℝ :=
  match o.fixedScale with
  | some s => .ok s
  | none => do
    match ← o.L.getVar x "global" "mesh_scale" none with
    | .scalar a => return a
    | .array _ => .error .typeError

/-- `num_continuity_cons` (scaled_mesh_ocp.py:591-597), with `num_constraints_per_interval = m - 1` (C38). -/
def numContinuity (o : OCP) : Nat := o.numStates * (o.L.nspi - 1) * o.L.numIntervals

/-- `sum_j a j` over the stages of an interval (the contraction in `np.einsum` and `@`). -/
def sumStages (o : OCP) (f : Nat → ℝ) : ℝ := ((List.range o.L.nspi).map f).sum

/-- `_continuity_constraints` (scaled_mesh_ocp.py:1053-1067). The einsum `"ijk,lj->ilk"` contracts the stage
index `j`; `(states_dot.T * interval_length).T` multiplies slice `i` by `interval_length[i]`.
Simplification: `states` and `states_dot` have the same number of entries, as in every `StateSpaceModel`. -/
noncomputable def contConstraints (o : OCP) (x : List ℝ) : Py (List ℝ) := do
  let ms ← o.meshScale x
  let h := o.normLen.map (· * ms)
  let X ← intervalTensor o.L x "states"
  let Xd ← intervalTensor o.L x "states_dot"
  let con : Nd ℝ := ⟨[o.L.numIntervals, o.L.nspi - 1, o.numStates], fun idx =>
    let i := idx.getD 0 0
    let l := idx.getD 1 0
    let k := idx.getD 2 0
    o.sumStages (fun j => at3 X i j k * o.A l j) - o.sumStages (fun j => at3 Xd i j k * h.getD i 0 * o.B l j)⟩
  return ravel con

/-- `_continuity_jacobian` (scaled_mesh_ocp.py:1069-1117): `np.stack` of the matrices over intervals (axis 0)
and states (axis -1), and the mesh-scale column if the mesh is scaled. -/
noncomputable def contJacobian (o : OCP) (x : List ℝ) : Py (List ℝ) := do
  let ms ← o.meshScale x
  let h := o.normLen.map (· * ms)
  let m := o.L.nspi
  let shape := [o.L.numIntervals, m - 1, m, o.numStates]
  let av : Nd ℝ := ⟨shape, fun idx => o.A (idx.getD 1 0) (idx.getD 2 0)⟩
  let bv : Nd ℝ := ⟨shape, fun idx => -o.B (idx.getD 1 0) (idx.getD 2 0) * h.getD (idx.getD 0 0) 0⟩
  if "mesh_scale" ∈ o.L.globals then
    let Xd ← intervalTensor o.L x "states_dot"
    let mv : Nd ℝ := ⟨[o.L.numIntervals, m - 1, o.numStates], fun idx =>
      o.sumStages (fun j => -o.B (idx.getD 1 0) j * at3 Xd (idx.getD 0 0) j (idx.getD 2 0))
        * o.normLen.getD (idx.getD 0 0) 0⟩
    return ravel av ++ ravel bv ++ ravel mv
  else return ravel av ++ ravel bv

/-- Read an index query as a single integer position (`stage` given). -/
def scalarIdx : Idx → Py Int
  | .scalar i => .ok (i : Int)
  | .array _ => .error .typeError

/-- `self.model.get_group_names(g)[0]`: IndexError when the group is empty. -/
def firstName (o : OCP) (g : String) : Py String := do
  let ns ← o.L.getNames g
  match ns with
  | n :: _ => return n
  | [] => .error .indexError

/-- `_continuity_jacobianstructure` (scaled_mesh_ocp.py:1119-1186). Index arrays are `Int`-valued because the
offset between states and states_dot may be negative. -/
def contJacStructure (o : OCP) : Py (List Int × List Int) := do
  let L := o.L
  let m := L.nspi
  let s0 ← o.firstName "states"
  let i0 ← scalarIdx (← L.indexInDec "states" s0 (some 0))
  let d0 ← o.firstName "states_dot"
  let j0 ← scalarIdx (← L.indexInDec "states_dot" d0 (some 0))
  let off := j0 - i0
  let aRows : Nd Int := ⟨[m - 1, m], fun idx => (idx.getD 0 0 : Int) * o.numStates⟩
  let aCols : Nd Int := ⟨[m - 1, m], fun idx => i0 + (idx.getD 1 0 : Int) * L.numVarStage⟩
  let aRows ← stackAndIncrement aRows 0 L.numIntervals (((m : Int) - 1) * o.numStates)
  let aCols ← stackAndIncrement aCols 0 L.numIntervals ((L.numVarInterval : Int) - L.numVarStage)
  let aRows ← stackAndIncrement aRows (-1) o.numStates 1
  let aCols ← stackAndIncrement aCols (-1) o.numStates 1
  let bCols : Nd Int := ⟨aCols.shape, fun idx => aCols.get idx + off⟩
  if "mesh_scale" ∈ L.globals then
    let g ← scalarIdx (← L.indexInDec "global" "mesh_scale" none)
    -- A_rows[:, :, 0, :]
    let mRows : Nd Int := ⟨aRows.shape.eraseIdx 2, fun idx => aRows.get (idx.insertIdx 2 0)⟩
    let mCols : Nd Int := ⟨mRows.shape, fun _ => g * 1⟩
    return (ravel aRows ++ ravel aRows ++ ravel mRows, ravel aCols ++ ravel bCols ++ ravel mCols)
  else return (ravel aRows ++ ravel aRows, ravel aCols ++ ravel bCols)

/-- `_continuity_hessian` (scaled_mesh_ocp.py:1188-1213). The reshape raises ValueError on a wrong number of
multipliers. The einsum `"ijk,jl->ilk"` contracts the equation index. The array is read raveled, as the
composite problem does (nlp.py:787). -/
noncomputable def contHessian (o : OCP) (_x lagrange : List ℝ) : Py (List ℝ) :=
  let m := o.L.nspi
  if lagrange.length ≠ o.L.numIntervals * (m - 1) * o.numStates then .error .valueError
  else
    let lag := fun (i l k : Nat) => lagrange.getD ((i * (m - 1) + l) * o.numStates + k) 0 * o.normLen.getD i 0
    .ok (ravel (⟨[o.L.numIntervals, m, o.numStates], fun idx =>
      ((List.range (m - 1)).map fun (l : Nat) =>
        lag (idx.getD 0 0) l (idx.getD 2 0) * (-o.B l (idx.getD 1 0))).sum⟩ : Nd ℝ))

/-- `_continuity_hessianstructure` (scaled_mesh_ocp.py:1215-1236), raveled. -/
def contHessStructure (o : OCP) : Py (List Int × List Int) := do
  let L := o.L
  let base ← L.groupIndicesAtStage "states_dot" 0
  let rows : Nd Int := ⟨[L.numIntervals, L.nspi, base.length], fun idx =>
    (base.getD (idx.getD 2 0) 0 : Int) + (idx.getD 1 0 : Int) * L.numVarStage
      + (idx.getD 0 0 : Int) * ((L.numVarInterval : Int) - L.numVarStage)⟩
  let g ← scalarIdx (← L.indexInDec "global" "mesh_scale" none)
  let cols : Nd Int := ⟨rows.shape, fun _ => 1 * g⟩
  return (ravel rows, ravel cols)

/-- `_time_objective` and `_time_gradient` of the scaled mesh (scaled_mesh_ocp.py:1044-1051); reading the
mesh scale through `unflatten_var`. -/
noncomputable def timeObjective (o : OCP) (x : List ℝ) : Py ℝ := do
  let v ← o.L.unflattenVar x
  match v.glob.lookup "mesh_scale" with
  | some a => return a
  | none => .error .attributeError

/-- See `timeObjective`. -/
noncomputable def timeGradient (o : OCP) (x : List ℝ) : Py (List ℝ) := do
  let i ← scalarIdx (← o.L.indexInDec "global" "mesh_scale" none)
  return (x.map fun _ => (0 : ℝ)).set i.toNat 1

/-- `_time_objective` of the fixed mesh (fixed_mesh_ocp.py:50-59). -/
noncomputable def fixedTimeObjective (o : OCP) (x : List ℝ) : Py ℝ := do
  let e ← scalarIdx (← o.L.indexInDec "states" "time" (some (-1)))
  let s ← scalarIdx (← o.L.indexInDec "states" "time" (some 0))
  let a ← getAt x e.toNat
  let b ← getAt x s.toNat
  return a - b

/-- `_time_gradient` of the fixed mesh (fixed_mesh_ocp.py:61-73). -/
noncomputable def fixedTimeGradient (o : OCP) (x : List ℝ) : Py (List ℝ) := do
  let e ← scalarIdx (← o.L.indexInDec "states" "time" (some (-1)))
  let s ← scalarIdx (← o.L.indexInDec "states" "time" (some 0))
  return ((x.map fun _ => (0 : ℝ)).set e.toNat 1).set s.toNat (-1)

end OCP

end Lumos.Ocp
