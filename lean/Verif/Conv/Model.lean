import Verif.DecVar.Props
/-!
# Model of `batch_conv1d`, `get_interval_tensor`, `create_offset_structure`, `stack_and_increment`
(lumos/optimal_control/utils.py:13-38, 155-167, 302-338)
-/

namespace Lumos.Conv

open Lumos

/-- `batch_conv1d(x, width, stride)` (utils.py:13-38). The element type `α` is a scalar for a 1-d array and
a row for a 2-d array (`unit_shape`).
Domain: `width ≤ len(x)`. For `width > len(x)` Python works with a non-positive batch count; that is outside
the model (every caller passes `width ≤ len(x)` once there is at least one interval). The `use_backend`
context has no effect on the values and is modelled in `Verif.Backend`. -/
def batchConv1d {α : Type} (x : List α) (width stride : Nat) : Py (List (List α)) :=
  if stride = 0 then .error .zeroDivisionError          -- `% stride` on Python ints
  else if (x.length - width) % stride ≠ 0 then .error .valueError
  else
    let batch := (x.length - width) / stride + 1
    let cut := x.length + stride - width                 -- length - overlap, overlap = width - stride
    let a := x.take cut                                  -- a, b = split(x, [length - overlap])
    let b := x.drop cut
    if a.length ≠ batch * stride then .error .valueError -- reshape(a, (batch, stride, ...))
    else
      let a2 := Np.reshapeRows batch stride a
      let top := (a2.drop 1).map (·.take (width - stride)) -- a[1:, :overlap]
      if min stride (width - stride) ≠ b.length then .error .valueError -- vstack column mismatch
      else .ok (List.zipWith (· ++ ·) a2 (top ++ [b]))   -- concatenate([a, overlapped], axis=1)

/-- `get_interval_tensor(x, group_name)` (utils.py:155-167). A missing field of the namedtuple raises
AttributeError; a global has an empty shape, so unpacking `length, *unit_shape` raises ValueError. -/
def intervalTensor {α : Type} (L : DecVar.Layout) (x : List α) (group : String) :
    Py (List (List (List α))) := do
  let v ← L.unflattenVar x
  match v.stage.lookup group with
  | some m => batchConv1d m L.nspi (L.nspi - 1)
  | none => if group ∈ L.globals then .error .valueError else .error .attributeError

/-- `create_offset_structure` (utils.py:302-319). `np.hstack([])` raises ValueError. -/
def createOffsetStructure (baseRows baseCols : List Nat) (rowOffset colOffset numBlocks : Nat) :
    Py (List Nat × List Nat) :=
  if numBlocks = 0 then .error .valueError
  else .ok ((List.range numBlocks).flatMap (fun k => baseRows.map (· + k * rowOffset)),
            (List.range numBlocks).flatMap (fun k => baseCols.map (· + k * colOffset)))

/-- An n-d NumPy array: its shape and its entries by multi-index. -/
structure Nd (α : Type) where
  shape : List Nat
  get : List Nat → α

/-- `np.stack([x] * n, axis)` with `axis` already normalised: index `axis` of the result selects the copy. -/
def stackCopies {α : Type} (x : Nd α) (n axis : Nat) : Nd α :=
  ⟨x.shape.insertIdx axis n, fun idx => x.get (idx.eraseIdx axis)⟩

/-- `np.arange(n).reshape(shape_for_broadcast) * inc`, broadcast to the stacked shape (utils.py:334-337). -/
def incrementAlong (shape : List Nat) (axis : Nat) (inc : Int) : Nd Int :=
  ⟨shape, fun idx => ((idx.getD axis 0 : Nat) : Int) * inc⟩

/-- `stack_and_increment(x, axis, num_repeat, num_increment)` (utils.py:322-338): `np.stack` of no arrays
raises ValueError and an axis outside `[-ndim-1, ndim]` raises AxisError (a ValueError). -/
def stackAndIncrement (x : Nd Int) (axis : Int) (numRepeat : Nat) (numIncrement : Int) : Py (Nd Int) :=
  if numRepeat = 0 then .error .valueError
  else if axis < -((x.shape.length : Int) + 1) ∨ (x.shape.length : Int) < axis then .error .valueError
  else
    let ax := (axis % ((x.shape.length : Int) + 1)).toNat
    let stacked := stackCopies x numRepeat ax
    let incr := incrementAlong stacked.shape ax numIncrement
    .ok ⟨stacked.shape, fun idx => stacked.get idx + incr.get idx⟩

end Lumos.Conv
