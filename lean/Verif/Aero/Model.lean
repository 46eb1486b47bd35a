import Verif.Veh.Model
import Mathlib.Algebra.BigOperators.Fin
import Mathlib.Analysis.Complex.Trigonometric
/-!
# The data-driven aerodynamic models

Models `lumos/models/ml.py` and `GPAero`, `MLPAero` of `lumos/models/aero/aero.py` (numpy backend).
-/

namespace Lumos.Aero

open Lumos Io Veh

/-- A matrix (numpy array with two dimensions): the number of columns and the rows. -/
structure Mat where
  cols : Nat
  rows : List (Fin cols → ℝ)

/-- `m @ v`: ValueError unless the sizes fit. -/
noncomputable def Mat.mul (m : Mat) (v : List ℝ) : Py (List ℝ) :=
  if v.length = m.cols then .ok (m.rows.map fun r => ((List.ofFn r).zipWith (· * ·) v).sum) else .error .valueError

/-- The difference of a row and a vector, with the broadcasting of numpy. -/
def rowSub {n : Nat} (p : Fin n → ℝ) (x : List ℝ) : List ℝ :=
  if n = x.length then (List.ofFn p).zipWith (· - ·) x
  else if n = 1 then x.map fun b => (List.ofFn p).sum - b
  else (List.ofFn p).map fun a => a - x.sum

/-- `rbf_kernel(points, vector_tile(x, len(points)))` (ml.py:6-11, numpy/utils.py:81-93): the points have one row each, `x` is repeated. The
shapes must be equal, or one of the two have one column (broadcasting), otherwise ValueError. -/
noncomputable def kernel (points : Mat) (x : List ℝ) : Py (List ℝ) :=
  if points.cols = x.length ∨ points.cols = 1 ∨ x.length = 1 then
    .ok (points.rows.map fun p => Real.exp (-((rowSub p x).map fun d => d ^ 2).sum))
  else .error .valueError

/-- `gp(x, gp_points, alpha)` (ml.py:22-29). -/
noncomputable def gp (x : List ℝ) (points alpha : Mat) : Py (List ℝ) := (kernel points x).bind alpha.mul

/-- A value in the dictionary of parameters: a number or a matrix (aero.py:103-105). -/
inductive Val where
  | num (x : ℝ)
  | mat (m : Mat)

/-- `w @ y`: ValueError for a number. -/
noncomputable def Val.mul : Val → List ℝ → Py (List ℝ)
  | .num _, _ => .error .valueError
  | .mat m, v => m.mul v

/-- `mlp(x, weights)` (ml.py:32-39). -/
noncomputable def mlp (x : List ℝ) : List Val → Py (List ℝ)
  | [] => .ok x
  | w :: ws => (w.mul x).bind fun y => mlp (y.map Real.tanh) ws

/-- The inputs and outputs of `AeroModel` (aero.py:7-9). -/
def aeroNames : Names where
  stateSpace := false
  states := []
  inputs := ["front_ride_height", "rear_ride_height", "yaw"]
  outputs := ["Cx", "Cy", "Cz"]
  conOutputs := []
  residuals := []

/-- `{n: coeff[idx] for idx, n in enumerate(self.names.outputs)}` (aero.py:53-55, 118-120): IndexError when there are too few. Further
coefficients are ignored. -/
def coefDict (coeff : List ℝ) : List String → Nat → Py (Dict ℝ)
  | [], _ => .ok []
  | n :: ns, i => match coeff[i]? with
    | some c => (coefDict coeff ns (i + 1)).bind fun d => .ok ((n, c) :: d)
    | none => .error .indexError

/-- The end of both `forward`s (aero.py:53-57, 118-121). -/
def finish (coeff : List ℝ) : Py (Ret ℝ) :=
  (coefDict coeff aeroNames.outputs 0).bind fun d => (aeroNames.makeDict "outputs" d).bind fun o => .ok { outputs := o }

/-- `GPAero.forward` (aero.py:49-57). -/
noncomputable def gpAero (points alpha : Mat) : Cls ℝ where
  direct := aeroNames
  forward kw := body do
    let inputs ← arg kw.inputs
    let x ← lift (aeroNames.makeVector "inputs" inputs)
    let coeff ← lift (gp x points alpha)
    lift (finish coeff)

/-- `_list_to_dict` (aero.py:66-68). -/
def listToDict (weights : List Val) : Dict Val :=
  (weights.zipIdx.map fun w => ("weights_layer_" ++ toString w.2, w.1)).foldl (fun (d : Dict Val) (kv : String × Val) => d.set kv.1 kv.2) []

/-- `k.startswith(cls.weights_prefix)` (aero.py:64, 74). -/
def isLayer (k : String) : Bool := "weights_layer".toList.isPrefixOf k.toList

/-- `_dict_to_list` (aero.py:70-74): the values of the keys that start with `weights_layer`, in the order of the dictionary. -/
def dictToList (params : Dict Val) : List Val :=
  (params.filter fun kv => isLayer kv.1).map Prod.snd

/-- `MLPAero.forward` (aero.py:107-121). -/
noncomputable def mlpAero (params : Dict Val) : Cls ℝ where
  direct := aeroNames
  forward kw := body do
    let inputs ← arg kw.inputs
    let x ← lift (aeroNames.makeVector "inputs" inputs)
    let coeff ← lift (mlp x (dictToList params))
    lift (finish coeff)

/-- The shapes of the weights of `MLPAero.get_default_params` (aero.py:81-93), for a class with `layers` hidden layers of size `dim` and three inputs and
outputs: rows and columns of each matrix; IndexError (`layers_dim[-1]`) without hidden layer. -/
def defaultShapes (layers dim : Nat) : Py (List (Nat × Nat)) :=
  let layersDim := List.replicate layers dim
  let ins := 3 :: layersDim.dropLast
  let hidden := List.zipWith (fun i o => (o, i)) ins layersDim
  match layersDim.getLast? with
  | some l => .ok (hidden ++ [(3, l)])
  | none => .error .indexError

/-- The parameters of `MLPAero` with the given weights (aero.py:95-99). -/
noncomputable def mlpParams (weights : List Val) : Dict Val := Dict.update [("air_density", .num 1.225)] (listToDict weights)

end Lumos.Aero
