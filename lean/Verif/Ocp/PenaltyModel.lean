import Verif.Ocp.ContModel
/-!
# Model of the inputs penalty of the laptime simulation (laptime_simulation.py:201-271)
-/

namespace Lumos.Ocp

open Lumos DecVar DecVar.Layout Conv

/-- The default argument `weights={"steer": 1.0}` of the three methods (laptime_simulation.py:236, 243, 253). -/
def defaultWeights : List (String × ℝ) := [("steer", 1)]

/-- The loop of `_expand_weights` (laptime_simulation.py:227-228). -/
def weightStep (L : Layout) (vec : List ℝ) (w : String × ℝ) : Py (List ℝ) := do
  let i ← L.indexInGroup "inputs" w.1
  return vec.set i w.2

/-- `_expand_weights` (laptime_simulation.py:225-231): a vector of the inputs' weights, the same for every stage. -/
def expandWeights (L : Layout) (weights : List (String × ℝ)) : Py (List (List ℝ)) := do
  let vec ← weights.foldlM (weightStep L) (List.replicate (L.size "inputs") 0)
  return List.replicate L.numStages vec

/-- Element by element product of two matrices of the same shape. -/
def mul2 (a b : List (List ℝ)) : List (List ℝ) := List.zipWith (List.zipWith (· * ·)) a b

/-- The same formula in every element. -/
def map2 (f : ℝ → ℝ) (a : List (List ℝ)) : List (List ℝ) := a.map fun r => r.map f

/-- `structured_vars.inputs`. -/
def inputsOf (v : Vars ℝ) : Py (List (List ℝ)) :=
  match v.stage.lookup "inputs" with
  | some m => .ok m
  | none => .error .attributeError

/-- `_inputs_penalty` (laptime_simulation.py:236-241). -/
noncomputable def inputsPenalty (L : Layout) (weights : List (String × ℝ)) (x : List ℝ) : Py ℝ := do
  let w ← expandWeights L weights
  let v ← L.unflattenVar x
  let u ← inputsOf v
  return (mul2 (map2 (· ^ 2) u) w).flatten.sum / L.numStages

/-- `d[k] = v` for a key of the dictionary. -/
def setKey (d : List (String × List (List ℝ))) (k : String) (v : List (List ℝ)) : List (String × List (List ℝ)) :=
  d.map fun p => if p.1 = k then (p.1, v) else p

/-- `_inputs_penalty_grad` (laptime_simulation.py:243-251). -/
noncomputable def inputsPenaltyGrad (L : Layout) (weights : List (String × ℝ)) (x : List ℝ) : Py (List ℝ) := do
  let w ← expandWeights L weights
  let v ← L.unflattenVar x
  let u ← inputsOf v
  let grad := map2 (· / (L.numStages : ℝ)) (map2 (2 * ·) (mul2 u w))
  L.flattenVar ⟨setKey (v.stage.map fun p => (p.1, map2 (· * 0) p.2)) "inputs" grad, v.glob.map fun p => (p.1, p.2 * 0)⟩

/-- `_inputs_penalty_hessian` (laptime_simulation.py:253-257). -/
noncomputable def inputsPenaltyHessian (L : Layout) (weights : List (String × ℝ)) (_x : List ℝ) : Py (List ℝ) := do
  let w ← expandWeights L weights
  return (map2 (· / (L.numStages : ℝ)) (map2 (2 * ·) w)).flatten

/-- `_inputs_penalty_hessian_structure` (laptime_simulation.py:259-271). -/
def inputsPenaltyStructure (L : Layout) : Py (List Nat × List Nat) := do
  let base ← L.groupIndicesAtStage "inputs" 0
  createOffsetStructure base base L.numVarStage L.numVarStage L.numStages

end Lumos.Ocp
