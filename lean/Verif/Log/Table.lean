import Verif.Log.Model
import Verif.Ocp.BuildMore
/-!
# Model of the table of an iteration (lumos/optimal_control/scaled_mesh_ocp.py:901-995)
-/

namespace Lumos.Log

open Lumos DecVar DecVar.Layout NLP Ocp OCP

/-- The outputs of the model, which the OCP itself does not need: their names and their values from states, inputs and mesh. -/
structure Outputs where
  names : List String
  out : List ℝ → List ℝ → ℝ → List ℝ

/-- `np.reshape(a, (n, w))`: ValueError when the sizes do not match. -/
def reshape2 (n w : Nat) (a : List ℝ) : Py (List (List ℝ)) :=
  if a.length = n * w then .ok (Np.reshapeRows n w a) else .error .valueError

/-- `pd.DataFrame(data, columns)`: ValueError when a row has another number of columns. -/
def frame (columns : List String) (data : List (List ℝ)) : Py (List (List (String × ℝ))) :=
  if ∀ r ∈ data, r.length = columns.length then .ok (data.map fun r => columns.zip r) else .error .valueError

/-- `d[name]` on the split constraints. -/
def part (d : List (String × List ℝ)) (name : String) : Py (List ℝ) := getKey d name

/-- `model.batched_forward(states, inputs, mesh, params).outputs` (base.py:621-628), the mesh being that of the unscaled decision
variables. Simplification: the three arrays have `n` rows. -/
noncomputable def batchedOutputs (O : Outputs) (n : Nat) (states inputs : List (List ℝ)) (mesh : List ℝ) : List (List ℝ) :=
  (List.range n).map fun s => O.out (states.getD s []) (inputs.getD s []) (mesh.getD s 0)

/-- The constraints of the intervals and of the stages, and the columns of the latter (scaled_mesh_ocp.py:913-944). -/
noncomputable def splitCons (S : Setup) (cons : List (String × List ℝ)) : Py (List ℝ × List (List ℝ) × List String) := do
  let L := S.c.o.L
  let M := S.c.M
  if S.isCondensed then do
    let c ← part cons "model_algebra"
    let stage ← reshape2 L.numStages (M.numRes - L.size "states") (c.drop ((L.numStages - 1) * L.size "states"))
    let y ← L.getNames "con_outputs"
    return (c.take ((L.numStages - 1) * L.size "states"), stage, (y ++ M.residuals).map ("stage_con." ++ ·))
  else do
    let interval ← part cons "continuity"
    let a ← part cons "model_algebra"
    let stage ← reshape2 L.numStages M.numRes a
    let d ← L.getNames "states_dot"
    let y ← L.getNames "con_outputs"
    return (interval, stage, (d ++ (y ++ M.residuals)).map ("stage_con." ++ ·))

/-- The columns of the cyclic constraints (scaled_mesh_ocp.py:978-986), none if the problem is not cyclic. -/
noncomputable def cyclicFrame (S : Setup) (cons : List (String × List ℝ)) : Py (List (List (String × ℝ))) := do
  let L := S.c.o.L
  if S.isCyclic then do
    let states ← L.getNames "states"
    let inputs ← L.getNames "inputs"
    let vars ← buildCyclicVars states inputs S.nonCyclic
    let c ← part cons "cyclic"
    frame (vars.map ("cyclic_con." ++ ·)) (List.replicate (L.numStages - 1) (List.replicate vars.length 0) ++ [c])
  else return List.replicate L.numStages []

/-- `_create_result_df` (scaled_mesh_ocp.py:901-995) of the problem `p` built from `S`, at the scaled decision variables `z`.
Simplification: `pd.concat(axis=1)` of frames with the same number of rows. The last column but one is the mesh of the *scaled*
decision variables (line 990). -/
noncomputable def createTable (S : Setup) (p : Prob) (O : Outputs) (z : List ℝ) (iter : Option Nat) : Py (List Row) := do
  let L := S.c.o.L
  let x := vmul z p.scales
  let v ← L.unflattenVar x
  let states ← CondOCP.field v "states"
  let inputs ← CondOCP.field v "inputs"
  let ms ← S.c.o.meshScale x
  let outputs := batchedOutputs O L.numStages states inputs (S.c.mesh.map (· * ms))
  let cons ← p.constraints z
  let cons := p.splitConstraints cons
  let (interval, stage, stageCols) ← splitCons S cons
  let stageF ← frame stageCols stage
  let names ← L.getNames "states"
  let interval ← reshape2 (L.numStages - 1) (L.size "states") interval
  let intervalF ← frame (names.map ("interval_con." ++ ·)) (List.replicate (L.size "states") 0 :: interval)
  let decs ← L.stageVarArray x
  let decF ← frame L.stageVarNames decs
  let outF ← frame (O.names.map ("outputs." ++ ·)) outputs
  let cycF ← cyclicFrame S cons
  let msz ← S.c.o.meshScale z
  return (List.range L.numStages).map fun s =>
    ⟨iter, S.c.mesh.getD s 0 * msz,
      decF.getD s [] ++ (outF.getD s [] ++ (intervalF.getD s [] ++ (stageF.getD s [] ++ cycF.getD s [])))⟩

end Lumos.Log
