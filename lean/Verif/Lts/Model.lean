import Verif.Sim.Front
import Verif.Io.Implicit
import Verif.Veh.Model
/-!
# A lap time simulation from a vehicle, a configuration and a track file (lumos/simulations/laptime_simulation.py:142-161)
-/

namespace Lumos.Lts

open Lumos DecVar DecVar.Layout Bounds Ocp Lumos.Trans NLP Io LapSim

/-- The fields of `LTCConfig` that decide about the problem (config.py:122-134, laptime_simulation.py:106-119). Not here: `is_condensed`
(C68), `backend` and `hessian_approximation` (C74, C75), `logging_config` (C71). -/
structure Conf where
  transcription : String
  kwargs : List (String × Int)
  numIntervals : Nat
  intervalPoints : Option (List ℝ)
  isCyclic : Bool
  nonCyclic : List String
  bounds : List (BoundConfig EReal)
  bcs : List (BC EReal)
  scales : List ScaleConfig
  conOutputs : List String

/-- `non_cyclic_vars` after `LTCConfig.__post_init__` (laptime_simulation.py:128-136; the same as objects: C73). -/
def addNonCyclic (ns : List String) : List String :=
  ["states.time", "inputs.track_heading"].foldl (fun l name => if name ∈ l then l else l ++ [name]) ns

/-- The first half of `ScaledMeshOCP.__init__` (scaled_mesh_ocp.py:78-120) for a `FixedMeshOCP` (fixed_mesh_ocp.py:17-45): no global
variables, the mesh scale is a number, here 1 (laptime_simulation.py:160). `u` is the unit problem that the backend makes from
the model (`make_model_algebra_cons`, base.py:630-660). Simplifications: as in `Sim.front`. -/
noncomputable def front (m : Mdl ℝ) (u : UnitProblem) (cf : Conf) : Py Setup := do
  let M := m.explicit cf.conOutputs
  let t ← makeTranscription cf.transcription cf.kwargs
  let L ← Layout.make [("states", M.states), ("inputs", M.inputs), ("states_dot", M.states), ("con_outputs", M.conOutputs)]
    ["states", "inputs", "states_dot", "con_outputs"] [] cf.numIntervals t.stages
  let mesh ← setMesh t.interp cf.numIntervals cf.intervalPoints
  let flat ← flatMesh mesh
  let lens ← intervalLengths mesh
  return { c := { o := { L := L, A := entry t.A, B := entry t.B, normLen := lens, fixedScale := some 1 }
                  M := M, u := u, mesh := flat }
           builtScale := some 1, laptime := true, isCyclic := cf.isCyclic, nonCyclic := addNonCyclic cf.nonCyclic, isCondensed := false
           sample := [], bounds := cf.bounds, bcs := cf.bcs, scales := cf.scales }

/-- `LaptimeSimulation.__init__` (laptime_simulation.py:142-161) with the vehicle model `v` on the track; `file` is the track file. -/
noncomputable def laptime (v : Mdl ℝ) (u : UnitProblem) (cf : Conf) (file : Py (List Row)) : Py Lap := do
  let S ← front (Veh.vehicleOnTrack v) u cf
  Lap.make S file

/-- The default configuration (laptime_simulation.py:114-119) for a transcription and a mesh. The default of `is_cyclic` is false and that
of `boundary_conditions` those of a cyclic problem (C73): the boundary conditions are an argument here. -/
noncomputable def defaults (transcription : String) (kwargs : List (String × Int)) (n : Nat) (pts : Option (List ℝ)) (cyc : Bool)
    (nonCyclic : List String) (bcsFor : Bool) : Conf :=
  { transcription := transcription, kwargs := kwargs, numIntervals := n, intervalPoints := pts, isCyclic := cyc, nonCyclic := nonCyclic
    bounds := defaultBounds, bcs := defaultBCs bcsFor, scales := defaultScales, conOutputs := defaultConOutputs }

end Lumos.Lts
