import Verif.Ocp.Build
import Verif.Track.Model
import Verif.Io.Model
/-!
# Model of the lap time simulation (lumos/simulations/laptime_simulation.py)

The optimal control problem itself is that of `Verif/Ocp/Build` (with the objectives of laptime_simulation.py:201-271), the track
that of `Verif/Track`. Reading the file is modelled as giving the rows of the table or raising.
-/

namespace Lumos.LapSim

open Lumos DecVar DecVar.Layout Bounds Ocp Track Io

/-- One row of the track file: `# x_m`, `y_m`, `w_tr_left_m`, `w_tr_right_m` (tracks.py:146-151). -/
structure Row where
  x : ℝ
  y : ℝ
  left : ℝ
  right : ℝ

/-- `RaceTrack.from_tum_csv` (tracks.py:139-151). -/
noncomputable def fromTumCsv (file : Py (List Row)) : Py RaceTrack := do
  let rows ← file
  RaceTrack.fromCartesian (rows.map Row.x) (rows.map Row.y) (some (rows.map Row.left)) (some (rows.map Row.right))

/-- What changes in a `LaptimeSimulation` object: the mesh scale (`S.c.o.fixedScale`), the bounds with the boundary conditions, and
`_track`. The rest of `S` stays as it was at construction. -/
structure Lap where
  S : Setup
  st : St EReal
  track : Option RaceTrack

/-- The same problem with another mesh scale: `set_mesh_scale` (fixed_mesh_ocp.py:37-41). -/
def rescale (S : Setup) (ms : ℝ) : Setup := { S with c := { S.c with o := { S.c.o with fixedScale := some ms } } }

/-- `distance_mesh` (laptime_simulation.py:163-165). -/
noncomputable def distanceMesh (S : Setup) (t : RaceTrack) : List ℝ := S.c.mesh.map (· * t.totalDistance)

/-- An array of numbers as a bound. -/
noncomputable def asBound (v : List ℝ) : BVal EReal := .array (v.map fun a : ℝ => (a : EReal))

/-- `track_bounds` of `set_track` (laptime_simulation.py:186-197). -/
noncomputable def trackBounds (S : Setup) (t : RaceTrack) : Py (List (BoundConfig EReal)) := do
  let mesh := distanceMesh S t
  let curvature ← mesh.mapM t.curvatureAt
  let heading ← mesh.mapM t.headingAt
  let left ← mesh.mapM t.leftDistanceAt
  let right ← mesh.mapM t.rightDistanceAt
  let b1 ← BoundConfig.make "inputs" "track_curvature" (asBound curvature) (asBound curvature)
  let b2 ← BoundConfig.make "inputs" "track_heading" (asBound heading) (asBound heading)
  let b3 ← BoundConfig.make "states" "n" (asBound (right.map fun a => -a)) (asBound left)
  return [b1, b2, b3]

namespace Lap

/-- `set_track` (laptime_simulation.py:167-199): the state afterwards, and the exception if it raises. -/
noncomputable def setTrack (l : Lap) (file : Py (List Row)) : Lap × Option PyErr :=
  match fromTumCsv file with
  | .error e => (l, some e)
  | .ok t =>
    let l1 : Lap := { l with S := rescale l.S t.totalDistance, track := some t }
    match trackBounds l1.S t with
    | .error e => (l1, some e)
    | .ok bs =>
      let r := Bounds.updateBounds l1.S.c.o.L l1.st bs
      ({ l1 with st := r.1 }, r.2)

/-- A history of `set_track` calls on the same object; a call that raises leaves what it changed. -/
noncomputable def run (l : Lap) (files : List (Py (List Row))) : Lap := files.foldl (fun l f => (l.setTrack f).1) l

/-- `LaptimeSimulation.__init__` (laptime_simulation.py:142-161): the problem is built with the mesh scale 1, then the track is set. -/
noncomputable def make (S : Setup) (file : Py (List Row)) : Py Lap := do
  let S1 := rescale { S with builtScale := some 1, laptime := true } 1
  let b ← S1.build
  orRaise (setTrack { S := S1, st := b.bounds, track := none } file)

/-- The problem the object presents to the solver: its callables read the current mesh scale (fixed_mesh_ocp.py:43-45), the bounds
are the current ones. -/
noncomputable def problem (l : Lap) : Py Built := do
  let b ← l.S.build
  return { b with bounds := l.st }

/-- `const_states` of `get_init_guess` (laptime_simulation.py:279-290). -/
noncomputable def constStates : Dict ℝ :=
  [("time", 0), ("n", 0), ("eta", 0), ("vx", 50), ("vy", 0), ("yaw_rate", 0), ("wheel_speed_fl", 50 / 0.33),
    ("wheel_speed_fr", 50 / 0.33), ("wheel_speed_rl", 50 / 0.33), ("wheel_speed_rr", 50 / 0.33)]

/-- `const_inputs` of `get_init_guess` (laptime_simulation.py:303-311). -/
noncomputable def constInputs : Dict ℝ :=
  [("throttle", 0), ("brake", 0), ("steer", 0), ("ax", 0), ("ay", 0), ("track_curvature", 0), ("track_heading", 0)]

/-- `names` of the model (base.py:56-87); the outputs are not used here. -/
def namesOf (M : ExplicitModel) : Io.Names :=
  { stateSpace := true, states := M.states, inputs := M.inputs, outputs := [], conOutputs := M.conOutputs, residuals := M.residuals }

/-- `a[:, i] = v` for a matrix with as many rows as `v` has elements (ValueError otherwise; one element would be repeated). -/
def setColumn (a : List (List ℝ)) (i : Nat) (v : List ℝ) : Py (List (List ℝ)) :=
  if v.length = a.length then .ok (List.zipWith (fun (r : List ℝ) x => r.set i x) a v)
  else match v with
    | [x] => .ok (a.map fun r => r.set i x)
    | _ => .error .valueError

/-- `np.cumsum(np.insert(np.diff(mesh) / vx, 0, 0.0))` (laptime_simulation.py:276-277). -/
noncomputable def timeGuess (mesh : List ℝ) : List ℝ :=
  arr (mesh.length - 1 + 1) (cumsum0 fun k => diff (at_ mesh) k / 50)

/-- `get_init_guess` (laptime_simulation.py:273-334). `_track` is always set after construction; before it is an AttributeError.
`batched_forward` applies the model row by row. -/
noncomputable def initGuess (l : Lap) : Py (List ℝ) := do
  let L := l.S.c.o.L
  let M := l.S.c.M
  let t ← match l.track with
    | some t => .ok t
    | none => .error .attributeError
  let mesh := distanceMesh l.S t
  let time := timeGuess mesh
  let statesVec ← (namesOf M).makeVector "states" constStates
  let states := List.replicate L.numStages statesVec
  let i ← L.indexInGroup "states" "time"
  let states ← setColumn states i time
  let inputsVec ← (namesOf M).makeVector "inputs" constInputs
  let inputs := List.replicate L.numStages inputsVec
  let curvature ← mesh.mapM t.curvatureAt
  let inputs ← setColumn inputs (← (namesOf M).varIndex "inputs" "track_curvature") curvature
  let heading ← mesh.mapM t.headingAt
  let inputs ← setColumn inputs (← (namesOf M).varIndex "inputs" "track_heading") heading
  let rows := (states.zip inputs).zip mesh
  L.flattenVar ⟨[("states", states), ("inputs", inputs),
    ("states_dot", rows.map fun r : (List ℝ × List ℝ) × ℝ => M.f r.1.1 r.1.2 r.2),
    ("con_outputs", rows.map fun r : (List ℝ × List ℝ) × ℝ => M.h r.1.1 r.1.2 r.2)], []⟩

end Lap

/-- A bound with scalar limits (laptime_simulation.py:25-56). Their validity (C19) is a theorem, see `Verif/Lap/Defaults`. -/
noncomputable def bound (g n : String) (a b : ℝ) : BoundConfig EReal := ⟨g, n, .scalar (a : EReal), .scalar (b : EReal)⟩

/-- `_corners`. -/
def corners : List String := ["fl", "fr", "rl", "rr"]

/-- `get_default_bounds` (laptime_simulation.py:21-55). -/
noncomputable def defaultBounds : List (BoundConfig EReal) :=
  [⟨"states", "time", .scalar ((0 : ℝ) : EReal), .scalar ⊤⟩, bound "states" "eta" (-Real.pi / 4) (Real.pi / 4),
   bound "states" "vx" 5 100, bound "states" "vy" (-10) 10, bound "states" "yaw_rate" (-Real.pi * 2) (Real.pi * 2),
   bound "inputs" "throttle" 0 1, bound "inputs" "brake" 0 1, bound "inputs" "steer" (-1) 1]
  ++ corners.map (fun c => bound "states" ("wheel_speed_" ++ c) 0.1 300)
  ++ corners.map (fun c => bound "con_outputs" ("vehicle.slip_ratio_" ++ c) (-0.05) 0.05)
  ++ corners.map (fun c => bound "con_outputs" ("vehicle.slip_angle_" ++ c) (-(5 * (Real.pi / 180))) (5 * (Real.pi / 180)))

/-- A boundary condition with one number. -/
noncomputable def fixAt (s : Int) (g n : String) (a : ℝ) : BC EReal := ⟨some s, g, n, .single (.scalar (a : EReal))⟩

/-- `get_default_boundary_conditions` (laptime_simulation.py:58-74). -/
noncomputable def defaultBCs (isCyclic : Bool) : List (BC EReal) :=
  if isCyclic then [fixAt 0 "states" "time" 0]
  else [fixAt 0 "states" "time" 0, fixAt 0 "states" "n" 0, fixAt 0 "states" "eta" 0, fixAt 0 "states" "vx" 50,
    fixAt 0 "states" "vy" 0, fixAt 0 "states" "yaw_rate" 0]

/-- `get_default_scales` (laptime_simulation.py:77-90). -/
noncomputable def defaultScales : List ScaleConfig :=
  [⟨"states", "time", 10⟩, ⟨"states", "vx", 10⟩, ⟨"states", "wheel_speed_fl", 50⟩, ⟨"states", "wheel_speed_fr", 50⟩,
   ⟨"states", "wheel_speed_rl", 50⟩, ⟨"states", "wheel_speed_rr", 50⟩, ⟨"states_dot", "wheel_speed_fl", 50⟩,
   ⟨"states_dot", "wheel_speed_fr", 50⟩, ⟨"states_dot", "wheel_speed_rl", 50⟩, ⟨"states_dot", "wheel_speed_rr", 50⟩]

/-- `get_default_con_output_names` (laptime_simulation.py:93-103). -/
def defaultConOutputs : List String :=
  ["vehicle.slip_ratio_fl", "vehicle.slip_ratio_fr", "vehicle.slip_ratio_rl", "vehicle.slip_ratio_rr",
   "vehicle.slip_angle_fl", "vehicle.slip_angle_fr", "vehicle.slip_angle_rl", "vehicle.slip_angle_rr"]

end Lumos.LapSim
