import Verif.Use.Model
import Verif.Lts.Model
/-!
# Model of a lap time simulation in use (C98)

What happens to a `LaptimeSimulation` object (lumos/simulations/laptime_simulation.py:139-334) when a user goes on calling its
methods: those of every problem (`Verif/Use/Model`), `set_track`, and `solve`, which starts from `get_init_guess`.
-/

namespace Lumos.Drive

open Lumos DecVar DecVar.Layout NLP Bounds Ocp OCP Track LapSim Lts Io Use

variable {P : Type}

/-- What a simulation is made from, for every value `p : P` of the parameters of the vehicle: the vehicle model, the unit problem
that the backend makes for it on the track, the configuration, the backend (`jax` or not) and whether `hessian_approximation` is
`"exact"`. -/
structure Entry (P : Type) where
  car : P → Mdl ℝ
  unit : P → UnitProblem
  conf : Conf
  jax : Bool
  exact : Bool

/-- The kind of problem (`Use.Kind`): the model is the vehicle on the track (laptime_simulation.py:155). -/
noncomputable def Entry.kind (E : Entry P) (S : Setup) : Kind P :=
  { S := S, model := fun p => (Veh.vehicleOnTrack (E.car p)).explicit E.conf.conOutputs, unit := E.unit, jax := E.jax, exact := E.exact }

/-- The object: that of the base class, and `_track` (laptime_simulation.py:181). -/
structure Sim (P : Type) where
  use : Use P
  track : Option RaceTrack

namespace Sim

/-- `set_track` (laptime_simulation.py:167-199): the track, the mesh scale (`set_mesh_scale`), the bounds (`update_bounds`). -/
noncomputable def setTrack (s : Sim P) (file : Py (List Row)) : Sim P × Option PyErr :=
  match fromTumCsv file with
  | .error e => (s, some e)
  | .ok t =>
    let r := s.use.step (.setMeshScale t.totalDistance)
    match r.2 with
    | some e => (⟨r.1, some t⟩, some e)
    | none =>
      match trackBounds r.1.J.S t with
      | .error e => (⟨r.1, some t⟩, some e)
      | .ok bs => (⟨(r.1.step (.bounds (.updateBounds bs))).1, some t⟩, (r.1.step (.bounds (.updateBounds bs))).2)

/-- The model with the mesh scale and parameters in force, as the object of `Verif/Lap/Model`. -/
def lap (s : Sim P) : Lap := ⟨s.use.J.at s.use.scale s.use.params s.use.J.S.isCyclic, s.use.bounds, s.track⟩

/-- `get_init_guess` (laptime_simulation.py:273-334): with the track and the parameters in force. -/
noncomputable def initGuess (s : Sim P) : Py (List ℝ) := s.lap.initGuess

/-- `solve` (scaled_mesh_ocp.py:191-204): `get_init_guess` comes first; its point is used for the warm-up and as the start if the
user gives none. -/
noncomputable def solve (s : Sim P) (guess : Option (List ℝ)) (solver : Solver) : Py (List ℝ × Int) :=
  match s.initGuess with
  | .error e => .error e
  | .ok x0 => s.use.solve ⟨guess, x0, x0, solver⟩

end Sim

/-- A call of a public method. Of the arguments of `call (.solve a)` only the guess of the user and the solver count. -/
inductive Op (P : Type)
  | call (c : Use.Call P)
  | setTrack (file : Py (List Row))

namespace Sim

/-- The object after a call, and the exception raised. -/
noncomputable def step (s : Sim P) : Op P → Sim P × Option PyErr
  | .setTrack file => s.setTrack file
  | .call (.solve a) =>
    match s.initGuess with
    | .error e => (s, some e)
    | .ok x0 => (⟨(s.use.step (.solve ⟨a.guess, x0, x0, a.solver⟩)).1, s.track⟩, (s.use.step (.solve ⟨a.guess, x0, x0, a.solver⟩)).2)
  | .call c => (⟨(s.use.step c).1, s.track⟩, (s.use.step c).2)

/-- A history; the program goes on after an exception. -/
noncomputable def run (s : Sim P) (ops : List (Op P)) : Sim P := ops.foldl (fun s o => (s.step o).1) s

end Sim

/-- `LaptimeSimulation.__init__` (laptime_simulation.py:142-161) with the parameters `p`: the problem with the mesh scale 1, then
the track. -/
noncomputable def simulate (E : Entry P) (p : P) (file : Py (List Row)) : Py (Sim P) := do
  let S ← front (Veh.vehicleOnTrack (E.car p)) (E.unit p) E.conf
  let u ← construct (E.kind S) p
  match Sim.setTrack ⟨u, none⟩ file with
  | (_, some e) => .error e
  | (s, none) => .ok s

end Lumos.Drive
