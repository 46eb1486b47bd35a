import Verif.Lts.Model
import Verif.Sym.Spec
/-!
# A condensed lap time simulation (`SimConfig.is_condensed`; scaled_mesh_ocp.py:132-139, 206-470)
-/

namespace Lumos.Sym

open Lumos DecVar DecVar.Layout NLP Bounds Ocp OCP Track LapSim Lts Io Io.Mdl Lumos.Trans Veh

/-- `LaptimeSimulation.__init__` (laptime_simulation.py:142-161) with `is_condensed=True`: everything but that switch as in
`Lts.laptime`. `sample` is the random point at which the pattern of the condensed Jacobian is looked up (scaled_mesh_ocp.py:331-345). -/
noncomputable def laptimeCondensed (v : Mdl ℝ) (u : UnitProblem) (cf : Conf) (sample : List ℝ) (file : Py (List Row)) : Py Lap := do
  let S ← front (Veh.vehicleOnTrack v) u cf
  Lap.make { S with isCondensed := true, sample := sample } file

/-! ## Specification -/

/-- The variable that a bound or boundary condition is about is the derivative of a state of the vehicle on the track. -/
def OnDot (group name : String) : Prop := ∃ n ∈ onTrackNames.states, group ++ "." ++ name = "states_dot." ++ n

instance (g n : String) : Decidable (OnDot g n) := by unfold OnDot; infer_instance

/-- A configuration without its bounds on derivatives of states. -/
def withoutDots (cf : Conf) : Conf := { cf with bounds := cf.bounds.filter fun c => ¬OnDot c.group c.name }

/-- Two points that differ at most in the derivatives of the states. -/
def AgreeButDots (L : Layout) (x y : List ℝ) : Prop := ∀ s g n, L.IsVar (.stage s g n) → g ≠ "states_dot" → readAt L x g n s = readAt L y g n s

/-- A point at which the derivatives of all states are zero. -/
def NoDots (L : Layout) (x : List ℝ) : Prop := ∀ s n, L.IsVar (.stage s "states_dot" n) → readAt L x "states_dot" n s = 0

/-- The sample has as many entries as the problem has variables (`np.random.randn(self.num_dec)`, scaled_mesh_ocp.py:341). -/
def Sampled (v : Mdl ℝ) (cf : Conf) (sample : List ℝ) : Prop := ∀ t, makeTranscription cf.transcription cf.kwargs = .ok t →
  sample.length = (layoutOf ((vehicleOnTrack v).explicit cf.conOutputs) cf.numIntervals t.stages).numDec

end Lumos.Sym
