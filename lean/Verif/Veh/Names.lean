import Verif.Veh.OnTrack

/-!
# C61: the positions of the states and inputs

A user of `forward_with_arrays`, of a decision vector and of the exported code works with positions. They are those of the
decorators of `TrackPosition2D` (lumos/models/kinematics.py:10-14), `SimpleVehicle`
(lumos/models/vehicles/simple_vehicle.py:48-93) and `SimpleVehicleOnTrack` (lumos/models/simple_vehicle_on_track.py:10-15).
-/

namespace Lumos.Veh

open Lumos Lumos.Io Lumos.Io.Mdl

/-- **C61 (positions).** Whatever tyres and aerodynamics a vehicle on a track has: its states, inputs and residuals are, in
this order, those (of the residuals, the first two: the vehicle's own). -/
theorem C61_positions (p : Params) (tfl tfr trl trr aero : Mdl ℝ) :
    let nm := names (vehicleOnTrack (vehicle p tfl tfr trl trr aero))
    nm.states = ["time", "n", "eta", "vx", "vy", "yaw_rate", "wheel_speed_fl", "wheel_speed_fr", "wheel_speed_rl", "wheel_speed_rr"]
    ∧ nm.inputs = ["throttle", "brake", "steer", "ax", "ay", "track_curvature", "track_heading"]
    ∧ ["vehicle.res_ax", "vehicle.res_ay"] <+: nm.residuals ∧ nm.stateSpace = true := by
  refine ⟨rfl, rfl, ?_, rfl⟩
  simp [vehicleOnTrack, vehicle, names, namesL, onTrack, onTrackNames, simpleVehicle, vehicleNames, addPrefix]

/-- The positions of the car of the examples. -/
example (p : Params) : (names (vehicleOnTrack (vehicle p (.node trackPosition2D []) (.node trackPosition2D []) (.node trackPosition2D [])
    (.node trackPosition2D []) (.node trackPosition2D [])))).states.idxOf "vx" = 3 := by
  rw [(C61_positions _ _ _ _ _ _).1]; decide

end Lumos.Veh
