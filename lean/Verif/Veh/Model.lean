import Verif.Io.Forward
import Mathlib.Analysis.SpecialFunctions.Trigonometric.Basic
import Mathlib.Analysis.SpecialFunctions.Trigonometric.Arctan
/-!
# Model of the vehicle models (lumos/models/kinematics.py, vehicles/simple_vehicle.py, simple_vehicle_on_track.py, aero/aero.py:20-27,
drone_model.py)

Each class is a `forward` program of `Verif/Io/Model.lean` over the reals: dictionaries in, dictionaries out, submodels called by
name. Simplifications: floating point is the reals; a division by zero gives 0 (in the code it is an error, an infinity or a NaN,
depending on the backend), so the theorems assume the denominators nonzero where they matter; `self._params` is a structure with one
field per key (the dictionary of parameters is the subject of `Verif/Tree`); the parameters that `forward` does not use
(`aero_balance`, `some_array`) are left out.
-/

namespace Lumos.Veh

open Lumos Io

/-- A statement of a `forward`: given what to do with its result, what to do. -/
abbrev Stmt (α : Type) := (α → Prog ℝ) → Prog ℝ

instance : Monad Stmt where
  pure a := fun k => k a
  bind m f := fun k => m fun a => f a k

/-- `d[k]`. -/
def get (d : Dict ℝ) (k : String) : Stmt ℝ := fun f =>
  match d.lookup k with
  | some v => f v
  | none => .fail .keyError

/-- A call that may raise and does not touch the model object. -/
def lift {α : Type} (r : Py α) : Stmt α := fun f =>
  match r with
  | .ok a => f a
  | .error e => .fail e

/-- `self.call_submodel(name, **kw)`. -/
def call (name : String) (kw : Kw ℝ) : Stmt (Ret ℝ) := fun f => .call name kw f

/-- `self.make_outputs_dict(**kw)`. -/
def makeOutputs (kw : Dict ℝ) : Stmt (Dict ℝ) := fun f => .makeOutputs kw f

/-- A required argument of `forward`: TypeError when it is not given. -/
def arg (a : Option (Dict ℝ)) : Stmt (Dict ℝ) := fun f =>
  match a with
  | some d => f d
  | none => .fail .typeError

/-- A whole body. -/
def body (s : Stmt (Ret ℝ)) : Prog ℝ := s .done

/-- `{k: d[k] for k in ks}`. -/
def pick (d : Dict ℝ) : List String → Stmt (Dict ℝ)
  | [] => pure []
  | k :: ks => do
    let v ← get d k
    let rest ← pick d ks
    return (k, v) :: rest

/-! ## kinematics.py -/

/-- The decorator of `TrackPosition2D` (kinematics.py:10-14). -/
def trackNames : Names where
  stateSpace := true
  states := ["time", "n", "eta"]
  inputs := ["vx", "vy", "yaw_rate", "track_curvature", "track_heading"]
  outputs := ["yaw_angle", "curvature"]
  conOutputs := []
  residuals := []

/-- `TrackPosition2D.forward` (kinematics.py:29-59). -/
noncomputable def trackPosition2D : Cls ℝ where
  direct := trackNames
  forward kw := body do
    let states ← arg kw.states
    let inputs ← arg kw.inputs
    let n ← get states "n"
    let eta ← get states "eta"
    let vx ← get inputs "vx"
    let vy ← get inputs "vy"
    let yaw_rate ← get inputs "yaw_rate"
    let curvature ← get inputs "track_curvature"
    let track_heading ← get inputs "track_heading"
    let yaw_angle := eta + track_heading
    let ds_dt := (vx * Real.cos eta - vy * Real.sin eta) / (1 - n * curvature)
    let dn_dt := vx * Real.sin eta + vy * Real.cos eta
    let deta_dt := yaw_rate - curvature * ds_dt
    let states_dot ← lift (trackNames.makeDict "states_dot"
      [("time", 1 / ds_dt), ("n", dn_dt / ds_dt), ("eta", deta_dt / ds_dt)])
    let outputs ← lift (trackNames.makeDict "outputs" [("yaw_angle", yaw_angle), ("curvature", curvature)])
    return { statesDot := states_dot, outputs := outputs }

/-! ## aero.py -/

/-- `ConstAero` (aero.py:8-27): the outputs are the parameters. -/
def constAero (cx cy cz : ℝ) : Cls ℝ where
  direct := ⟨false, [], ["front_ride_height", "rear_ride_height", "yaw"], ["Cx", "Cy", "Cz"], [], []⟩
  forward kw := body do
    let _ ← arg kw.inputs
    return { outputs := [("Cx", cx), ("Cy", cy), ("Cz", cz)] }

/-! ## simple_vehicle.py -/

/-- The parameters that `SimpleVehicle.forward` reads (simple_vehicle.py:135-153, 373-403). -/
structure Params where
  max_power : ℝ
  max_steer_angle : ℝ
  kd : ℝ
  rolling_radius : ℝ
  max_total_brake_torque : ℝ
  brake_balance : ℝ
  cog_to_fa : ℝ
  cog_to_ra : ℝ
  cog_height : ℝ
  track_front : ℝ
  track_rear : ℝ
  gravity : ℝ
  vehicle_mass : ℝ
  Iz : ℝ
  wheel_inertia : ℝ
  air_density : ℝ
  mech_balance : ℝ

/-- A dictionary with a value per corner, `{c: ... for c in _corners}` (simple_vehicle.py:24). -/
structure Four (α : Type) where
  fl : α
  fr : α
  rl : α
  rr : α

/-- A 3-d vector, indexed by `Vector3dEnum` (simple_vehicle.py:17-20). -/
@[ext] structure V3 where
  x : ℝ
  y : ℝ
  z : ℝ

namespace V3

def add (a b : V3) : V3 := ⟨a.x + b.x, a.y + b.y, a.z + b.z⟩

instance : Add V3 := ⟨add⟩

/-- `lnp.cross`. -/
def cross (a b : V3) : V3 := ⟨a.y * b.z - a.z * b.y, a.z * b.x - a.x * b.z, a.x * b.y - a.y * b.x⟩

end V3

/-- `_rotate_z(theta) @ v` (simple_vehicle.py:27-42). -/
noncomputable def rotateZ (theta : ℝ) (v : V3) : V3 :=
  ⟨Real.cos theta * v.x + Real.sin theta * v.y + 0 * v.z, -Real.sin theta * v.x + Real.cos theta * v.y + 0 * v.z,
   0 * v.x + 0 * v.y + 1 * v.z⟩

/-- The decorator of `SimpleVehicle` (simple_vehicle.py:48-93). -/
def vehicleNames : Names where
  stateSpace := true
  states := ["vx", "vy", "yaw_rate", "wheel_speed_fl", "wheel_speed_fr", "wheel_speed_rl", "wheel_speed_rr"]
  inputs := ["throttle", "brake", "steer", "ax", "ay"]
  outputs := ["ax", "ay", "drive_torque_rl", "drive_torque_rr", "Fx_tire_fl", "Fy_tire_fl", "Fz_tire_fl", "Fx_tire_fr",
    "Fy_tire_fr", "Fz_tire_fr", "Fx_tire_rl", "Fy_tire_rl", "Fz_tire_rl", "Fx_tire_rr", "Fy_tire_rr", "Fz_tire_rr",
    "slip_ratio_fl", "slip_ratio_fr", "slip_ratio_rl", "slip_ratio_rr", "slip_angle_fl", "slip_angle_fr", "slip_angle_rl",
    "slip_angle_rr", "res_ax", "res_ay"]
  conOutputs := []
  residuals := ["res_ax", "res_ay"]

/-- What one round of the loop over the corners produces (simple_vehicle.py:277-301). -/
structure TireRow where
  kappa : ℝ
  alpha : ℝ
  force : V3

/-- One round of the loop over the corners (simple_vehicle.py:277-301). -/
noncomputable def tireRow (c : String) (rolling_radius wheel_speed vx wheel_load mirror : ℝ) (vel : V3) : Stmt TireRow := do
  let kappa := -(1 - rolling_radius * wheel_speed / vx)
  let alpha := Real.arctan (vel.y / vel.x)
  let r ← call ("tire_" ++ c) { inputs := some [("Fz", wheel_load), ("kappa", kappa), ("alpha", alpha * mirror), ("vx", vel.x),
    ("gamma", 0 * mirror)] }
  let fx ← get r.outputs "Fx"
  let fy ← get r.outputs "Fy"
  return { kappa := kappa, alpha := alpha, force := ⟨fx, fy * mirror, wheel_load⟩ }

/-- `SimpleVehicle.forward` (simple_vehicle.py:112-371). -/
noncomputable def simpleVehicle (p : Params) : Cls ℝ where
  direct := vehicleNames
  forward kw := body do
    let states ← arg kw.states
    let inputs ← arg kw.inputs
    let throttle ← get inputs "throttle"
    let brake ← get inputs "brake"
    let steer ← get inputs "steer"
    let ax_in ← get inputs "ax"
    let ay_in ← get inputs "ay"
    let vx ← get states "vx"
    let vy ← get states "vy"
    let yaw_rate ← get states "yaw_rate"
    let w_fl ← get states "wheel_speed_fl"
    let w_fr ← get states "wheel_speed_fr"
    let w_rl ← get states "wheel_speed_rl"
    let w_rr ← get states "wheel_speed_rr"
    let steer := steer * p.max_steer_angle
    -- drivetrain
    let drive_power := throttle * p.max_power
    let delta_torque := -p.kd * (w_rl - w_rr)
    let drive_torque_rl := (drive_power + delta_torque * w_rr) / (w_rl + w_rr)
    let drive_torque_rr := drive_torque_rl - delta_torque
    -- brakes
    let total_brake_torque := p.max_total_brake_torque * brake
    let brake_front := total_brake_torque * p.brake_balance * 0.5
    let brake_rear := total_brake_torque * (1 - p.brake_balance) * 0.5
    -- aero
    let aero ← call "aero" { inputs := some [("front_ride_height", vx), ("rear_ride_height", vy), ("yaw", yaw_rate)] }
    let cz ← get aero.outputs "Cz"
    let Fz_total := p.vehicle_mass * p.gravity + cz * (0.5 * p.air_density * (vx ^ 2 + vy ^ 2))
    -- tire loads
    let roll_moment := -ay_in * p.vehicle_mass * p.cog_height
    let lateral_transfer_front := roll_moment * p.mech_balance / p.track_front
    let lateral_transfer_rear := roll_moment * (1 - p.mech_balance) / p.track_rear
    let pitch_moment := -ax_in * p.vehicle_mass * p.cog_height
    let longitudinal_transfer := pitch_moment / (p.cog_to_fa + p.cog_to_ra) / 2
    let wdf := p.cog_to_ra / (p.cog_to_fa + p.cog_to_ra)
    let load : Four ℝ :=
      { fl := 0.5 * wdf * Fz_total + lateral_transfer_front + longitudinal_transfer
        fr := 0.5 * wdf * Fz_total - lateral_transfer_front + longitudinal_transfer
        rl := 0.5 * (1 - wdf) * Fz_total + lateral_transfer_rear - longitudinal_transfer
        rr := 0.5 * (1 - wdf) * Fz_total - lateral_transfer_rear - longitudinal_transfer }
    -- contact patch velocities
    let pos : Four V3 :=
      { fl := ⟨p.cog_to_fa, p.track_front / 2, -p.cog_height⟩
        fr := ⟨p.cog_to_fa, -p.track_front / 2, -p.cog_height⟩
        rl := ⟨-p.cog_to_ra, p.track_rear / 2, -p.cog_height⟩
        rr := ⟨-p.cog_to_ra, -p.track_rear / 2, -p.cog_height⟩ }
    let v : V3 := ⟨vx, vy, 0⟩
    let w : V3 := ⟨0, 0, yaw_rate⟩
    let t_fl ← tireRow "fl" p.rolling_radius w_fl vx load.fl 1 (rotateZ steer (v + w.cross pos.fl))
    let t_fr ← tireRow "fr" p.rolling_radius w_fr vx load.fr (-1) (rotateZ steer (v + w.cross pos.fr))
    let t_rl ← tireRow "rl" p.rolling_radius w_rl vx load.rl 1 (rotateZ 0 (v + w.cross pos.rl))
    let t_rr ← tireRow "rr" p.rolling_radius w_rr vx load.rr (-1) (rotateZ 0 (v + w.cross pos.rr))
    -- forces and moments on the body
    let f : Four V3 :=
      { fl := rotateZ (-steer) t_fl.force
        fr := rotateZ (-steer) t_fr.force
        rl := rotateZ (-0) t_rl.force
        rr := rotateZ (-0) t_rr.force }
    let cx ← get aero.outputs "Cx"
    let drag : V3 := ⟨-cx * (0.5 * p.air_density * (vx ^ 2 + vy ^ 2)), 0, 0⟩
    let total_force := f.fl + f.fr + f.rl + f.rr + drag
    let total_moment := pos.fl.cross f.fl + pos.fr.cross f.fr + pos.rl.cross f.rl + pos.rr.cross f.rr
    let ax := total_force.x / p.vehicle_mass
    let ay := total_force.y / p.vehicle_mass
    let yaw_accel := total_moment.z / p.Iz
    -- wheels
    let wd_fl := (0 - brake_front - t_fl.force.x * p.rolling_radius) / p.wheel_inertia
    let wd_fr := (0 - brake_front - t_fr.force.x * p.rolling_radius) / p.wheel_inertia
    let wd_rl := (drive_torque_rl - brake_rear - t_rl.force.x * p.rolling_radius) / p.wheel_inertia
    let wd_rr := (drive_torque_rr - brake_rear - t_rr.force.x * p.rolling_radius) / p.wheel_inertia
    let vx_dot := ax + yaw_rate * vy
    let vy_dot := ay - yaw_rate * vx
    let states_dot ← lift (vehicleNames.makeDict "states_dot"
      [("vx", vx_dot), ("vy", vy_dot), ("yaw_rate", yaw_accel), ("wheel_speed_fl", wd_fl), ("wheel_speed_fr", wd_fr),
       ("wheel_speed_rl", wd_rl), ("wheel_speed_rr", wd_rr)])
    let outputs ← makeOutputs
      [("ax", ax), ("ay", ay), ("drive_torque_rl", drive_torque_rl), ("drive_torque_rr", drive_torque_rr),
       ("Fx_tire_fl", f.fl.x), ("Fy_tire_fl", f.fl.y), ("Fz_tire_fl", f.fl.z),
       ("Fx_tire_fr", f.fr.x), ("Fy_tire_fr", f.fr.y), ("Fz_tire_fr", f.fr.z),
       ("Fx_tire_rl", f.rl.x), ("Fy_tire_rl", f.rl.y), ("Fz_tire_rl", f.rl.z),
       ("Fx_tire_rr", f.rr.x), ("Fy_tire_rr", f.rr.y), ("Fz_tire_rr", f.rr.z),
       ("res_ax", ax - ax_in), ("res_ay", ay - ay_in),
       ("slip_ratio_fl", t_fl.kappa), ("slip_angle_fl", t_fl.alpha), ("slip_ratio_fr", t_fr.kappa), ("slip_angle_fr", t_fr.alpha),
       ("slip_ratio_rl", t_rl.kappa), ("slip_angle_rl", t_rl.alpha), ("slip_ratio_rr", t_rr.kappa), ("slip_angle_rr", t_rr.alpha)]
    return { statesDot := states_dot, outputs := outputs }

/-- The submodels of a `SimpleVehicle`, in the order of `get_default_submodel_config` (simple_vehicle.py:100-110). -/
def vehicleSubs (tire_fl tire_fr tire_rl tire_rr aero : Mdl ℝ) : List (String × Mdl ℝ) :=
  [("tire_fl", tire_fl), ("tire_fr", tire_fr), ("tire_rl", tire_rl), ("tire_rr", tire_rr), ("aero", aero)]

/-! ## simple_vehicle_on_track.py -/

/-- The decorator of `SimpleVehicleOnTrack` (simple_vehicle_on_track.py:10-15). -/
def onTrackNames : Names where
  stateSpace := true
  states := trackNames.states ++ vehicleNames.states
  inputs := vehicleNames.inputs ++ ["track_curvature", "track_heading"]
  outputs := []
  conOutputs := []
  residuals := []

/-- `SimpleVehicleOnTrack.forward` (simple_vehicle_on_track.py:28-76). The vehicle's and the kinematics' own names are those of
their decorators: submodels add no states or inputs. -/
noncomputable def onTrack : Cls ℝ where
  direct := onTrackNames
  forward kw := body do
    let states ← arg kw.states
    let inputs ← arg kw.inputs
    let vehicle_inputs ← pick inputs vehicleNames.inputs
    let vehicle_states ← pick states vehicleNames.states
    let vehicle ← call "vehicle" { states := some vehicle_states, inputs := some vehicle_inputs }
    let kinematic_states ← pick states trackNames.states
    let from_vehicle ← pick vehicle_states ["vx", "vy", "yaw_rate"]
    let track_inputs ← pick inputs ["track_curvature", "track_heading"]
    let kinematic_inputs := track_inputs ++ from_vehicle
    let kinematics ← call "kinematics" { states := some kinematic_states, inputs := some kinematic_inputs, mesh := kw.mesh }
    let dt_ds ← get kinematics.statesDot "time"
    let states_dot := kinematics.statesDot.update (vehicle.statesDot.map fun q => (q.1, q.2 * dt_ds))
    let outputs ← makeOutputs []
    return { statesDot := states_dot, outputs := outputs }

/-- A `SimpleVehicleOnTrack` object, in the order of `get_default_submodel_config` (simple_vehicle_on_track.py:20-26). -/
noncomputable def vehicleOnTrack (vehicle : Mdl ℝ) : Mdl ℝ :=
  .node onTrack [("vehicle", vehicle), ("kinematics", .node trackPosition2D [])]

/-! ## drone_model.py -/

/-- The decorator of `DroneModel` (drone_model.py:11-15). -/
def droneNames : Names where
  stateSpace := true
  states := ["x", "x_dot", "z", "z_dot", "theta"]
  inputs := ["f", "omega"]
  outputs := ["sin_theta", "f_omega"]
  conOutputs := []
  residuals := []

/-- `DroneModel.forward` (drone_model.py:22-47). -/
noncomputable def drone (gravity : ℝ) : Cls ℝ where
  direct := droneNames
  forward kw := body do
    let states ← arg kw.states
    let inputs ← arg kw.inputs
    let theta ← get states "theta"
    let f ← get inputs "f"
    let x_dot_dot := f * Real.sin theta
    let z_dot_dot := f * Real.cos theta - gravity
    let x_dot ← get states "x_dot"
    let z_dot ← get states "z_dot"
    let omega ← get inputs "omega"
    let states_dot ← lift (droneNames.makeDict "states_dot"
      [("x", x_dot), ("x_dot", x_dot_dot), ("z", z_dot), ("z_dot", z_dot_dot), ("theta", omega)])
    let outputs ← lift (droneNames.makeDict "outputs" [("sin_theta", Real.sin theta), ("f_omega", omega * f)])
    return { statesDot := states_dot, outputs := outputs }

end Lumos.Veh
