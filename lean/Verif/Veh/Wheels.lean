import Verif.Veh.Vehicle
import Mathlib.Analysis.SpecialFunctions.Trigonometric.Arctan
/-!
# C56-C58: driveline, tires and energy of the vehicle model
-/

namespace Lumos.Veh

open Lumos Io Io.Mdl

/-! ## Specification -/

/-- The corners of the vehicle. -/
inductive Corner
  | fl | fr | rl | rr
  deriving DecidableEq

namespace Corner

def name : Corner → String
  | fl => "fl" | fr => "fr" | rl => "rl" | rr => "rr"

def front : Corner → Bool
  | fl => true | fr => true | rl => false | rr => false

def left : Corner → Bool
  | fl => true | fr => false | rl => true | rr => false

/-- Position of the contact patch ahead of and to the left of the centre of gravity. -/
def ahead (p : Params) (c : Corner) : ℝ := if c.front then p.cog_to_fa else -p.cog_to_ra
noncomputable def toLeft (p : Params) (c : Corner) : ℝ :=
  (if c.left then 1 else -1) * ((if c.front then p.track_front else p.track_rear) / 2)

/-- The angle of the wheel. -/
def angle (p : Params) (u : Dict ℝ) (c : Corner) : ℝ := if c.front then (u.lookup "steer").getD 0 * p.max_steer_angle else 0

/-- Right tires are mounted as mirror images. -/
def mirror (c : Corner) : ℝ := if c.left then 1 else -1

end Corner

/-- The tire at a corner. -/
def Four.tire (t : Four (Mdl ℝ)) : Corner → Mdl ℝ
  | .fl => t.fl | .fr => t.fr | .rl => t.rl | .rr => t.rr

/-- Velocity of the contact patch along and across the axes of the body: that of the centre of gravity plus that of the rotation. -/
noncomputable def patchX (p : Params) (x : Dict ℝ) (c : Corner) : ℝ := val x "vx" - val x "yaw_rate" * c.toLeft p
noncomputable def patchY (p : Params) (x : Dict ℝ) (c : Corner) : ℝ := val x "vy" + val x "yaw_rate" * c.ahead p

/-- The same along and across the wheel. -/
noncomputable def rollX (p : Params) (x u : Dict ℝ) (c : Corner) : ℝ :=
  Real.cos (c.angle p u) * patchX p x c + Real.sin (c.angle p u) * patchY p x c
noncomputable def rollY (p : Params) (x u : Dict ℝ) (c : Corner) : ℝ :=
  Real.cos (c.angle p u) * patchY p x c - Real.sin (c.angle p u) * patchX p x c

noncomputable def driveTorque (o : Dict ℝ) : Corner → ℝ
  | .rl => val o "drive_torque_rl"
  | .rr => val o "drive_torque_rr"
  | _ => 0

/-- The brake torque on a wheel: `brake_balance` of the total on the front axle, equal left and right. -/
noncomputable def brakeTorque (p : Params) (u : Dict ℝ) (c : Corner) : ℝ :=
  (if c.front then p.brake_balance else 1 - p.brake_balance) * (p.max_total_brake_torque * val u "brake") / 2

/-- What is asked of the tire at a corner: the load is the load of that corner, the slips are those of the corner, with the sign of the
lateral one reversed for right tires, and there is no camber. -/
structure Asked (p : Params) (x u o : Dict ℝ) (c : Corner) (d : Dict ℝ) : Prop where
  keys : d.keys = ["Fz", "kappa", "alpha", "vx", "gamma"]
  Fz : val d "Fz" = val o ("Fz_tire_" ++ c.name)
  kappa : val d "kappa" = val o ("slip_ratio_" ++ c.name)
  alpha : val d "alpha" = c.mirror * val o ("slip_angle_" ++ c.name)
  vx : val d "vx" = rollX p x u c
  gamma : val d "gamma" = 0

/-! ## C56 -/

/-- The driveline delivers the power asked for, and the differential makes a torque difference against the speed difference. -/
theorem C56_driveline {p : Params} {t : Four (Mdl ℝ)} {aero : Mdl ℝ} {x u : Dict ℝ} {mesh : Option ℝ} {r : Ret ℝ}
    (h : (vehicle p t.fl t.fr t.rl t.rr aero).eval ⟨some x, some u, mesh⟩ = .ok r)
    (hw : val x "wheel_speed_rl" + val x "wheel_speed_rr" ≠ 0) :
    val r.outputs "drive_torque_rl" * val x "wheel_speed_rl" + val r.outputs "drive_torque_rr" * val x "wheel_speed_rr"
      = val u "throttle" * p.max_power ∧
    val r.outputs "drive_torque_rl" - val r.outputs "drive_torque_rr"
      = -p.kd * (val x "wheel_speed_rl" - val x "wheel_speed_rr") := by
  obtain ⟨m, hg, hc, hd, sub, ho⟩ := vehicle_nums h
  have O := outs_of p m sub
  rw [← ho] at O
  rw [val_of hg.w_rl, val_of hg.w_rr] at hw
  rw [O.tl, O.tr, val_of hg.w_rl, val_of hg.w_rr, val_of hg.throttle]
  unfold Nums.torqueR Nums.torqueL Nums.deltaTorque
  constructor
  · field_simp
    ring
  · ring

/-- The inputs of the tire at a corner. -/
noncomputable def Nums.asks (p : Params) (m : Nums) : Corner → Dict ℝ
  | .fl => m.tireIn p m.w.fl (m.load p).fl 1 (m.vel p).fl
  | .fr => m.tireIn p m.w.fr (m.load p).fr (-1) (m.vel p).fr
  | .rl => m.tireIn p m.w.rl (m.load p).rl 1 (m.vel p).rl
  | .rr => m.tireIn p m.w.rr (m.load p).rr (-1) (m.vel p).rr

/-- The velocity of a contact patch. -/
noncomputable def Nums.velAt (p : Params) (m : Nums) : Corner → V3
  | .fl => (m.vel p).fl
  | .fr => (m.vel p).fr
  | .rl => (m.vel p).rl
  | .rr => (m.vel p).rr

theorem vel_of {p : Params} {m : Nums} {x u : Dict ℝ} (hg : m.Given x u) (c : Corner) :
    (m.velAt p c).x = rollX p x u c ∧ (m.velAt p c).y = rollY p x u c := by
  have st : (u.lookup "steer").getD 0 = m.steer := by rw [hg.steer]; rfl
  cases c <;>
  · simp only [rollX, rollY, patchX, patchY, Corner.angle, Corner.toLeft, Corner.ahead, Corner.left, Corner.front, if_true, st,
      val_of hg.vx, val_of hg.vy, val_of hg.yaw_rate, Bool.false_eq_true, if_false]
    simp only [Nums.velAt, Nums.vel, rotateZ, Nums.angle, Nums.pos, V3.cross, V3.add_x, V3.add_y, V3.add_z]
    constructor <;> ring

theorem asked_of {p : Params} {m : Nums} {x u o : Dict ℝ} (hg : m.Given x u) (O : Outs p m o) (c : Corner) :
    Asked p x u o c (m.asks p c) := by
  have v := (vel_of (p := p) hg c).1
  cases c with
  | fl => exact ⟨rfl, (by rw [show val o ("Fz_tire_" ++ Corner.fl.name) = _ from O.zfl]; simp [Nums.force, rotateZ]; rfl), O.kfl.symm,
      (by rw [show val o ("slip_angle_" ++ Corner.fl.name) = _ from O.afl]; exact mul_comm _ _), v, zero_mul _⟩
  | fr => exact ⟨rfl, (by rw [show val o ("Fz_tire_" ++ Corner.fr.name) = _ from O.zfr]; simp [Nums.force, rotateZ]; rfl), O.kfr.symm,
      (by rw [show val o ("slip_angle_" ++ Corner.fr.name) = _ from O.afr]; exact mul_comm _ _), v, zero_mul _⟩
  | rl => exact ⟨rfl, (by rw [show val o ("Fz_tire_" ++ Corner.rl.name) = _ from O.zrl]; simp [Nums.force, rotateZ]; rfl), O.krl.symm,
      (by rw [show val o ("slip_angle_" ++ Corner.rl.name) = _ from O.arl]; exact mul_comm _ _), v, zero_mul _⟩
  | rr => exact ⟨rfl, (by rw [show val o ("Fz_tire_" ++ Corner.rr.name) = _ from O.zrr]; simp [Nums.force, rotateZ]; rfl), O.krr.symm,
      (by rw [show val o ("slip_angle_" ++ Corner.rr.name) = _ from O.arr]; exact mul_comm _ _), v, zero_mul _⟩

/-- The torques on the wheels that are all that turns them: drive, brake and the tire's longitudinal force. -/
theorem C56_wheels {p : Params} {t : Four (Mdl ℝ)} {aero : Mdl ℝ} {x u : Dict ℝ} {mesh : Option ℝ} {r : Ret ℝ}
    (h : (vehicle p t.fl t.fr t.rl t.rr aero).eval ⟨some x, some u, mesh⟩ = .ok r) (hI : p.wheel_inertia ≠ 0) (c : Corner) :
    ∃ d rt, Asked p x u r.outputs c d ∧ (t.tire c).eval ⟨none, some d, none⟩ = .ok rt ∧
      p.wheel_inertia * val r.statesDot ("wheel_speed_" ++ c.name)
        = driveTorque r.outputs c - brakeTorque p u c - p.rolling_radius * val rt.outputs "Fx" := by
  obtain ⟨m, hg, hc, hd, sub, ho⟩ := vehicle_nums h
  have O := outs_of p m sub
  rw [← ho] at O
  have D := dots_of p m
  rw [← hd] at D
  have half : (0.5 : ℝ) = 1 / 2 := by norm_num
  cases c with
  | fl =>
    obtain ⟨rt, e, hv⟩ := hc.fl
    refine ⟨_, rt, asked_of hg O .fl, e, ?_⟩
    rw [val_of (hv "Fx" _ (.head _))]
    show p.wheel_inertia * val r.statesDot "wheel_speed_fl" = _
    rw [D.fl]
    simp only [driveTorque, brakeTorque, Corner.front, if_true, val_of hg.brake, Nums.brakeF, half]
    field_simp
  | fr =>
    obtain ⟨rt, e, hv⟩ := hc.fr
    refine ⟨_, rt, asked_of hg O .fr, e, ?_⟩
    rw [val_of (hv "Fx" _ (.head _))]
    show p.wheel_inertia * val r.statesDot "wheel_speed_fr" = _
    rw [D.fr]
    simp only [driveTorque, brakeTorque, Corner.front, if_true, val_of hg.brake, Nums.brakeF, half]
    field_simp
  | rl =>
    obtain ⟨rt, e, hv⟩ := hc.rl
    refine ⟨_, rt, asked_of hg O .rl, e, ?_⟩
    rw [val_of (hv "Fx" _ (.head _))]
    show p.wheel_inertia * val r.statesDot "wheel_speed_rl" = _
    rw [D.rl]
    simp only [driveTorque, brakeTorque, Corner.front, O.tl, val_of hg.brake, Nums.brakeR, half, Bool.false_eq_true, if_false]
    field_simp
  | rr =>
    obtain ⟨rt, e, hv⟩ := hc.rr
    refine ⟨_, rt, asked_of hg O .rr, e, ?_⟩
    rw [val_of (hv "Fx" _ (.head _))]
    show p.wheel_inertia * val r.statesDot "wheel_speed_rr" = _
    rw [D.rr]
    simp only [driveTorque, brakeTorque, Corner.front, O.tr, val_of hg.brake, Nums.brakeR, half, Bool.false_eq_true, if_false]
    field_simp

/-! ## C57 -/

/-- What is asked of the tire at a corner and what is made of its answer: the slips are those of the contact patch moving with the body against the wheel turned by its angle, and the force on the body is the tire's force turned
back. The signs of lateral slip and force are reversed for right tires. -/
theorem C57_tires {p : Params} {t : Four (Mdl ℝ)} {aero : Mdl ℝ} {x u : Dict ℝ} {mesh : Option ℝ} {r : Ret ℝ}
    (h : (vehicle p t.fl t.fr t.rl t.rr aero).eval ⟨some x, some u, mesh⟩ = .ok r) (c : Corner) :
    ∃ d rt, Asked p x u r.outputs c d ∧ (t.tire c).eval ⟨none, some d, none⟩ = .ok rt ∧
      (val x "vx" ≠ 0 → val r.outputs ("slip_ratio_" ++ c.name) * val x "vx"
        = p.rolling_radius * val x ("wheel_speed_" ++ c.name) - val x "vx") ∧
      (rollX p x u c ≠ 0 → Real.tan (val r.outputs ("slip_angle_" ++ c.name)) * rollX p x u c = rollY p x u c) ∧
      |val r.outputs ("slip_angle_" ++ c.name)| < Real.pi / 2 ∧
      val r.outputs ("Fx_tire_" ++ c.name)
        = val rt.outputs "Fx" * Real.cos (c.angle p u) - c.mirror * val rt.outputs "Fy" * Real.sin (c.angle p u) ∧
      val r.outputs ("Fy_tire_" ++ c.name)
        = val rt.outputs "Fx" * Real.sin (c.angle p u) + c.mirror * val rt.outputs "Fy" * Real.cos (c.angle p u) := by
  obtain ⟨m, hg, hc, hd, sub, ho⟩ := vehicle_nums h
  have O := outs_of p m sub
  rw [← ho] at O
  have key : ∀ v : V3, v.x ≠ 0 → Real.tan (Nums.alpha v) * v.x = v.y := by
    intro v hv
    unfold Nums.alpha
    rw [Real.tan_arctan]
    field_simp
  have bd : ∀ v : V3, |Nums.alpha v| < Real.pi / 2 := fun v =>
    abs_lt.mpr ⟨Real.neg_pi_div_two_lt_arctan _, Real.arctan_lt_pi_div_two _⟩
  have kp : ∀ w : ℝ, m.vx ≠ 0 → m.kappa p w * m.vx = p.rolling_radius * w - m.vx := by
    intro w hv
    unfold Nums.kappa
    field_simp
    ring
  have st : (u.lookup "steer").getD 0 = m.steer := by rw [hg.steer]; rfl
  cases c with
  | fl =>
    obtain ⟨rt, e, hv⟩ := hc.fl
    obtain ⟨vx, vy⟩ := vel_of (p := p) hg .fl
    refine ⟨_, rt, asked_of hg O .fl, e, ?_, ?_, ?_, ?_, ?_⟩
    · show _ → val r.outputs "slip_ratio_fl" * val x "vx" = p.rolling_radius * val x "wheel_speed_fl" - val x "vx"
      rw [O.kfl, val_of hg.vx, val_of hg.w_fl]
      exact kp _
    · show _ → Real.tan (val r.outputs "slip_angle_fl") * rollX p x u .fl = rollY p x u .fl
      rw [O.afl, ← vx, ← vy]
      exact key _
    · show |val r.outputs "slip_angle_fl"| < _
      rw [O.afl]
      exact bd _
    · show val r.outputs "Fx_tire_fl" = _
      rw [O.xfl, val_of (hv "Fx" _ (.head _)), val_of (hv "Fy" _ (.tail _ (.head _)))]
      simp [Nums.force, rotateZ, Nums.angle, Corner.angle, Corner.front, Corner.mirror, Corner.left, st]
      ring
    · show val r.outputs "Fy_tire_fl" = _
      rw [O.yfl, val_of (hv "Fx" _ (.head _)), val_of (hv "Fy" _ (.tail _ (.head _)))]
      simp [Nums.force, rotateZ, Nums.angle, Corner.angle, Corner.front, Corner.mirror, Corner.left, st]
      ring
  | fr =>
    obtain ⟨rt, e, hv⟩ := hc.fr
    obtain ⟨vx, vy⟩ := vel_of (p := p) hg .fr
    refine ⟨_, rt, asked_of hg O .fr, e, ?_, ?_, ?_, ?_, ?_⟩
    · show _ → val r.outputs "slip_ratio_fr" * val x "vx" = p.rolling_radius * val x "wheel_speed_fr" - val x "vx"
      rw [O.kfr, val_of hg.vx, val_of hg.w_fr]
      exact kp _
    · show _ → Real.tan (val r.outputs "slip_angle_fr") * rollX p x u .fr = rollY p x u .fr
      rw [O.afr, ← vx, ← vy]
      exact key _
    · show |val r.outputs "slip_angle_fr"| < _
      rw [O.afr]
      exact bd _
    · show val r.outputs "Fx_tire_fr" = _
      rw [O.xfr, val_of (hv "Fx" _ (.head _)), val_of (hv "Fy" _ (.tail _ (.head _)))]
      simp [Nums.force, rotateZ, Nums.angle, Corner.angle, Corner.front, Corner.mirror, Corner.left, st]
      ring
    · show val r.outputs "Fy_tire_fr" = _
      rw [O.yfr, val_of (hv "Fx" _ (.head _)), val_of (hv "Fy" _ (.tail _ (.head _)))]
      simp [Nums.force, rotateZ, Nums.angle, Corner.angle, Corner.front, Corner.mirror, Corner.left, st]
      ring
  | rl =>
    obtain ⟨rt, e, hv⟩ := hc.rl
    obtain ⟨vx, vy⟩ := vel_of (p := p) hg .rl
    refine ⟨_, rt, asked_of hg O .rl, e, ?_, ?_, ?_, ?_, ?_⟩
    · show _ → val r.outputs "slip_ratio_rl" * val x "vx" = p.rolling_radius * val x "wheel_speed_rl" - val x "vx"
      rw [O.krl, val_of hg.vx, val_of hg.w_rl]
      exact kp _
    · show _ → Real.tan (val r.outputs "slip_angle_rl") * rollX p x u .rl = rollY p x u .rl
      rw [O.arl, ← vx, ← vy]
      exact key _
    · show |val r.outputs "slip_angle_rl"| < _
      rw [O.arl]
      exact bd _
    · show val r.outputs "Fx_tire_rl" = _
      rw [O.xrl, val_of (hv "Fx" _ (.head _)), val_of (hv "Fy" _ (.tail _ (.head _)))]
      simp [Nums.force, rotateZ, Nums.angle, Corner.angle, Corner.front, Corner.mirror, Corner.left, st]
    · show val r.outputs "Fy_tire_rl" = _
      rw [O.yrl, val_of (hv "Fx" _ (.head _)), val_of (hv "Fy" _ (.tail _ (.head _)))]
      simp [Nums.force, rotateZ, Nums.angle, Corner.angle, Corner.front, Corner.mirror, Corner.left, st]
  | rr =>
    obtain ⟨rt, e, hv⟩ := hc.rr
    obtain ⟨vx, vy⟩ := vel_of (p := p) hg .rr
    refine ⟨_, rt, asked_of hg O .rr, e, ?_, ?_, ?_, ?_, ?_⟩
    · show _ → val r.outputs "slip_ratio_rr" * val x "vx" = p.rolling_radius * val x "wheel_speed_rr" - val x "vx"
      rw [O.krr, val_of hg.vx, val_of hg.w_rr]
      exact kp _
    · show _ → Real.tan (val r.outputs "slip_angle_rr") * rollX p x u .rr = rollY p x u .rr
      rw [O.arr, ← vx, ← vy]
      exact key _
    · show |val r.outputs "slip_angle_rr"| < _
      rw [O.arr]
      exact bd _
    · show val r.outputs "Fx_tire_rr" = _
      rw [O.xrr, val_of (hv "Fx" _ (.head _)), val_of (hv "Fy" _ (.tail _ (.head _)))]
      simp [Nums.force, rotateZ, Nums.angle, Corner.angle, Corner.front, Corner.mirror, Corner.left, st]
    · show val r.outputs "Fy_tire_rr" = _
      rw [O.yrr, val_of (hv "Fx" _ (.head _)), val_of (hv "Fy" _ (.tail _ (.head _)))]
      simp [Nums.force, rotateZ, Nums.angle, Corner.angle, Corner.front, Corner.mirror, Corner.left, st]

end Lumos.Veh
