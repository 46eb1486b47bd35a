import Verif.Veh.VehicleEval
import Mathlib.Tactic.Linarith
import Mathlib.Tactic.LinearCombination
import Mathlib.Tactic.FieldSimp
/-!
# C54-C58: the vehicle model obeys the laws of mechanics

All statements are about what `forward` returns, by name, for any tire and aero models: the forces are the outputs `Fx_tire_fl`, ...
-/

namespace Lumos.Veh

open Lumos Io Io.Mdl

/-! ## Specification -/

/-- The value under a key. -/
noncomputable def val (d : Dict ℝ) (k : String) : ℝ := (d.lookup k).getD 0

/-- A vehicle object. -/
noncomputable def vehicle (p : Params) (tire_fl tire_fr tire_rl tire_rr aero : Mdl ℝ) : Mdl ℝ :=
  .node (simpleVehicle p) (vehicleSubs tire_fl tire_fr tire_rl tire_rr aero)

/-- What the vehicle asks of its aero model. -/
def aeroIn (x : Dict ℝ) : Dict ℝ → Prop := fun d =>
  d = [("front_ride_height", val x "vx"), ("rear_ride_height", val x "vy"), ("yaw", val x "yaw_rate")]

/-- The dynamic pressure times the reference area. -/
noncomputable def pressure (p : Params) (x : Dict ℝ) : ℝ := p.air_density / 2 * (val x "vx" ^ 2 + val x "vy" ^ 2)

/-- The sum of an output over the tires. -/
noncomputable def tires (o : Dict ℝ) (k : String) : ℝ :=
  val o (k ++ "_tire_fl") + val o (k ++ "_tire_fr") + val o (k ++ "_tire_rl") + val o (k ++ "_tire_rr")

/-- The moment of the tire forces about the vertical axis through the centre of gravity; the front axle is `cog_to_fa` ahead of it. -/
noncomputable def yawMoment (p : Params) (o : Dict ℝ) : ℝ :=
  p.cog_to_fa * (val o "Fy_tire_fl" + val o "Fy_tire_fr") - p.cog_to_ra * (val o "Fy_tire_rl" + val o "Fy_tire_rr")
    - p.track_front / 2 * (val o "Fx_tire_fl" - val o "Fx_tire_fr") - p.track_rear / 2 * (val o "Fx_tire_rl" - val o "Fx_tire_rr")

/-- The moment of the tire forces about the longitudinal axis (left up), with the contact patches `cog_height` below. -/
noncomputable def rollMoment (p : Params) (o : Dict ℝ) : ℝ :=
  p.track_front / 2 * (val o "Fz_tire_fl" - val o "Fz_tire_fr") + p.track_rear / 2 * (val o "Fz_tire_rl" - val o "Fz_tire_rr")
    + p.cog_height * tires o "Fy"

/-- The moment of the tire forces about the lateral axis (nose down). -/
noncomputable def pitchMoment (p : Params) (o : Dict ℝ) : ℝ :=
  p.cog_to_ra * (val o "Fz_tire_rl" + val o "Fz_tire_rr") - p.cog_to_fa * (val o "Fz_tire_fl" + val o "Fz_tire_fr")
    - p.cog_height * tires o "Fx"

/-! ## Helpers -/

/-- `vehicle_inv` for given dictionaries. -/
theorem vehicle_nums {p : Params} {tfl tfr trl trr aero : Mdl ℝ} {x u : Dict ℝ} {mesh : Option ℝ} {r : Ret ℝ}
    (h : (vehicle p tfl tfr trl trr aero).eval ⟨some x, some u, mesh⟩ = .ok r) :
    ∃ m : Nums, m.Given x u ∧ m.Called p tfl tfr trl trr aero ∧ r.statesDot = m.dots p ∧ ∃ sub, r.outputs = m.outs p ++ sub := by
  obtain ⟨x', u', m, h1, h2, h3, h4, h5, h6⟩ := vehicle_inv h
  cases h1; cases h2
  exact ⟨m, h3, h4, h5, h6⟩

theorem val_of {d : Dict ℝ} {k : String} {v : ℝ} (h : d.lookup k = some v) : val d k = v := by simp [val, h]

theorem val_append {d e : Dict ℝ} {k : String} {v : ℝ} (h : d.lookup k = some v) : val (d ++ e) k = v :=
  val_of (lookup_append_left h)

/-- All outputs the vehicle itself declares. -/
structure Outs (p : Params) (m : Nums) (o : Dict ℝ) : Prop where
  ax : val o "ax" = m.ax p
  ay : val o "ay" = m.ay p
  tl : val o "drive_torque_rl" = m.torqueL p
  tr : val o "drive_torque_rr" = m.torqueR p
  xfl : val o "Fx_tire_fl" = (m.force p).fl.x
  yfl : val o "Fy_tire_fl" = (m.force p).fl.y
  zfl : val o "Fz_tire_fl" = (m.force p).fl.z
  xfr : val o "Fx_tire_fr" = (m.force p).fr.x
  yfr : val o "Fy_tire_fr" = (m.force p).fr.y
  zfr : val o "Fz_tire_fr" = (m.force p).fr.z
  xrl : val o "Fx_tire_rl" = (m.force p).rl.x
  yrl : val o "Fy_tire_rl" = (m.force p).rl.y
  zrl : val o "Fz_tire_rl" = (m.force p).rl.z
  xrr : val o "Fx_tire_rr" = (m.force p).rr.x
  yrr : val o "Fy_tire_rr" = (m.force p).rr.y
  zrr : val o "Fz_tire_rr" = (m.force p).rr.z
  rax : val o "res_ax" = m.ax p - m.ax_in
  ray : val o "res_ay" = m.ay p - m.ay_in
  kfl : val o "slip_ratio_fl" = m.kappa p m.w.fl
  afl : val o "slip_angle_fl" = Nums.alpha (m.vel p).fl
  kfr : val o "slip_ratio_fr" = m.kappa p m.w.fr
  afr : val o "slip_angle_fr" = Nums.alpha (m.vel p).fr
  krl : val o "slip_ratio_rl" = m.kappa p m.w.rl
  arl : val o "slip_angle_rl" = Nums.alpha (m.vel p).rl
  krr : val o "slip_ratio_rr" = m.kappa p m.w.rr
  arr : val o "slip_angle_rr" = Nums.alpha (m.vel p).rr

theorem outs_of (p : Params) (m : Nums) (sub : Dict ℝ) : Outs p m (m.outs p ++ sub) := by
  constructor <;> exact val_append rfl

/-- All derivatives. -/
structure Dots (p : Params) (m : Nums) (d : Dict ℝ) : Prop where
  vx : val d "vx" = m.ax p + m.yaw_rate * m.vy
  vy : val d "vy" = m.ay p - m.yaw_rate * m.vx
  yaw : val d "yaw_rate" = (m.totalMoment p).z / p.Iz
  fl : val d "wheel_speed_fl" = (0 - m.brakeF p - m.fx.fl * p.rolling_radius) / p.wheel_inertia
  fr : val d "wheel_speed_fr" = (0 - m.brakeF p - m.fx.fr * p.rolling_radius) / p.wheel_inertia
  rl : val d "wheel_speed_rl" = (m.torqueL p - m.brakeR p - m.fx.rl * p.rolling_radius) / p.wheel_inertia
  rr : val d "wheel_speed_rr" = (m.torqueR p - m.brakeR p - m.fx.rr * p.rolling_radius) / p.wheel_inertia

theorem dots_of (p : Params) (m : Nums) : Dots p m (m.dots p) := by
  constructor <;> exact val_of rfl

@[simp] theorem V3.add_x (a b : V3) : (a + b).x = a.x + b.x := rfl
@[simp] theorem V3.add_y (a b : V3) : (a + b).y = a.y + b.y := rfl
@[simp] theorem V3.add_z (a b : V3) : (a + b).z = a.z + b.z := rfl

theorem tires_eq (o : Dict ℝ) :
    tires o "Fx" = val o "Fx_tire_fl" + val o "Fx_tire_fr" + val o "Fx_tire_rl" + val o "Fx_tire_rr" ∧
    tires o "Fy" = val o "Fy_tire_fl" + val o "Fy_tire_fr" + val o "Fy_tire_rl" + val o "Fy_tire_rr" ∧
    tires o "Fz" = val o "Fz_tire_fl" + val o "Fz_tire_fr" + val o "Fz_tire_rl" + val o "Fz_tire_rr" := ⟨rfl, rfl, rfl⟩

theorem pressure_eq {p : Params} {m : Nums} {x u : Dict ℝ} (h : m.Given x u) : pressure p x = m.dynPressure p := by
  unfold pressure Nums.dynPressure
  rw [val_of h.vx, val_of h.vy, show (0.5 : ℝ) = 1 / 2 by norm_num]
  ring

/-! ## C54 -/

/-- Newton's and Euler's laws: mass times acceleration (of which `yaw_rate` times velocity is due to the turning of the axes) is the
sum of the tire forces and the drag, inertia times yaw acceleration is the sum of the moments of the tire forces. `ax` and `ay` are the
accelerations and `res_ax`, `res_ay` the differences to the inputs of that name. -/
theorem C54_newton_euler {p : Params} {tfl tfr trl trr aero : Mdl ℝ} {x u : Dict ℝ} {mesh : Option ℝ} {r : Ret ℝ}
    (h : (vehicle p tfl tfr trl trr aero).eval ⟨some x, some u, mesh⟩ = .ok r) (hm : p.vehicle_mass ≠ 0) (hI : p.Iz ≠ 0) :
    ∃ a ra, aeroIn x a ∧ aero.eval ⟨none, some a, none⟩ = .ok ra ∧
      p.vehicle_mass * (val r.statesDot "vx" - val x "yaw_rate" * val x "vy")
        = tires r.outputs "Fx" - val ra.outputs "Cx" * pressure p x ∧
      p.vehicle_mass * (val r.statesDot "vy" + val x "yaw_rate" * val x "vx") = tires r.outputs "Fy" ∧
      p.Iz * val r.statesDot "yaw_rate" = yawMoment p r.outputs ∧
      val r.outputs "ax" = val r.statesDot "vx" - val x "yaw_rate" * val x "vy" ∧
      val r.outputs "ay" = val r.statesDot "vy" + val x "yaw_rate" * val x "vx" ∧
      val r.outputs "res_ax" = val r.outputs "ax" - val u "ax" ∧ val r.outputs "res_ay" = val r.outputs "ay" - val u "ay" := by
  obtain ⟨m, hg, hc, hd, sub, ho⟩ := vehicle_nums h
  obtain ⟨ra, ea, ha⟩ := hc.aero
  have D := dots_of p m
  rw [← hd] at D
  have O := outs_of p m sub
  rw [← ho] at O
  obtain ⟨t1, t2, -⟩ := tires_eq r.outputs
  refine ⟨_, ra, ?_, ea, ?_, ?_, ?_, ?_, ?_, ?_, ?_⟩
  · unfold aeroIn; rw [val_of hg.vx, val_of hg.vy, val_of hg.yaw_rate]
  · rw [D.vx, val_of hg.yaw_rate, val_of hg.vy, t1, O.xfl, O.xfr, O.xrl, O.xrr, val_of (ha "Cx" m.cx (by simp)), pressure_eq hg]
    unfold Nums.ax Nums.totalForce Nums.drag
    simp only [V3.add_x]
    field_simp
    ring
  · rw [D.vy, val_of hg.yaw_rate, val_of hg.vx, t2, O.yfl, O.yfr, O.yrl, O.yrr]
    unfold Nums.ay Nums.totalForce Nums.drag
    simp only [V3.add_y]
    field_simp
    ring
  · unfold yawMoment
    rw [D.yaw, O.yfl, O.yfr, O.yrl, O.yrr, O.xfl, O.xfr, O.xrl, O.xrr]
    unfold Nums.totalMoment Nums.pos V3.cross
    simp only [V3.add_z]
    field_simp
    ring
  · rw [O.ax, D.vx, val_of hg.yaw_rate, val_of hg.vy]; ring
  · rw [O.ay, D.vy, val_of hg.yaw_rate, val_of hg.vx]; ring
  · rw [O.rax, O.ax, val_of hg.ax]
  · rw [O.ray, O.ay, val_of hg.ay]

/-- The same in the axes of the ground, for a motion in time: the rate of change of momentum is the force, and that of the angular
momentum the moment. `ψ` is the yaw angle. -/
theorem C54_momentum {p : Params} {tfl tfr trl trr aero : Mdl ℝ} {x u : String → ℝ → ℝ} {t : ℝ}
    (h : Solves (vehicle p tfl tfr trl trr aero) x u t) (hm : p.vehicle_mass ≠ 0) (hI : p.Iz ≠ 0) {ψ : ℝ → ℝ}
    (hψ : HasDerivAt ψ (x "yaw_rate" t) t) :
    ∃ r ra, (vehicle p tfl tfr trl trr aero).eval ⟨some (at_ vehicleNames.states x t), some (at_ vehicleNames.inputs u t), some t⟩ = .ok r ∧
      aero.eval ⟨none, some [("front_ride_height", x "vx" t), ("rear_ride_height", x "vy" t), ("yaw", x "yaw_rate" t)], none⟩ = .ok ra ∧
      HasDerivAt (fun t => p.vehicle_mass * (x "vx" t * Real.cos (ψ t) - x "vy" t * Real.sin (ψ t)))
        ((tires r.outputs "Fx" - val ra.outputs "Cx" * (p.air_density / 2 * (x "vx" t ^ 2 + x "vy" t ^ 2))) * Real.cos (ψ t)
          - tires r.outputs "Fy" * Real.sin (ψ t)) t ∧
      HasDerivAt (fun t => p.vehicle_mass * (x "vx" t * Real.sin (ψ t) + x "vy" t * Real.cos (ψ t)))
        ((tires r.outputs "Fx" - val ra.outputs "Cx" * (p.air_density / 2 * (x "vx" t ^ 2 + x "vy" t ^ 2))) * Real.sin (ψ t)
          + tires r.outputs "Fy" * Real.cos (ψ t)) t ∧
      HasDerivAt (fun t => p.Iz * x "yaw_rate" t) (yawMoment p r.outputs) t := by
  obtain ⟨r, he, hd⟩ := h
  have hs : (vehicle p tfl tfr trl trr aero).names.states = vehicleNames.states := rfl
  have hi : (vehicle p tfl tfr trl trr aero).names.inputs = vehicleNames.inputs := rfl
  rw [hs, hi] at he
  rw [hs] at hd
  obtain ⟨a, ra, ha, ea, n1, n2, n3, -⟩ := C54_newton_euler he hm hI
  have v1 : val (at_ vehicleNames.states x t) "vx" = x "vx" t := rfl
  have v2 : val (at_ vehicleNames.states x t) "vy" = x "vy" t := rfl
  have v3 : val (at_ vehicleNames.states x t) "yaw_rate" = x "yaw_rate" t := rfl
  unfold aeroIn at ha
  unfold pressure at n1
  rw [v1, v2, v3] at ha
  subst ha
  rw [v1, v2, v3] at n1
  rw [v1, v3] at n2
  obtain ⟨d1, l1, k1⟩ := hd "vx" (by simp [vehicleNames])
  obtain ⟨d2, l2, k2⟩ := hd "vy" (by simp [vehicleNames])
  obtain ⟨d3, l3, k3⟩ := hd "yaw_rate" (by simp [vehicleNames])
  rw [val_of l1] at n1
  rw [val_of l2] at n2
  rw [val_of l3] at n3
  refine ⟨r, ra, he, ea, ?_, ?_, ?_⟩
  · refine (((k1.fun_mul hψ.cos).fun_sub (k2.fun_mul hψ.sin)).const_mul p.vehicle_mass).congr_deriv ?_
    rw [← n1, ← n2]; ring
  · refine (((k1.fun_mul hψ.sin).fun_add (k2.fun_mul hψ.cos)).const_mul p.vehicle_mass).congr_deriv ?_
    rw [← n1, ← n2]; ring
  · exact (k3.const_mul p.Iz).congr_deriv n3

/-! ## C55 -/

/-- The loads on the tires carry the weight and the downforce, and balance the moment that the accelerations `ax`, `ay` given as
inputs cause about the ground. -/
theorem C55_loads {p : Params} {tfl tfr trl trr aero : Mdl ℝ} {x u : Dict ℝ} {mesh : Option ℝ} {r : Ret ℝ}
    (h : (vehicle p tfl tfr trl trr aero).eval ⟨some x, some u, mesh⟩ = .ok r) (hl : p.cog_to_fa + p.cog_to_ra ≠ 0)
    (hf : p.track_front ≠ 0) (hr : p.track_rear ≠ 0) :
    ∃ a ra, aeroIn x a ∧ aero.eval ⟨none, some a, none⟩ = .ok ra ∧
      tires r.outputs "Fz" = p.vehicle_mass * p.gravity + val ra.outputs "Cz" * pressure p x ∧
      p.track_front / 2 * (val r.outputs "Fz_tire_fr" - val r.outputs "Fz_tire_fl") = p.mech_balance * (p.vehicle_mass * val u "ay" * p.cog_height) ∧
      p.track_rear / 2 * (val r.outputs "Fz_tire_rr" - val r.outputs "Fz_tire_rl")
        = (1 - p.mech_balance) * (p.vehicle_mass * val u "ay" * p.cog_height) ∧
      p.cog_to_ra * (val r.outputs "Fz_tire_rl" + val r.outputs "Fz_tire_rr")
        - p.cog_to_fa * (val r.outputs "Fz_tire_fl" + val r.outputs "Fz_tire_fr") = p.vehicle_mass * val u "ax" * p.cog_height := by
  obtain ⟨m, hg, hc, hd, sub, ho⟩ := vehicle_nums h
  obtain ⟨ra, ea, ha⟩ := hc.aero
  have O := outs_of p m sub
  rw [← ho] at O
  obtain ⟨-, -, t3⟩ := tires_eq r.outputs
  have zfl : val r.outputs "Fz_tire_fl" = (m.load p).fl := by rw [O.zfl]; simp [Nums.force, rotateZ]
  have zfr : val r.outputs "Fz_tire_fr" = (m.load p).fr := by rw [O.zfr]; simp [Nums.force, rotateZ]
  have zrl : val r.outputs "Fz_tire_rl" = (m.load p).rl := by rw [O.zrl]; simp [Nums.force, rotateZ]
  have zrr : val r.outputs "Fz_tire_rr" = (m.load p).rr := by rw [O.zrr]; simp [Nums.force, rotateZ]
  refine ⟨_, ra, ?_, ea, ?_, ?_, ?_, ?_⟩
  · unfold aeroIn; rw [val_of hg.vx, val_of hg.vy, val_of hg.yaw_rate]
  · rw [t3, zfl, zfr, zrl, zrr, val_of (ha "Cz" m.cz (by simp)), pressure_eq hg]
    simp only [Nums.load, Nums.fzTotal]
    ring
  · rw [zfl, zfr, val_of hg.ay]
    simp only [Nums.load, Nums.latF]
    field_simp
    ring
  · rw [zrl, zrr, val_of hg.ay]
    simp only [Nums.load, Nums.latR]
    field_simp
    ring
  · rw [zfl, zfr, zrl, zrr, val_of hg.ax]
    simp only [Nums.load, Nums.wdf, Nums.long]
    field_simp
    ring

/-- When the residuals are zero, the forces at the contact patches have no moment about the longitudinal axis through the centre of
gravity, and their moment about the lateral axis is that of the drag at ground level: the load transfer is computed from the
acceleration alone, so the drag, which `forward` applies without a moment, is balanced as if it acted on the ground. -/
theorem C55_equilibrium {p : Params} {tfl tfr trl trr aero : Mdl ℝ} {x u : Dict ℝ} {mesh : Option ℝ} {r : Ret ℝ}
    (h : (vehicle p tfl tfr trl trr aero).eval ⟨some x, some u, mesh⟩ = .ok r) (hl : p.cog_to_fa + p.cog_to_ra ≠ 0)
    (hf : p.track_front ≠ 0) (hr : p.track_rear ≠ 0) (hm : p.vehicle_mass ≠ 0) (hI : p.Iz ≠ 0)
    (h1 : val r.outputs "res_ax" = 0) (h2 : val r.outputs "res_ay" = 0) :
    ∃ a ra, aeroIn x a ∧ aero.eval ⟨none, some a, none⟩ = .ok ra ∧ rollMoment p r.outputs = 0 ∧
      pitchMoment p r.outputs = -(p.cog_height * (val ra.outputs "Cx" * pressure p x)) := by
  obtain ⟨a, ra, ha, ea, n1, n2, -, n4, n5, n6, n7⟩ := C54_newton_euler h hm hI
  obtain ⟨a', ra', ha', ea', -, l1, l2, l3⟩ := C55_loads h hl hf hr
  refine ⟨a, ra, ha, ea, ?_, ?_⟩
  · unfold rollMoment
    have : val u "ay" = val r.statesDot "vy" + val x "yaw_rate" * val x "vx" := by linarith
    rw [this] at l1 l2
    rw [← n2]
    linarith
  · unfold pitchMoment
    have : val u "ax" = val r.statesDot "vx" - val x "yaw_rate" * val x "vy" := by linarith
    rw [this] at l3
    have e : tires r.outputs "Fx" = p.vehicle_mass * (val r.statesDot "vx" - val x "yaw_rate" * val x "vy") +
      val ra.outputs "Cx" * pressure p x := by linarith
    rw [e]
    linarith

end Lumos.Veh
