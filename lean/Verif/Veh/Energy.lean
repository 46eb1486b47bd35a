import Verif.Veh.Wheels
/-!
# C58: the energy of the vehicle
-/

namespace Lumos.Veh

open Lumos Io Io.Mdl

/-! ## Specification -/

/-- The sum over the corners. -/
def corners (f : Corner → ℝ) : ℝ := f .fl + f .fr + f .rl + f .rr

/-- The speed of a wheel. -/
noncomputable def wheel (x : Dict ℝ) (c : Corner) : ℝ := val x ("wheel_speed_" ++ c.name)

/-- The rate of change of the kinetic energy of the body and the wheels when the states change at the rates `d`. -/
noncomputable def energyRate (p : Params) (x d : Dict ℝ) : ℝ :=
  p.vehicle_mass * (val x "vx" * val d "vx" + val x "vy" * val d "vy") + p.Iz * (val x "yaw_rate" * val d "yaw_rate")
    + p.wheel_inertia * corners fun c => wheel x c * wheel d c

/-- The power of a tire's force: on the contact patch as part of the body, less what it takes from the wheel. `o` is what the tire
returned. -/
noncomputable def slipPower (p : Params) (x u o : Dict ℝ) (c : Corner) : ℝ :=
  val o "Fx" * (rollX p x u c - p.rolling_radius * wheel x c) + c.mirror * val o "Fy" * rollY p x u c

/-- The kinetic energy of the body and the wheels. -/
noncomputable def kinetic (p : Params) (x : String → ℝ → ℝ) (t : ℝ) : ℝ :=
  p.vehicle_mass / 2 * (x "vx" t ^ 2 + x "vy" t ^ 2) + p.Iz / 2 * x "yaw_rate" t ^ 2
    + p.wheel_inertia / 2 * (x "wheel_speed_fl" t ^ 2 + x "wheel_speed_fr" t ^ 2 + x "wheel_speed_rl" t ^ 2 + x "wheel_speed_rr" t ^ 2)

/-! ## C58 -/

/-- The energy balance: the kinetic energy changes by the power of the engine, less the power of the brakes, of the drag and of the
slip of the tires. Nothing else feeds or drains it. -/
theorem C58_balance {p : Params} {t : Four (Mdl ℝ)} {aero : Mdl ℝ} {x u : Dict ℝ} {mesh : Option ℝ} {r : Ret ℝ}
    (h : (vehicle p t.fl t.fr t.rl t.rr aero).eval ⟨some x, some u, mesh⟩ = .ok r) (hm : p.vehicle_mass ≠ 0) (hI : p.Iz ≠ 0)
    (hJ : p.wheel_inertia ≠ 0) (hw : val x "wheel_speed_rl" + val x "wheel_speed_rr" ≠ 0) :
    ∃ a ra, aeroIn x a ∧ aero.eval ⟨none, some a, none⟩ = .ok ra ∧
      ∃ (d : Corner → Dict ℝ) (rt : Corner → Ret ℝ),
        (∀ c, Asked p x u r.outputs c (d c) ∧ (t.tire c).eval ⟨none, some (d c), none⟩ = .ok (rt c)) ∧
        energyRate p x r.statesDot = val u "throttle" * p.max_power - corners (fun c => brakeTorque p u c * wheel x c)
          - val ra.outputs "Cx" * pressure p x * val x "vx" + corners (fun c => slipPower p x u (rt c).outputs c) := by
  obtain ⟨a, ra, h1, h2, n1, n2, n3, -⟩ := C54_newton_euler h hm hI
  have h' := h
  obtain ⟨m, hg, hc, hd, sub, ho⟩ := vehicle_nums h
  have O := outs_of p m sub
  rw [← ho] at O
  have D := dots_of p m
  rw [← hd] at D
  obtain ⟨dr, -⟩ := C56_driveline h' hw
  obtain ⟨rfl_, efl, hfl⟩ := hc.fl
  obtain ⟨rfr, efr, hfr⟩ := hc.fr
  obtain ⟨rrl, erl, hrl⟩ := hc.rl
  obtain ⟨rrr, err, hrr⟩ := hc.rr
  refine ⟨a, ra, h1, h2, m.asks p, fun c => match c with | .fl => rfl_ | .fr => rfr | .rl => rrl | .rr => rrr, ?_, ?_⟩
  · intro c
    refine ⟨asked_of hg O c, ?_⟩
    cases c
    · exact efl
    · exact efr
    · exact erl
    · exact err
  · have st : (u.lookup "steer").getD 0 = m.steer := by rw [hg.steer]; rfl
    obtain ⟨t1, t2, -⟩ := tires_eq r.outputs
    have half : (0.5 : ℝ) = 1 / 2 := by norm_num
    have e1 := n1
    have e2 := n2
    have e3 := n3
    rw [t1, O.xfl, O.xfr, O.xrl, O.xrr] at e1
    rw [t2, O.yfl, O.yfr, O.yrl, O.yrr] at e2
    unfold yawMoment at e3
    rw [O.yfl, O.yfr, O.yrl, O.yrr, O.xfl, O.xfr, O.xrl, O.xrr] at e3
    have w1 : p.wheel_inertia * val r.statesDot "wheel_speed_fl" = 0 - m.brakeF p - m.fx.fl * p.rolling_radius := by
      rw [D.fl]; field_simp
    have w2 : p.wheel_inertia * val r.statesDot "wheel_speed_fr" = 0 - m.brakeF p - m.fx.fr * p.rolling_radius := by
      rw [D.fr]; field_simp
    have w3 : p.wheel_inertia * val r.statesDot "wheel_speed_rl" = m.torqueL p - m.brakeR p - m.fx.rl * p.rolling_radius := by
      rw [D.rl]; field_simp
    have w4 : p.wheel_inertia * val r.statesDot "wheel_speed_rr" = m.torqueR p - m.brakeR p - m.fx.rr * p.rolling_radius := by
      rw [D.rr]; field_simp
    rw [O.tl, O.tr] at dr
    unfold energyRate corners slipPower
    have wn : ∀ d : Dict ℝ, wheel d .fl = val d "wheel_speed_fl" ∧ wheel d .fr = val d "wheel_speed_fr" ∧
      wheel d .rl = val d "wheel_speed_rl" ∧ wheel d .rr = val d "wheel_speed_rr" := fun _ => ⟨rfl, rfl, rfl, rfl⟩
    obtain ⟨x1, x2, x3, x4⟩ := wn x
    obtain ⟨y1, y2, y3, y4⟩ := wn r.statesDot
    simp only [x1, x2, x3, x4, y1, y2, y3, y4]
    rw [val_of (hfl "Fx" _ (.head _)), val_of (hfl "Fy" _ (.tail _ (.head _))), val_of (hfr "Fx" _ (.head _)),
      val_of (hfr "Fy" _ (.tail _ (.head _))), val_of (hrl "Fx" _ (.head _)), val_of (hrl "Fy" _ (.tail _ (.head _))),
      val_of (hrr "Fx" _ (.head _)), val_of (hrr "Fy" _ (.tail _ (.head _)))]
    obtain ⟨vxfl, vyfl⟩ := vel_of (p := p) hg .fl
    obtain ⟨vxfr, vyfr⟩ := vel_of (p := p) hg .fr
    obtain ⟨vxrl, vyrl⟩ := vel_of (p := p) hg .rl
    obtain ⟨vxrr, vyrr⟩ := vel_of (p := p) hg .rr
    rw [← vxfl, ← vyfl, ← vxfr, ← vyfr, ← vxrl, ← vyrl, ← vxrr, ← vyrr]
    simp only [brakeTorque, Corner.front, Corner.mirror, Corner.left, if_true, Bool.false_eq_true, if_false, val_of hg.brake]
    simp only [Nums.brakeF, Nums.brakeR, half] at w1 w2 w3 w4
    rw [← dr]
    simp only [Nums.force, rotateZ, Real.cos_neg, Real.sin_neg, neg_zero, Real.cos_zero, Real.sin_zero] at e1 e2 e3
    simp only [Nums.velAt, Nums.vel, rotateZ, Nums.pos, V3.cross, V3.add_x, V3.add_y, V3.add_z, Real.cos_zero, Real.sin_zero]
    simp only [val_of hg.vx, val_of hg.vy, val_of hg.yaw_rate] at *
    linear_combination m.vx * e1 + m.vy * e2 + m.yaw_rate * e3 + val x "wheel_speed_fl" * w1 + val x "wheel_speed_fr" * w2
      + val x "wheel_speed_rl" * w3 + val x "wheel_speed_rr" * w4

/-- For a motion in time: this is the rate of change of the kinetic energy. -/
theorem C58_energy {p : Params} {t : Four (Mdl ℝ)} {aero : Mdl ℝ} {x u : String → ℝ → ℝ} {τ : ℝ}
    (h : Solves (vehicle p t.fl t.fr t.rl t.rr aero) x u τ) :
    ∃ r, (vehicle p t.fl t.fr t.rl t.rr aero).eval
        ⟨some (at_ vehicleNames.states x τ), some (at_ vehicleNames.inputs u τ), some τ⟩ = .ok r ∧
      HasDerivAt (kinetic p x) (energyRate p (at_ vehicleNames.states x τ) r.statesDot) τ := by
  obtain ⟨r, he, hd⟩ := h
  refine ⟨r, he, ?_⟩
  obtain ⟨d1, l1, k1⟩ := hd "vx" (by simp [vehicle, names, simpleVehicle, vehicleNames])
  obtain ⟨d2, l2, k2⟩ := hd "vy" (by simp [vehicle, names, simpleVehicle, vehicleNames])
  obtain ⟨d3, l3, k3⟩ := hd "yaw_rate" (by simp [vehicle, names, simpleVehicle, vehicleNames])
  obtain ⟨d4, l4, k4⟩ := hd "wheel_speed_fl" (by simp [vehicle, names, simpleVehicle, vehicleNames])
  obtain ⟨d5, l5, k5⟩ := hd "wheel_speed_fr" (by simp [vehicle, names, simpleVehicle, vehicleNames])
  obtain ⟨d6, l6, k6⟩ := hd "wheel_speed_rl" (by simp [vehicle, names, simpleVehicle, vehicleNames])
  obtain ⟨d7, l7, k7⟩ := hd "wheel_speed_rr" (by simp [vehicle, names, simpleVehicle, vehicleNames])
  have e : energyRate p (at_ vehicleNames.states x τ) r.statesDot
      = p.vehicle_mass * (x "vx" τ * d1 + x "vy" τ * d2) + p.Iz * (x "yaw_rate" τ * d3)
        + p.wheel_inertia * (x "wheel_speed_fl" τ * d4 + x "wheel_speed_fr" τ * d5 + x "wheel_speed_rl" τ * d6
          + x "wheel_speed_rr" τ * d7) := by
    rw [← val_of l1, ← val_of l2, ← val_of l3, ← val_of l4, ← val_of l5, ← val_of l6, ← val_of l7]
    rfl
  rw [e]
  unfold kinetic
  refine ((((k1.fun_pow 2).fun_add (k2.fun_pow 2)).const_mul (p.vehicle_mass / 2)).fun_add
    ((k3.fun_pow 2).const_mul (p.Iz / 2)) |>.fun_add
      ((((k4.fun_pow 2).fun_add (k5.fun_pow 2)).fun_add (k6.fun_pow 2) |>.fun_add (k7.fun_pow 2)).const_mul
        (p.wheel_inertia / 2))).congr_deriv ?_
  push_cast
  ring

/-- If the tires only dissipate, and brakes and drag oppose the motion, the kinetic energy rises no faster than the engine delivers. -/
theorem C58_dissipative {p : Params} {t : Four (Mdl ℝ)} {aero : Mdl ℝ} {x u : Dict ℝ} {mesh : Option ℝ} {r : Ret ℝ}
    (h : (vehicle p t.fl t.fr t.rl t.rr aero).eval ⟨some x, some u, mesh⟩ = .ok r) (hm : p.vehicle_mass ≠ 0) (hI : p.Iz ≠ 0)
    (hJ : p.wheel_inertia ≠ 0) (hw : ∀ c, 0 ≤ wheel x c) (hr : 0 < wheel x .rl + wheel x .rr) (hv : 0 ≤ val x "vx")
    (hb : 0 ≤ p.brake_balance ∧ p.brake_balance ≤ 1 ∧ 0 ≤ p.max_total_brake_torque ∧ 0 ≤ val u "brake") (hρ : 0 ≤ p.air_density)
    (hc : ∀ a ra, aero.eval ⟨none, some a, none⟩ = .ok ra → 0 ≤ val ra.outputs "Cx")
    (ht : ∀ c d rt, Asked p x u r.outputs c d → (t.tire c).eval ⟨none, some d, none⟩ = .ok rt → slipPower p x u rt.outputs c ≤ 0) :
    energyRate p x r.statesDot ≤ val u "throttle" * p.max_power := by
  obtain ⟨a, ra, h1, h2, d, rt, h3, h4⟩ := C58_balance h hm hI hJ hr.ne'
  rw [h4]
  have s : ∀ c, slipPower p x u (rt c).outputs c ≤ 0 := fun c => ht c _ _ (h3 c).1 (h3 c).2
  have b : ∀ c, 0 ≤ brakeTorque p u c * wheel x c := fun c => by
    refine mul_nonneg ?_ (hw c)
    unfold brakeTorque
    have : 0 ≤ (if c.front then p.brake_balance else 1 - p.brake_balance) := by
      split
      · exact hb.1
      · linarith [hb.2.1]
    have := mul_nonneg this (mul_nonneg hb.2.2.1 hb.2.2.2)
    linarith
  have q : 0 ≤ val ra.outputs "Cx" * pressure p x * val x "vx" := by
    refine mul_nonneg (mul_nonneg (hc _ _ h2) ?_) hv
    unfold pressure
    positivity
  unfold corners
  linarith [s .fl, s .fr, s .rl, s .rr, b .fl, b .fr, b .rl, b .rr]

end Lumos.Veh
