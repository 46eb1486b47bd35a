import Verif.Veh.Perantoni
/-!
# C58: energy out of nothing

The slip ratio of a wheel is taken with the speed of the centre of gravity, not with that of the contact patch (simple_vehicle.py:275).
-/

namespace Lumos.Veh

open Lumos Io Io.Mdl

/-- A tire obeys the sign convention at every positive load: longitudinal force with the slip, lateral force against it. -/
def Conventional (m : Mdl ℝ) : Prop :=
  ∀ Fz kappa alpha fx fy, 0 < Fz → Gives m Fz kappa alpha fx fy → 0 ≤ fx * kappa ∧ fy * alpha ≤ 0

/-- What a tire answers when asked by the vehicle. -/
theorem answer {q : TireParams} {p : Params} {x u o d : Dict ℝ} {c : Corner} {rt : Ret ℝ} (ha : Asked p x u o c d)
    (h : (tire q).eval ⟨none, some d, none⟩ = .ok rt) :
    val rt.outputs "Fx" = q.fx (val d "Fz") (val d "kappa") (val d "alpha") ∧
      val rt.outputs "Fy" = q.fy (val d "Fz") (val d "kappa") (val d "alpha") := by
  have hk := ha.keys
  obtain _ | ⟨⟨k1, v1⟩, _ | ⟨⟨k2, v2⟩, _ | ⟨⟨k3, v3⟩, _ | ⟨⟨k4, v4⟩, _ | ⟨⟨k5, v5⟩, _ | ⟨_, _⟩⟩⟩⟩⟩⟩ := d <;> simp [Dict.keys] at hk
  obtain ⟨rfl, rfl, rfl, rfl, rfl⟩ := hk
  obtain ⟨r', e, h1, h2⟩ := gives q v1 v2 v3 v4 v5
  rw [e] at h
  cases h
  exact ⟨val_of h1, val_of h2⟩

/-- The vehicle of the example. -/
noncomputable def exParams : Params where
  max_power := 1
  max_steer_angle := 1
  kd := 0
  rolling_radius := 1
  max_total_brake_torque := 1
  brake_balance := 1 / 2
  cog_to_fa := 1
  cog_to_ra := 1
  cog_height := 1
  track_front := 1
  track_rear := 1
  gravity := 4
  vehicle_mass := 1
  Iz := 1
  wheel_inertia := 1
  air_density := 1
  mech_balance := 1 / 2

noncomputable def exTire : TireParams where
  Fz1 := 0
  Fz2 := 1
  mux1 := 1
  mux2 := 1
  muy1 := 0
  muy2 := 0
  kappa1 := 1
  kappa2 := 1
  alpha1 := 1
  alpha2 := 1
  Qx := 1
  Qy := 1

/-- Straight ahead at 1 m/s, turning to the right, the left front wheel rolling slower than its contact patch but faster than the centre
of gravity. -/
noncomputable def exState : String → ℝ := fun n =>
  if n = "vx" then 1 else if n = "yaw_rate" then -1 else if n = "wheel_speed_fl" then 6 / 5 else if n = "vy" then 0 else 1

theorem exTire_fx (Fz kappa alpha : ℝ) : ∃ c, 0 < c ∧ exTire.fx Fz kappa alpha = c * Fz * kappa := by
  have hp := rho_pos exTire Fz kappa alpha
  have hs := shape_pos (Q := 1) one_pos one_le_two hp
  refine ⟨shape 1 (exTire.rho Fz kappa alpha) / exTire.rho Fz kappa alpha, by positivity, ?_⟩
  unfold TireParams.fx
  have h1 : exTire.mux Fz = 1 := by simp [TireParams.mux, TireParams.line, exTire]
  have h2 : exTire.kappaMax Fz = 1 := by simp [TireParams.kappaMax, TireParams.line, exTire]
  rw [h1, h2, show exTire.Qx = 1 from rfl]
  field_simp

theorem exTire_fy (Fz kappa alpha : ℝ) : exTire.fy Fz kappa alpha = 0 := by
  unfold TireParams.fy
  have h1 : exTire.muy Fz = 0 := by simp [TireParams.muy, TireParams.line, exTire]
  rw [h1]
  simp

/-- Finding: with the engine and the brakes off, no drag, and tires that obey the sign convention, the kinetic energy of the vehicle can
rise. -/
theorem C58_energy_from_nothing :
    ∃ (p : Params) (q : TireParams) (x u : String → ℝ) (r : Ret ℝ), Conventional (tire q) ∧ u "throttle" = 0 ∧ u "brake" = 0 ∧
      (standardVehicle p ⟨q, q, q, q⟩ 0 0 0).eval ⟨some (vehicleNames.states.map fun n => (n, x n)),
        some (vehicleNames.inputs.map fun n => (n, u n)), none⟩ = .ok r ∧
      0 < energyRate p (vehicleNames.states.map fun n => (n, x n)) r.statesDot := by
  obtain ⟨r, hr⟩ := standard_runs exParams ⟨exTire, exTire, exTire, exTire⟩ 0 0 0 exState (fun _ => 0) none
  refine ⟨exParams, exTire, exState, fun _ => 0, r, ?_, rfl, rfl, hr, ?_⟩
  · intro Fz kappa alpha fx fy hF h
    obtain ⟨rfl, rfl⟩ := (gives_iff ..).mp h
    obtain ⟨c, hc, e⟩ := exTire_fx Fz kappa alpha
    rw [e, exTire_fy]
    exact ⟨by nlinarith [mul_nonneg (mul_nonneg hc.le hF.le) (sq_nonneg kappa)], by simp⟩
  · set x : Dict ℝ := vehicleNames.states.map fun n => (n, exState n) with hx
    set u : Dict ℝ := vehicleNames.inputs.map fun n => (n, (0 : ℝ)) with hu
    have x1 : val x "vx" = 1 := rfl
    have x2 : val x "vy" = 0 := rfl
    have x3 : val x "yaw_rate" = -1 := rfl
    have x4 : val x "wheel_speed_fl" = 6 / 5 := rfl
    have x5 : val x "wheel_speed_fr" = 1 := rfl
    have x6 : val x "wheel_speed_rl" = 1 := rfl
    have x7 : val x "wheel_speed_rr" = 1 := rfl
    have u1 : val u "ax" = 0 := rfl
    have u2 : val u "ay" = 0 := rfl
    have u3 : val u "brake" = 0 := rfl
    have u4 : val u "throttle" = 0 := rfl
    set t : Four (Mdl ℝ) := ⟨tire exTire, tire exTire, tire exTire, tire exTire⟩ with ht
    have hr' : (vehicle exParams t.fl t.fr t.rl t.rr (.node (constAero 0 0 0) [])).eval ⟨some x, some u, none⟩ = .ok r := hr
    obtain ⟨a, ra, -, ea, d, rt, hd, e⟩ := C58_balance hr' one_ne_zero one_ne_zero one_ne_zero (by rw [x6, x7]; norm_num)
    obtain ⟨a', ra', -, ea', l1, l2, l3, l4⟩ := C55_loads hr' (by simp only [exParams]; norm_num) one_ne_zero one_ne_zero
    have hca : val ra.outputs "Cx" = 0 := by
      have : ra.outputs = [("Cx", (0 : ℝ)), ("Cy", 0), ("Cz", 0)] := by
        rw [show (Mdl.node (constAero 0 0 0) []).eval ⟨none, some a, none⟩ = .ok { outputs := [("Cx", (0 : ℝ)), ("Cy", 0), ("Cz", 0)] } from rfl] at ea
        cases ea; rfl
      rw [this]; rfl
    have hca' : val ra'.outputs "Cz" = 0 := by
      have : ra'.outputs = [("Cx", (0 : ℝ)), ("Cy", 0), ("Cz", 0)] := by
        rw [show (Mdl.node (constAero 0 0 0) []).eval ⟨none, some a', none⟩ = .ok { outputs := [("Cx", (0 : ℝ)), ("Cy", 0), ("Cz", 0)] } from rfl] at ea'
        cases ea'; rfl
      rw [this]; rfl
    rw [hca', (tires_eq r.outputs).2.2] at l1
    rw [u2] at l2 l3
    rw [u1] at l4
    simp only [exParams] at l1 l2 l3 l4
    have z : val r.outputs "Fz_tire_fl" = 1 := by linarith
    -- the corners
    have fy0 : ∀ c, val (rt c).outputs "Fy" = 0 := fun c => by
      have h2 : (tire exTire).eval ⟨none, some (d c), none⟩ = .ok (rt c) := by
        have := (hd c).2
        cases c <;> exact this
      rw [(answer (hd c).1 h2).2, exTire_fy]
    have fxc : ∀ c, ∃ k, 0 < k ∧ val (rt c).outputs "Fx" = k * val (d c) "Fz" * val (d c) "kappa" := fun c => by
      have h2 : (tire exTire).eval ⟨none, some (d c), none⟩ = .ok (rt c) := by
        have := (hd c).2
        cases c <;> exact this
      rw [(answer (hd c).1 h2).1]
      exact exTire_fx ..
    have kap : ∀ c, val (d c) "kappa" = wheel x c - 1 := fun c => by
      obtain ⟨_, _, -, -, k, -⟩ := C57_tires hr' c
      have k := k (by rw [x1]; norm_num)
      rw [(hd c).1.kappa]
      rw [x1, show exParams.rolling_radius = 1 from rfl] at k
      rw [mul_one, one_mul] at k
      exact k
    have w1 : wheel x .fl = 6 / 5 := x4
    have w2 : wheel x .fr = 1 := x5
    have w3 : wheel x .rl = 1 := x6
    have w4 : wheel x .rr = 1 := x7
    have zero : ∀ c, wheel x c = 1 → slipPower exParams x u (rt c).outputs c = 0 := fun c hc => by
      obtain ⟨k, -, e⟩ := fxc c
      unfold slipPower
      rw [e, fy0, kap, hc]
      ring
    obtain ⟨k, hk, ek⟩ := fxc .fl
    have first : slipPower exParams x u (rt .fl).outputs .fl = k * (3 / 50) := by
      unfold slipPower
      have hz : val (d .fl) "Fz" = 1 := (hd .fl).1.Fz.trans z
      have hro : rollX exParams x u .fl = 3 / 2 := by
        unfold rollX patchX Corner.angle Corner.toLeft
        simp only [Corner.front, Corner.left, if_true]
        rw [show (u.lookup "steer").getD 0 = 0 from rfl, x1, x3]
        simp only [exParams, zero_mul, Real.cos_zero, Real.sin_zero]
        norm_num
      rw [ek, fy0, kap, w1, hz, hro, show exParams.rolling_radius = 1 from rfl]
      ring
    rw [e, hca, u4]
    unfold corners brakeTorque
    simp only [first, zero _ w2, zero _ w3, zero _ w4, u3]
    norm_num
    exact hk

/-! ## The theorems apply to the default vehicle in every state with the rear wheels turning -/

/-- `SimpleVehicle.get_default_params` (simple_vehicle.py:374-403). -/
noncomputable def defaultParams : Params where
  gravity := 981 / 100
  vehicle_mass := 1800
  Iz := 1200
  cog_to_fa := 18 / 10
  cog_to_ra := 18 / 10
  cog_height := 3 / 10
  mech_balance := 1 / 2
  track_front := 146 / 100
  track_rear := 146 / 100
  rolling_radius := 33 / 100
  kd := 1047 / 100
  air_density := 12 / 10
  max_steer_angle := 10 * Real.pi / 180
  max_power := 500000
  max_total_brake_torque := 16000
  brake_balance := 6 / 10
  wheel_inertia := 5

example (x u : String → ℝ) (h : 0 < x "wheel_speed_rl" + x "wheel_speed_rr") (cx cy cz : ℝ) :
    ∃ r, (standardVehicle defaultParams ⟨defaultTire, defaultTire, defaultTire, defaultTire⟩ cx cy cz).eval
        ⟨some (vehicleNames.states.map fun n => (n, x n)), some (vehicleNames.inputs.map fun n => (n, u n)), none⟩ = .ok r ∧
      1800 * (val r.statesDot "vy" + x "yaw_rate" * x "vx") = tires r.outputs "Fy" ∧
      146 / 100 / 2 * (val r.outputs "Fz_tire_fr" - val r.outputs "Fz_tire_fl") = 1 / 2 * (1800 * u "ay" * (3 / 10)) ∧
      val r.outputs "drive_torque_rl" * x "wheel_speed_rl" + val r.outputs "drive_torque_rr" * x "wheel_speed_rr" = u "throttle" * 500000 ∧
      ∃ slip, energyRate defaultParams (vehicleNames.states.map fun n => (n, x n)) r.statesDot = u "throttle" * 500000
        - corners (fun c => brakeTorque defaultParams (vehicleNames.inputs.map fun n => (n, u n)) c
            * wheel (vehicleNames.states.map fun n => (n, x n)) c)
        - cx * (12 / 10 / 2 * (x "vx" ^ 2 + x "vy" ^ 2)) * x "vx" + slip := by
  obtain ⟨r, hr⟩ := standard_runs defaultParams ⟨defaultTire, defaultTire, defaultTire, defaultTire⟩ cx cy cz x u none
  have m0 : defaultParams.vehicle_mass ≠ 0 := by simp [defaultParams]
  have i0 : defaultParams.Iz ≠ 0 := by simp [defaultParams]
  have j0 : defaultParams.wheel_inertia ≠ 0 := by simp [defaultParams]
  have f0 : defaultParams.track_front ≠ 0 := by simp only [defaultParams]; norm_num
  have r0 : defaultParams.track_rear ≠ 0 := by simp only [defaultParams]; norm_num
  have l0 : defaultParams.cog_to_fa + defaultParams.cog_to_ra ≠ 0 := by simp only [defaultParams]; norm_num
  obtain ⟨-, -, -, -, -, n2, -⟩ := C54_newton_euler hr m0 i0
  obtain ⟨-, -, -, -, -, l2, -⟩ := C55_loads hr l0 f0 r0
  obtain ⟨d1, -⟩ := C56_driveline (t := ⟨tire defaultTire, tire defaultTire, tire defaultTire, tire defaultTire⟩) hr h.ne'
  obtain ⟨a, ra, -, ea, d, rt, -, e⟩ := C58_balance (t := ⟨tire defaultTire, tire defaultTire, tire defaultTire, tire defaultTire⟩) hr
    m0 i0 j0 h.ne'
  have hca : val ra.outputs "Cx" = cx := by
    have e' : Except.ok ({ outputs := [("Cx", cx), ("Cy", cy), ("Cz", cz)] } : Ret ℝ) = (Except.ok ra : Py (Ret ℝ)) := ea
    cases e'
    rfl
  rw [hca] at e
  exact ⟨r, hr, n2, l2, d1, _, e⟩

end Lumos.Veh
