import Verif.Veh.EnergyExample
/-!
# C58: the drag of a vehicle that rolls backwards

The drag is `-Cx * 1/2 * rho * (vx^2 + vy^2)` along the body's x axis, whatever the direction of travel (simple_vehicle.py:311-314, where
a comment marks it as to be fixed).
-/

namespace Lumos.Veh

open Lumos Io Io.Mdl

/-- Finding: while the vehicle rolls backwards, the drag pushes it on: with the engine off, the brakes released and tires whose slip takes
up no power, the kinetic energy rises at the rate `Cx * 1/2 * rho * (vx^2 + vy^2) * |vx|`. -/
theorem C58_drag_pushes {p : Params} {t : Four (Mdl ℝ)} {aero : Mdl ℝ} {x u : Dict ℝ} {mesh : Option ℝ} {r : Ret ℝ}
    (h : (vehicle p t.fl t.fr t.rl t.rr aero).eval ⟨some x, some u, mesh⟩ = .ok r) (hm : p.vehicle_mass ≠ 0) (hI : p.Iz ≠ 0)
    (hJ : p.wheel_inertia ≠ 0) (hw : wheel x .rl + wheel x .rr ≠ 0) (hv : val x "vx" < 0)
    (hT : val u "throttle" = 0) (hb : val u "brake" = 0) (hρ : 0 < p.air_density)
    (hc : ∀ a ra, aero.eval ⟨none, some a, none⟩ = .ok ra → 0 < val ra.outputs "Cx")
    (ht : ∀ c d rt, Asked p x u r.outputs c d → (t.tire c).eval ⟨none, some d, none⟩ = .ok rt → slipPower p x u rt.outputs c = 0) :
    0 < energyRate p x r.statesDot ∧
      ∃ Cx, 0 < Cx ∧ energyRate p x r.statesDot
        = Cx * (1 / 2 * p.air_density * (val x "vx" ^ 2 + val x "vy" ^ 2)) * |val x "vx"| := by
  obtain ⟨a, ra, -, h2, d, rt, h3, h4⟩ := C58_balance h hm hI hJ hw
  have s : ∀ c, slipPower p x u (rt c).outputs c = 0 := fun c => ht c _ _ (h3 c).1 (h3 c).2
  have b : ∀ c, brakeTorque p u c = 0 := fun c => by
    unfold brakeTorque
    rw [hb]
    simp
  have hC := hc _ _ h2
  have e : energyRate p x r.statesDot
      = val ra.outputs "Cx" * (1 / 2 * p.air_density * (val x "vx" ^ 2 + val x "vy" ^ 2)) * |val x "vx"| := by
    rw [h4, abs_of_neg hv, hT]
    unfold corners pressure
    simp only [s, b]
    ring
  refine ⟨?_, _, hC, e⟩
  rw [e]
  have v : 0 < |val x "vx"| := abs_pos.mpr hv.ne
  have q : 0 < val x "vx" ^ 2 + val x "vy" ^ 2 := add_pos_of_pos_of_nonneg (pow_pos (by linarith : (0:ℝ) < -val x "vx") 2 |>.trans_eq (by ring)) (sq_nonneg _)
  positivity

/-- Tires without grip. -/
noncomputable def iceTire : TireParams := { exTire with mux1 := 0, mux2 := 0 }

theorem iceTire_f (Fz kappa alpha : ℝ) : iceTire.fx Fz kappa alpha = 0 ∧ iceTire.fy Fz kappa alpha = 0 := by
  have h1 : iceTire.mux Fz = 0 := by simp [TireParams.mux, TireParams.line, iceTire]
  have h2 : iceTire.muy Fz = 0 := by simp [TireParams.muy, TireParams.line, iceTire, exTire]
  constructor
  · unfold TireParams.fx; rw [h1]; simp
  · unfold TireParams.fy; rw [h2]; simp

/-- A concrete case: on ice, rolling backwards at 1 m/s with `Cx = 1`, the vehicle gains energy. -/
example : ∃ (x : Dict ℝ) (r : Ret ℝ), val x "vx" = -1 ∧
    (standardVehicle exParams ⟨iceTire, iceTire, iceTire, iceTire⟩ 1 0 0).eval
      ⟨some x, some (vehicleNames.inputs.map fun n => (n, (0 : ℝ))), none⟩ = .ok r ∧ 0 < energyRate exParams x r.statesDot := by
  obtain ⟨r, hr⟩ := standard_runs exParams ⟨iceTire, iceTire, iceTire, iceTire⟩ 1 0 0
    (fun n => if n = "vx" then -1 else if n = "vy" then 0 else 1) (fun _ => 0) none
  set x : Dict ℝ := vehicleNames.states.map fun n => (n, (if n = "vx" then (-1 : ℝ) else if n = "vy" then 0 else 1)) with hx
  have x1 : val x "vx" = -1 := rfl
  have x6 : wheel x .rl = 1 := rfl
  have x7 : wheel x .rr = 1 := rfl
  refine ⟨x, r, x1, hr, ?_⟩
  set t : Four (Mdl ℝ) := ⟨tire iceTire, tire iceTire, tire iceTire, tire iceTire⟩ with ht
  have hr' : (vehicle exParams t.fl t.fr t.rl t.rr (.node (constAero 1 0 0) [])).eval
    ⟨some x, some (vehicleNames.inputs.map fun n => (n, (0 : ℝ))), none⟩ = .ok r := hr
  refine (C58_drag_pushes hr' one_ne_zero one_ne_zero one_ne_zero (by rw [x6, x7]; norm_num) (by rw [x1]; norm_num) rfl rfl one_pos ?_ ?_).1
  · intro a ra ea
    have : ra.outputs = [("Cx", (1 : ℝ)), ("Cy", 0), ("Cz", 0)] := by
      rw [show (Mdl.node (constAero 1 0 0) []).eval ⟨none, some a, none⟩ = .ok { outputs := [("Cx", (1 : ℝ)), ("Cy", 0), ("Cz", 0)] } from rfl] at ea
      cases ea; rfl
    rw [this]
    exact one_pos
  · intro c d rt ha e
    have h2 : (tire iceTire).eval ⟨none, some d, none⟩ = .ok rt := by
      cases c <;> exact e
    obtain ⟨f1, f2⟩ := answer ha h2
    rw [(iceTire_f ..).1] at f1
    rw [(iceTire_f ..).2] at f2
    unfold slipPower
    rw [f1, f2]
    ring

end Lumos.Veh
