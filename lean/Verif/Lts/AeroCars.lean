import Verif.Lts.Problem
import Verif.Aero.Car
/-!
# C95: cars with the data-driven aerodynamic models
-/

namespace Lumos.Lts

open Lumos Io Io.Mdl Veh LapSim Aero

/-- A car on the analytic tyres with any aerodynamic model that returns three coefficients. -/
theorem aero_car (p : Params) (q : Four TireParams) (fwd : Kw ℝ → Prog ℝ) (ho : Orderly (.node ⟨aeroNames, fwd⟩ []))
    (ha : ∀ a b c : ℝ, ∃ cx cy cz, Mdl.eval (.node ⟨aeroNames, fwd⟩ []) { inputs := some [("front_ride_height", a), ("rear_ride_height", b), ("yaw", c)] } =
      .ok { outputs := [("Cx", cx), ("Cy", cy), ("Cz", cz)] }) :
    Car (vehicle p (tire q.fl) (tire q.fr) (tire q.rl) (tire q.rr) (.node ⟨aeroNames, fwd⟩ [])) ∧
    ∀ n ∈ defaultConOutputs, n ∈ (vehicleOnTrack (vehicle p (tire q.fl) (tire q.fr) (tire q.rl) (tire q.rr) (.node ⟨aeroNames, fwd⟩ []))).names.outputs := by
  refine ⟨⟨simple_isVehicle .., vehicle_orderly p (tire_orderly _) (tire_orderly _) (tire_orderly _) (tire_orderly _) ho, ?_, ?_⟩, ?_⟩
  · intro x u
    obtain ⟨cx, cy, cz, h⟩ := ha (x "vx") (x "vy") (x "yaw_rate")
    obtain ⟨r, h, hb⟩ := car_outs p q fwd x u none h
    have hk := keys_of_blank hb
    refine ⟨r, h, by rw [hk]; decide +kernel, ?_⟩
    rw [hk]
    show ∀ n ∈ vehicleNames.outputs ++ subOuts, n ∈ vehicleOuts ++ subOuts
    decide +kernel
  · show ∀ n ∈ ["res_ax", "res_ay"], n ∈ vehicleNames.outputs ++ subOuts
    decide +kernel
  · rw [onTrack_names]
    show ∀ n ∈ defaultConOutputs, n ∈ addPrefix "vehicle" (vehicleNames.outputs ++ subOuts) ++ ["kinematics.yaw_angle", "kinematics.curvature"]
    decide +kernel

/-- **C95 (other aerodynamics).** What C95 says about cars applies to those with a Gaussian process or a network (that returns coefficients) as
aerodynamic model, and the default extra outputs are among the outputs of such a car on a track. -/
theorem C95_aero_cars (p : Params) (q : Four TireParams) :
    (∀ (points : List (Fin 3 → ℝ)) (alpha : Fin 3 → Fin points.length → ℝ),
      Car (vehicle p (tire q.fl) (tire q.fr) (tire q.rl) (tire q.rr) (gpModel points alpha)) ∧
      ∀ n ∈ defaultConOutputs, n ∈ (vehicleOnTrack (vehicle p (tire q.fl) (tire q.fr) (tire q.rl) (tire q.rr) (gpModel points alpha))).names.outputs) ∧
    ∀ (params : Dict Val) (x₀ c₀ : Fin 3 → ℝ), Coefs (mlpModel params) x₀ c₀ →
      Car (vehicle p (tire q.fl) (tire q.fr) (tire q.rl) (tire q.rr) (mlpModel params)) ∧
      ∀ n ∈ defaultConOutputs, n ∈ (vehicleOnTrack (vehicle p (tire q.fl) (tire q.fr) (tire q.rl) (tire q.rr) (mlpModel params))).names.outputs := by
  constructor
  · intro points alpha
    refine aero_car p q (gpAero ⟨3, points⟩ ⟨points.length, [alpha 0, alpha 1, alpha 2]⟩).forward ?_ ?_
    · refine .node (by decide) (fun kw => ?_) (fun p hp => absurd hp List.not_mem_nil)
      simp only [gpAero, body, bind_apply]
      collects
    · intro a b c
      obtain ⟨f, -, hf⟩ := C87_gp_smooth points alpha
      obtain ⟨t, e⟩ := (gp_iff _ _ _ _).mp (hf ![a, b, c])
      refine ⟨f ![a, b, c] 0, f ![a, b, c] 1, f ![a, b, c] 2, (eval_eq (fun x => gp x _ _) rfl _ _ _).trans ?_⟩
      show (gp [a, b, c] _ _).bind finish = _
      have e' : gp [a, b, c] _ _ = _ := e
      rw [e']
      exact (finish_eq (_ :: _ :: _ :: t) _).mpr ⟨_, _, _, t, rfl, rfl⟩
  · intro params x₀ c₀ h
    refine aero_car p q (mlpAero params).forward ?_ ?_
    · refine .node (by decide) (fun kw => ?_) (fun p hp => absurd hp List.not_mem_nil)
      simp only [mlpAero, body, bind_apply]
      collects
    · intro a b c
      obtain ⟨f, -, hf, -⟩ := C87_mlp_smooth h
      obtain ⟨t, e⟩ := (mlp_iff _ _ _).mp (hf ![a, b, c])
      refine ⟨f ![a, b, c] 0, f ![a, b, c] 1, f ![a, b, c] 2, (eval_eq (fun x => mlp x (dictToList params)) rfl _ _ _).trans ?_⟩
      show (mlp [a, b, c] (dictToList params)).bind finish = _
      have e' : mlp [a, b, c] (dictToList params) = _ := e
      rw [e']
      exact (finish_eq (_ :: _ :: _ :: t) _).mpr ⟨_, _, _, t, rfl, rfl⟩

end Lumos.Lts
