import Verif.Aero.Props
import Verif.Veh.Vehicle
import Verif.Veh.TireModel
import Verif.Veh.EnergyExample
/-!
# C87: the car with a data-driven aerodynamic model
-/

namespace Lumos.Aero

open Lumos Io Io.Mdl Veh

/-- The car evaluated; the coefficients come from the aero model at the speeds and the yaw rate. -/
theorem car_coefs {p : Params} {tfl tfr trl trr : Mdl ℝ} {aero : Mdl ℝ} {x u : Dict ℝ} {mesh : Option ℝ} {r : Ret ℝ}
    (h : (vehicle p tfl tfr trl trr aero).eval ⟨some x, some u, mesh⟩ = .ok r) (hl : p.cog_to_fa + p.cog_to_ra ≠ 0)
    (hf : p.track_front ≠ 0) (hr : p.track_rear ≠ 0)
    (ha : ∀ d ra, aero.eval ⟨none, some d, none⟩ = .ok ra → ∃ a b c, ra.outputs = [("Cx", a), ("Cy", b), ("Cz", c)]) :
    ∃ c, Coefs aero ![val x "vx", val x "vy", val x "yaw_rate"] c ∧
      tires r.outputs "Fz" = p.vehicle_mass * p.gravity + c 2 * pressure p x := by
  obtain ⟨a, ra, h1, h2, h3, -⟩ := C55_loads h hl hf hr
  unfold aeroIn at h1
  subst h1
  obtain ⟨c0, c1, c2, ho⟩ := ha _ _ h2
  refine ⟨![c0, c1, c2], ⟨ra, h2, ho⟩, ?_⟩
  rw [h3, ho]
  rfl

/-- What the models return has the three coefficients. -/
theorem model_outputs {cls : Cls ℝ} (f : List ℝ → Py (List ℝ)) (hf : cls.forward = fun kw => body do
    let inputs ← arg kw.inputs
    let x ← lift (aeroNames.makeVector "inputs" inputs)
    let coeff ← lift (f x)
    lift (finish coeff)) (d : Dict ℝ) (ra : Ret ℝ) (h : Mdl.eval (.node cls []) ⟨none, some d, none⟩ = .ok ra) :
    ∃ a b c, ra.outputs = [("Cx", a), ("Cy", b), ("Cz", c)] := by
  have e : Mdl.eval (.node cls []) ⟨none, some d, none⟩ = (aeroNames.makeVector "inputs" d).bind fun x => (f x).bind finish := by
    unfold Mdl.eval
    rw [hf]
    show Mdl.evalProg _ _ _ _ ((lift (aeroNames.makeVector "inputs" d) : Stmt (List ℝ)) fun x => (lift (f x) : Stmt (List ℝ)) fun coeff => lift (finish coeff) .done) = _
    rcases aeroNames.makeVector "inputs" d with er | x
    · rfl
    · show Mdl.evalProg _ _ _ _ ((lift (f x) : Stmt (List ℝ)) fun coeff => lift (finish coeff) .done) = (f x).bind finish
      rcases f x with er | l
      · rfl
      · show Mdl.evalProg _ _ _ _ (lift (finish l) .done) = finish l
        rcases finish l with er | r <;> rfl
  rw [e] at h
  rcases h1 : aeroNames.makeVector "inputs" d with er | x
  · rw [h1] at h; cases h
  · rw [h1] at h
    rcases h2 : f x with er | l
    · simp only [Except.bind, h2] at h; cases h
    · simp only [Except.bind, h2] at h
      obtain ⟨a, b, c, t, -, rfl⟩ := (finish_eq l ra).mp h
      exact ⟨a, b, c, rfl⟩

/-- **C87** (the car with a network). The load of a car with the network (at least one layer of weights) differs from its weight by at most the dynamic pressure,
whatever the weights of the network; the constant model adds 1.9 times as much. -/
theorem C87_car_mlp {p : Params} {tfl tfr trl trr : Mdl ℝ} {params : Dict Val} {x u : Dict ℝ} {mesh : Option ℝ} {r : Ret ℝ}
    (h : (vehicle p tfl tfr trl trr (mlpModel params)).eval ⟨some x, some u, mesh⟩ = .ok r) (hl : p.cog_to_fa + p.cog_to_ra ≠ 0)
    (hf : p.track_front ≠ 0) (hr : p.track_rear ≠ 0) (hρ : 0 ≤ p.air_density) (hw : dictToList params ≠ []) :
    |tires r.outputs "Fz" - p.vehicle_mass * p.gravity| ≤ pressure p x := by
  obtain ⟨c, h1, h2⟩ := car_coefs h hl hf hr (model_outputs (fun x => mlp x (dictToList params)) rfl)
  have hp : 0 ≤ pressure p x := by unfold pressure; positivity
  rw [h2, add_sub_cancel_left, abs_mul, abs_of_nonneg hp]
  exact mul_le_of_le_one_left hp (C87_mlp_range hw h1 2).le

/-- **C87** (the car outruns its data, finding). The vehicle gives its speed to the aero model in the place of the ride height: with a Gaussian process whose points
have first coordinates at most `b`, a car at the speed `b + R` or more has practically no downforce: at most `exp (- R²)` times the sum of the weights, times the
pressure. -/
theorem C87_car_gp {p : Params} {tfl tfr trl trr : Mdl ℝ} {points : List (Fin 3 → ℝ)} {alpha : Fin 3 → Fin points.length → ℝ} {x u : Dict ℝ} {mesh : Option ℝ} {r : Ret ℝ}
    (h : (vehicle p tfl tfr trl trr (gpModel points alpha)).eval ⟨some x, some u, mesh⟩ = .ok r) (hl : p.cog_to_fa + p.cog_to_ra ≠ 0)
    (hf : p.track_front ≠ 0) (hr : p.track_rear ≠ 0) (hρ : 0 ≤ p.air_density) {b R : ℝ} (hb : ∀ q ∈ points, q 0 ≤ b) (hR : 0 ≤ R) (hv : b + R ≤ val x "vx") :
    |tires r.outputs "Fz" - p.vehicle_mass * p.gravity| ≤ Real.exp (-R ^ 2) * (∑ i, |alpha 2 i|) * pressure p x := by
  obtain ⟨c, h1, h2⟩ := car_coefs h hl hf hr (model_outputs (fun x => gp x ⟨3, points⟩ ⟨points.length, [alpha 0, alpha 1, alpha 2]⟩) rfl)
  have hp : 0 ≤ pressure p x := by unfold pressure; positivity
  rw [h2, add_sub_cancel_left, abs_mul, abs_of_nonneg hp]
  refine mul_le_mul_of_nonneg_right (C87_gp_far h1 (fun q hq => ?_) 2) hp
  rw [Fin.sum_univ_three]
  have h3 : R ≤ val x "vx" - q 0 := by linarith [hb q hq]
  have h4 : R ^ 2 ≤ (q 0 - val x "vx") ^ 2 := by
    rw [← neg_sq (q 0 - _), neg_sub]
    exact pow_le_pow_left₀ hR h3 2
  have e0 : (![val x "vx", val x "vy", val x "yaw_rate"] : Fin 3 → ℝ) 0 = val x "vx" := rfl
  rw [e0]
  nlinarith [sq_nonneg (q 1 - (![val x "vx", val x "vy", val x "yaw_rate"] : Fin 3 → ℝ) 1), sq_nonneg (q 2 - (![val x "vx", val x "vy", val x "yaw_rate"] : Fin 3 → ℝ) 2)]

/-! ## The car runs -/

theorem car_outs (p : Params) (q : Four TireParams) (fwd : Kw ℝ → Prog ℝ) {cx cy cz : ℝ} (x u : String → ℝ) (mesh : Option ℝ)
    (ha : Mdl.eval (.node ⟨aeroNames, fwd⟩ []) { inputs := some [("front_ride_height", x "vx"), ("rear_ride_height", x "vy"), ("yaw", x "yaw_rate")] } =
      .ok { outputs := [("Cx", cx), ("Cy", cy), ("Cz", cz)] }) :
    ∃ r, (vehicle p (tire q.fl) (tire q.fr) (tire q.rl) (tire q.rr) (.node ⟨aeroNames, fwd⟩ [])).eval ⟨some (vehicleNames.states.map fun n => (n, x n)),
      some (vehicleNames.inputs.map fun n => (n, u n)), mesh⟩ = .ok r ∧ blank r.outputs = (vehicleOuts ++ subOuts).map fun k => (k, ()) := by
  unfold vehicle
  simp only [eval, simpleVehicle, body, bind_apply, pure_apply, tireRow, arg_some]
  rw [get_some (v := u "throttle") rfl, get_some (v := u "brake") rfl, get_some (v := u "steer") rfl, get_some (v := u "ax") rfl,
    get_some (v := u "ay") rfl, get_some (v := x "vx") rfl, get_some (v := x "vy") rfl, get_some (v := x "yaw_rate") rfl,
    get_some (v := x "wheel_speed_fl") rfl, get_some (v := x "wheel_speed_fr") rfl, get_some (v := x "wheel_speed_rl") rfl,
    get_some (v := x "wheel_speed_rr") rfl]
  rw [ev_call (snm := aeroNames) (f := (Mdl.node ⟨aeroNames, fwd⟩ []).eval) rfl (by decide) rfl ha,
    get_some (v := cz) rfl]
  have hc : ∀ Fz kappa alpha vx gamma : ℝ, checkCall tireNames { inputs := some [("Fz", Fz), ("kappa", kappa), ("alpha", alpha), ("vx", vx), ("gamma", gamma)] } = .ok () :=
    fun _ _ _ _ _ => rfl
  obtain ⟨fx1, fy1, e1⟩ := tire_eval q.fl _ _ _ _ _
  rw [ev_call (n := "tire_" ++ "fl") (snm := tireNames) (f := (tire q.fl).eval) rfl
    (by exact (show "tire_fl" ∉ ["aero"] by decide)) (hc _ _ _ _ _) e1, get_some (v := fx1) rfl, get_some (v := fy1) rfl]
  obtain ⟨fx2, fy2, e2⟩ := tire_eval q.fr _ _ _ _ _
  rw [ev_call (n := "tire_" ++ "fr") (snm := tireNames) (f := (tire q.fr).eval) rfl
    (by exact (show "tire_fr" ∉ ["aero", "tire_fl"] by decide)) (hc _ _ _ _ _) e2, get_some (v := fx2) rfl, get_some (v := fy2) rfl]
  obtain ⟨fx3, fy3, e3⟩ := tire_eval q.rl _ _ _ _ _
  rw [ev_call (n := "tire_" ++ "rl") (snm := tireNames) (f := (tire q.rl).eval) rfl
    (by exact (show "tire_rl" ∉ ["aero", "tire_fl", "tire_fr"] by decide)) (hc _ _ _ _ _) e3, get_some (v := fx3) rfl, get_some (v := fy3) rfl]
  obtain ⟨fx4, fy4, e4⟩ := tire_eval q.rr _ _ _ _ _
  rw [ev_call (n := "tire_" ++ "rr") (snm := tireNames) (f := (tire q.rr).eval) rfl
    (by exact (show "tire_rr" ∉ ["aero", "tire_fl", "tire_fr", "tire_rl"] by decide)) (hc _ _ _ _ _) e4, get_some (v := fx4) rfl, get_some (v := fy4) rfl,
    get_some (v := cx) rfl]
  rw [show ∀ a b c d e f g : ℝ, vehicleNames.makeDict "states_dot" [("vx", a), ("vy", b), ("yaw_rate", c), ("wheel_speed_fl", d),
    ("wheel_speed_fr", e), ("wheel_speed_rl", f), ("wheel_speed_rr", g)] = .ok [("vx", a), ("vy", b), ("yaw_rate", c),
    ("wheel_speed_fl", d), ("wheel_speed_fr", e), ("wheel_speed_rl", f), ("wheel_speed_rr", g)] from fun _ _ _ _ _ _ _ => rfl, lift_ok]
  have B : blank (collected ["tire_fl", "tire_fr", "tire_rl", "tire_rr", "aero"]
      [("aero", { outputs := [("Cx", cx), ("Cy", cy), ("Cz", cz)] }),
       ("tire_fl", { outputs := [("Fx", fx1), ("Fy", fy1), ("Mx", 0), ("My", 0), ("Mz", 0)] }),
       ("tire_fr", { outputs := [("Fx", fx2), ("Fy", fy2), ("Mx", 0), ("My", 0), ("Mz", 0)] }),
       ("tire_rl", { outputs := [("Fx", fx3), ("Fy", fy3), ("Mx", 0), ("My", 0), ("Mz", 0)] }),
       ("tire_rr", { outputs := [("Fx", fx4), ("Fy", fy4), ("Mx", 0), ("My", 0), ("Mz", 0)] })]) = subOuts.map fun k => (k, ()) := by
    rw [blank_collected]
    exact (show collected ["tire_fl", "tire_fr", "tire_rl", "tire_rr", "aero"] [("aero", coeffs), ("tire_fl", forces),
      ("tire_fr", forces), ("tire_rl", forces), ("tire_rr", forces)] = _ by decide +kernel)
  rw [ev_outputs (K := vehicleOuts) (K' := subOuts) (C := ["aero", "tire_fl", "tire_fr", "tire_rl", "tire_rr"]) rfl rfl rfl
    (keys_of_blank (by exact B))
    (by exact (show ∀ n ∈ ["tire_fl", "tire_fr", "tire_rl", "tire_rr", "aero"], _ by decide))
    (by decide +kernel) (by decide +kernel)
    (by exact (show ∀ n ∈ vehicleNames.outputs ++ subOuts, n ∈ vehicleOuts ∨ n ∈ subOuts by decide +kernel))]
  refine ⟨_, rfl, ?_⟩
  unfold blank at B ⊢
  rw [List.map_append, List.map_append, ← B]
  rfl

theorem car_runs (p : Params) (q : Four TireParams) (fwd : Kw ℝ → Prog ℝ) {cx cy cz : ℝ} (x u : String → ℝ) (mesh : Option ℝ)
    (ha : Mdl.eval (.node ⟨aeroNames, fwd⟩ []) { inputs := some [("front_ride_height", x "vx"), ("rear_ride_height", x "vy"), ("yaw", x "yaw_rate")] } =
      .ok { outputs := [("Cx", cx), ("Cy", cy), ("Cz", cz)] }) :
    ∃ r, (vehicle p (tire q.fl) (tire q.fr) (tire q.rl) (tire q.rr) (.node ⟨aeroNames, fwd⟩ [])).eval ⟨some (vehicleNames.states.map fun n => (n, x n)),
      some (vehicleNames.inputs.map fun n => (n, u n)), mesh⟩ = .ok r := by
  obtain ⟨r, h, _⟩ := car_outs p q fwd x u mesh ha
  exact ⟨r, h⟩

/-- **C87** (the car runs). A car on the analytic tyres and with a network that returns coefficients evaluates, in every state and for all inputs, and so does one
with a Gaussian process. -/
theorem C87_car_runs (p : Params) (q : Four TireParams) (x u : String → ℝ) (mesh : Option ℝ) :
    (∀ (params : Dict Val) (x₀ c₀ : Fin 3 → ℝ), Coefs (mlpModel params) x₀ c₀ →
      ∃ r, (vehicle p (tire q.fl) (tire q.fr) (tire q.rl) (tire q.rr) (mlpModel params)).eval
        ⟨some (vehicleNames.states.map fun n => (n, x n)), some (vehicleNames.inputs.map fun n => (n, u n)), mesh⟩ = .ok r) ∧
    (∀ (points : List (Fin 3 → ℝ)) (alpha : Fin 3 → Fin points.length → ℝ),
      ∃ r, (vehicle p (tire q.fl) (tire q.fr) (tire q.rl) (tire q.rr) (gpModel points alpha)).eval
        ⟨some (vehicleNames.states.map fun n => (n, x n)), some (vehicleNames.inputs.map fun n => (n, u n)), mesh⟩ = .ok r) := by
  constructor
  · intro params x₀ c₀ h
    obtain ⟨f, -, hf, -⟩ := C87_mlp_smooth h
    obtain ⟨t, e⟩ := (mlp_iff _ _ _).mp (hf ![x "vx", x "vy", x "yaw_rate"])
    refine car_runs p q (mlpAero params).forward (cx := f ![x "vx", x "vy", x "yaw_rate"] 0) (cy := f ![x "vx", x "vy", x "yaw_rate"] 1)
      (cz := f ![x "vx", x "vy", x "yaw_rate"] 2) x u mesh ((eval_eq (fun x => mlp x (dictToList params)) rfl _ _ _).trans ?_)
    show (mlp [x "vx", x "vy", x "yaw_rate"] (dictToList params)).bind finish = _
    have e' : mlp [x "vx", x "vy", x "yaw_rate"] (dictToList params) = _ := e
    rw [e']
    exact (finish_eq (_ :: _ :: _ :: t) _).mpr ⟨_, _, _, t, rfl, rfl⟩
  · intro points alpha
    obtain ⟨f, -, hf⟩ := C87_gp_smooth points alpha
    obtain ⟨t, e⟩ := (gp_iff _ _ _ _).mp (hf ![x "vx", x "vy", x "yaw_rate"])
    refine car_runs p q (gpAero ⟨3, points⟩ ⟨points.length, [alpha 0, alpha 1, alpha 2]⟩).forward (cx := f ![x "vx", x "vy", x "yaw_rate"] 0) (cy := f ![x "vx", x "vy", x "yaw_rate"] 1)
      (cz := f ![x "vx", x "vy", x "yaw_rate"] 2) x u mesh ((eval_eq (fun x => gp x _ _) rfl _ _ _).trans ?_)
    show (gp [x "vx", x "vy", x "yaw_rate"] _ _).bind finish = _
    have e' : gp [x "vx", x "vy", x "yaw_rate"] _ _ = _ := e
    rw [e']
    exact (finish_eq (_ :: _ :: _ :: t) _).mpr ⟨_, _, _, t, rfl, rfl⟩

end Lumos.Aero
