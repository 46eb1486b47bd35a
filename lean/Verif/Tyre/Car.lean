import Verif.Tyre.Default
import Verif.Veh.EnergyExample
/-!
# C85: the car on MF5.2 tyres (the default tyres of `SimpleVehicle`)
-/

namespace Lumos.Tyre

open Lumos Io Io.Mdl Veh

/-! ## Specification -/

/-- A car whose four tyres are MF5.2 tyres. -/
noncomputable def car (p : Params) (d : Four (Dict ℝ)) (opt : Bool) (aero : Mdl ℝ) : Mdl ℝ :=
  vehicle p (.node (mf52 d.fl opt) []) (.node (mf52 d.fr opt) []) (.node (mf52 d.rl opt) []) (.node (mf52 d.rr opt) []) aero

/-- The suffix of the names of a corner. -/
def wheelNames : List String := ["fl", "fr", "rl", "rr"]

/-- The car returns, and these are the forces on the wheel at a corner, in the axes of the car. -/
def Wheel (c : String) (r : Ret ℝ) (fx fy fz : ℝ) : Prop :=
  r.outputs.lookup ("Fx_tire_" ++ c) = some fx ∧ r.outputs.lookup ("Fy_tire_" ++ c) = some fy ∧ r.outputs.lookup ("Fz_tire_" ++ c) = some fz

/-! ## Helpers -/

theorem gives_of_returns {d : Dict ℝ} {opt : Bool} {Fz k a v g fx fy : ℝ}
    (h : Nums.Returns (.node (mf52 d opt) []) [("Fz", Fz), ("kappa", k), ("alpha", a), ("vx", v), ("gamma", g)] [("Fx", fx), ("Fy", fy)]) :
    ∃ o, Gives d opt ⟨Fz, k, a, v, g⟩ o ∧ o.Fx = fx ∧ o.Fy = fy := by
  obtain ⟨ret, h1, h2⟩ := h
  have hk : HasKeys d opt := by
    by_contra hk
    have e := tyre_key d opt ⟨Fz, k, a, v, g⟩ hk
    unfold tyre at e
    rw [h1] at e
    cases e
  have e := tyre_eq d opt ⟨Fz, k, a, v, g⟩ hk
  unfold tyre at e
  rw [h1] at e
  rcases hf : forces (par d) opt ⟨Fz, k, a, v, g⟩ with x | o
  · rw [hf] at e
    cases e
  · rw [hf] at e
    have e := Except.ok.inj e
    refine ⟨o, (gives_iff _ _ _ _ hk).mpr hf, ?_, ?_⟩
    · have := h2 "Fx" fx (by simp)
      rw [e] at this
      exact Option.some.inj this
    · have := h2 "Fy" fy (by simp)
      rw [e] at this
      exact Option.some.inj this

theorem rotate_norm (t : ℝ) (v : V3) : (rotateZ t v).x ^ 2 + (rotateZ t v).y ^ 2 = v.x ^ 2 + v.y ^ 2 := by
  unfold rotateZ
  have := Real.sin_sq_add_cos_sq t
  simp only
  nlinarith

theorem rotate_z (t : ℝ) (v : V3) : (rotateZ t v).z = v.z := by simp [rotateZ]

/-- What is known about a wheel of a car that returned. -/
theorem wheel_inv {p : Params} {d : Four (Dict ℝ)} {opt : Bool} {aero : Mdl ℝ} {kw : Kw ℝ} {r : Ret ℝ} {c : String} {fx fy fz : ℝ}
    (h : (car p d opt aero).eval kw = .ok r) (hc : c ∈ wheelNames) (hw : Wheel c r fx fy fz) :
    ∃ (dc : Dict ℝ) (k a v : ℝ) (o : Out), dc ∈ [d.fl, d.fr, d.rl, d.rr] ∧ Gives dc opt ⟨fz, k, a, v, 0⟩ o ∧ fx ^ 2 + fy ^ 2 = o.Fx ^ 2 + o.Fy ^ 2 := by
  obtain ⟨st, inp, m, -, -, -, hcall, -, sub, ho⟩ := vehicle_inv h
  unfold Wheel at hw
  rw [ho] at hw
  simp only [wheelNames, List.mem_cons, List.not_mem_nil, or_false] at hc
  rcases hc with rfl | rfl | rfl | rfl
  · obtain ⟨h1, h2, h3⟩ := hw
    obtain ⟨o, hg, e1, e2⟩ := gives_of_returns hcall.fl
    have e3 : (m.force p).fl.x = fx := Option.some.inj h1
    have e4 : (m.force p).fl.y = fy := Option.some.inj h2
    have e5 : (m.load p).fl = fz := (rotate_z _ _).symm.trans (Option.some.inj h3)
    rw [e5, zero_mul] at hg
    refine ⟨d.fl, _, _, _, o, by simp, hg, ?_⟩
    rw [← e3, ← e4, e1, e2]
    refine (rotate_norm _ _).trans ?_
    simp
  · obtain ⟨h1, h2, h3⟩ := hw
    obtain ⟨o, hg, e1, e2⟩ := gives_of_returns hcall.fr
    have e3 : (m.force p).fr.x = fx := Option.some.inj h1
    have e4 : (m.force p).fr.y = fy := Option.some.inj h2
    have e5 : (m.load p).fr = fz := (rotate_z _ _).symm.trans (Option.some.inj h3)
    rw [e5, zero_mul] at hg
    refine ⟨d.fr, _, _, _, o, by simp, hg, ?_⟩
    rw [← e3, ← e4, e1, e2]
    refine (rotate_norm _ _).trans ?_
    simp
  · obtain ⟨h1, h2, h3⟩ := hw
    obtain ⟨o, hg, e1, e2⟩ := gives_of_returns hcall.rl
    have e3 : (m.force p).rl.x = fx := Option.some.inj h1
    have e4 : (m.force p).rl.y = fy := Option.some.inj h2
    have e5 : (m.load p).rl = fz := (rotate_z _ _).symm.trans (Option.some.inj h3)
    rw [e5, zero_mul] at hg
    refine ⟨d.rl, _, _, _, o, by simp, hg, ?_⟩
    rw [← e3, ← e4, e1, e2]
    refine (rotate_norm _ _).trans ?_
    simp
  · obtain ⟨h1, h2, h3⟩ := hw
    obtain ⟨o, hg, e1, e2⟩ := gives_of_returns hcall.rr
    have e3 : (m.force p).rr.x = fx := Option.some.inj h1
    have e4 : (m.force p).rr.y = fy := Option.some.inj h2
    have e5 : (m.load p).rr = fz := (rotate_z _ _).symm.trans (Option.some.inj h3)
    rw [e5, zero_mul] at hg
    refine ⟨d.rr, _, _, _, o, by simp, hg, ?_⟩
    rw [← e3, ← e4, e1, e2]
    refine (rotate_norm _ _).trans ?_
    simp

theorem wheel_exists {p : Params} {d : Four (Dict ℝ)} {opt : Bool} {aero : Mdl ℝ} {kw : Kw ℝ} {r : Ret ℝ} {c : String}
    (h : (car p d opt aero).eval kw = .ok r) (hc : c ∈ wheelNames) : ∃ fx fy fz, Wheel c r fx fy fz := by
  obtain ⟨st, inp, m, -, -, -, -, -, sub, ho⟩ := vehicle_inv h
  unfold Wheel
  rw [ho]
  simp only [wheelNames, List.mem_cons, List.not_mem_nil, or_false] at hc
  rcases hc with rfl | rfl | rfl | rfl
  · exact ⟨_, _, _, rfl, rfl, rfl⟩
  · exact ⟨_, _, _, rfl, rfl, rfl⟩
  · exact ⟨_, _, _, rfl, rfl, rfl⟩
  · exact ⟨_, _, _, rfl, rfl, rfl⟩

/-! ## C85 -/

/-- **C85** (all wheels carry load). A car on MF5.2 tyres returns numbers only when no wheel has a load of exactly zero, whatever the parameters of the
car and of the tyres. -/
theorem C85_loaded {p : Params} {d : Four (Dict ℝ)} {opt : Bool} {aero : Mdl ℝ} {kw : Kw ℝ} {r : Ret ℝ} {c : String}
    (h : (car p d opt aero).eval kw = .ok r) (hc : c ∈ wheelNames) : ∃ fx fy fz, Wheel c r fx fy fz ∧ fz ≠ 0 := by
  obtain ⟨fx, fy, fz, hw⟩ := wheel_exists h hc
  obtain ⟨dc, k, a, v, o, -, hg, -⟩ := wheel_inv h hc hw
  exact ⟨fx, fy, fz, hw, fun e => C82_unloaded dc opt _ e o hg⟩

/-- **C85** (grip). On four default tyres, the horizontal force on a wheel with a load inside the range of the parameter file is at most 1.48 times its
load, whatever the car does. -/
theorem C85_grip {p : Params} {opt : Bool} {aero : Mdl ℝ} {kw : Kw ℝ} {r : Ret ℝ} {c : String} {fx fy fz : ℝ}
    (h : (car p ⟨defaults, defaults, defaults, defaults⟩ opt aero).eval kw = .ok r) (hc : c ∈ wheelNames) (hw : Wheel c r fx fy fz)
    (h0 : 0 < fz) (h1 : fz ≤ 102349 / 5) : fx ^ 2 + fy ^ 2 ≤ (148 / 100 * fz) ^ 2 := by
  obtain ⟨dc, k, a, v, o, hd, hg, e⟩ := wheel_inv h hc hw
  have hd : dc = defaults := by simpa using hd
  subst hd
  rw [e]
  obtain ⟨g1, g2⟩ := C82_default_grip hg h0 h1 rfl
  have k1 := sq_le_sq' (by linarith [abs_le.mp g1]) (abs_le.mp g1).2
  have k2 := sq_le_sq' (by linarith [abs_le.mp g2]) (abs_le.mp g2).2
  nlinarith [sq_nonneg fz]

/-! ## The car on default tyres runs -/

/-- What a default tyre returns. -/
noncomputable def retOf (opt : Bool) (Fz k a v g : ℝ) : Ret ℝ :=
  let o := outOf (par defaults) ⟨Fz, k, a, v, g⟩ (if opt then (0, 0, 0)
      else (overturning (par defaults) g Fz (forceY (par defaults) ⟨Fz, k, a, v, g⟩), rolling (par defaults) Fz v (forceX (par defaults) ⟨Fz, k, a, v, g⟩),
        aligning (par defaults) ⟨Fz, k, a, v, g⟩))
  { outputs := [("Fx", o.Fx), ("Fy", o.Fy), ("Mx", o.Mx), ("My", o.My), ("Mz", o.Mz), ("Kxk", o.Kxk), ("Gxa", o.Gxa), ("Kya", o.Kya), ("Gyk", o.Gyk),
      ("GSum", o.GSum)] }

theorem tyre_runs (opt : Bool) (Fz k a v g : ℝ) (h : 0 < Fz ∧ Fz ≤ 40000) (hg : |g| ≤ 1) :
    (Mdl.node (mf52 defaults opt) []).eval { inputs := some [("Fz", Fz), ("kappa", k), ("alpha", a), ("vx", v), ("gamma", g)] } =
      .ok (retOf opt Fz k a v g) := by
  have e := tyre_eq defaults opt ⟨Fz, k, a, v, g⟩ (hasKeys_default opt)
  have hf := (forces_iff (par defaults) opt ⟨Fz, k, a, v, g⟩ _).mpr ⟨finite_default h.1 h.2, fun _ => moments_default h.1 hg, rfl⟩
  rw [hf] at e
  exact e

/-- The keys of the outputs of the submodels. -/
def carSubs : List String :=
  ["tire_fl.Fx", "tire_fl.Fy", "tire_fl.Mx", "tire_fl.My", "tire_fl.Mz", "tire_fl.Kxk", "tire_fl.Gxa", "tire_fl.Kya", "tire_fl.Gyk", "tire_fl.GSum",
   "tire_fr.Fx", "tire_fr.Fy", "tire_fr.Mx", "tire_fr.My", "tire_fr.Mz", "tire_fr.Kxk", "tire_fr.Gxa", "tire_fr.Kya", "tire_fr.Gyk", "tire_fr.GSum",
   "tire_rl.Fx", "tire_rl.Fy", "tire_rl.Mx", "tire_rl.My", "tire_rl.Mz", "tire_rl.Kxk", "tire_rl.Gxa", "tire_rl.Kya", "tire_rl.Gyk", "tire_rl.GSum",
   "tire_rr.Fx", "tire_rr.Fy", "tire_rr.Mx", "tire_rr.My", "tire_rr.Mz", "tire_rr.Kxk", "tire_rr.Gxa", "tire_rr.Kya", "tire_rr.Gyk", "tire_rr.GSum",
   "aero.Cx", "aero.Cy", "aero.Cz"]

def blankTyre : Ret Unit := { outputs := [("Fx", ()), ("Fy", ()), ("Mx", ()), ("My", ()), ("Mz", ()), ("Kxk", ()), ("Gxa", ()), ("Kya", ()),
  ("Gyk", ()), ("GSum", ())] }

/-- The static load on a wheel with the transfer by the accelerations that are given as inputs, and the downforce. -/
noncomputable def loads (p : Params) (cz : ℝ) (x u : String → ℝ) : Four ℝ :=
  let total := p.vehicle_mass * p.gravity + cz * (0.5 * p.air_density * (x "vx" ^ 2 + x "vy" ^ 2))
  let front := p.cog_to_ra / (p.cog_to_fa + p.cog_to_ra)
  let latF := -u "ay" * p.vehicle_mass * p.cog_height * p.mech_balance / p.track_front
  let latR := -u "ay" * p.vehicle_mass * p.cog_height * (1 - p.mech_balance) / p.track_rear
  let long := -u "ax" * p.vehicle_mass * p.cog_height / (p.cog_to_fa + p.cog_to_ra) / 2
  { fl := 0.5 * front * total + latF + long
    fr := 0.5 * front * total - latF + long
    rl := 0.5 * (1 - front) * total + latR - long
    rr := 0.5 * (1 - front) * total - latR - long }

/-- **C85** (the default car runs). A car on default tyres, with constant aerodynamic coefficients, returns in every state and for all inputs in which the
four wheel loads are above zero and at most 40 kN. -/
theorem C85_runs (p : Params) (opt : Bool) (cx cy cz : ℝ) (x u : String → ℝ) (mesh : Option ℝ)
    (hfl : 0 < (loads p cz x u).fl ∧ (loads p cz x u).fl ≤ 40000) (hfr : 0 < (loads p cz x u).fr ∧ (loads p cz x u).fr ≤ 40000)
    (hrl : 0 < (loads p cz x u).rl ∧ (loads p cz x u).rl ≤ 40000) (hrr : 0 < (loads p cz x u).rr ∧ (loads p cz x u).rr ≤ 40000) :
    ∃ r, (car p ⟨defaults, defaults, defaults, defaults⟩ opt (.node (constAero cx cy cz) [])).eval
      ⟨some (vehicleNames.states.map fun n => (n, x n)), some (vehicleNames.inputs.map fun n => (n, u n)), mesh⟩ = .ok r := by
  have hc : ∀ Fz kappa alpha vx gamma : ℝ, checkCall mf52Names { inputs := some [("Fz", Fz), ("kappa", kappa), ("alpha", alpha), ("vx", vx), ("gamma", gamma)] } = .ok () :=
    fun _ _ _ _ _ => rfl
  have hg : |(0 : ℝ) * 1| ≤ 1 := by simp
  have hg' : |(0 : ℝ) * -1| ≤ 1 := by simp
  unfold car vehicle
  simp only [eval, simpleVehicle, body, bind_apply, pure_apply, tireRow, arg_some]
  rw [get_some (v := u "throttle") rfl, get_some (v := u "brake") rfl, get_some (v := u "steer") rfl, get_some (v := u "ax") rfl,
    get_some (v := u "ay") rfl, get_some (v := x "vx") rfl, get_some (v := x "vy") rfl, get_some (v := x "yaw_rate") rfl,
    get_some (v := x "wheel_speed_fl") rfl, get_some (v := x "wheel_speed_fr") rfl, get_some (v := x "wheel_speed_rl") rfl,
    get_some (v := x "wheel_speed_rr") rfl]
  rw [ev_call (snm := (constAero cx cy cz).direct) (f := (Mdl.node (constAero cx cy cz) []).eval) rfl (by decide) rfl rfl,
    get_some (v := cz) rfl]
  rw [ev_call (n := "tire_" ++ "fl") (snm := mf52Names) (f := (Mdl.node (mf52 defaults opt) []).eval) rfl
    (by exact (show "tire_fl" ∉ ["aero"] by decide)) (hc _ _ _ _ _) (tyre_runs opt _ _ _ _ _ ?_ hg), get_some rfl, get_some rfl]
  rw [ev_call (n := "tire_" ++ "fr") (snm := mf52Names) (f := (Mdl.node (mf52 defaults opt) []).eval) rfl
    (by exact (show "tire_fr" ∉ ["aero", "tire_fl"] by decide)) (hc _ _ _ _ _) (tyre_runs opt _ _ _ _ _ ?_ hg'), get_some rfl, get_some rfl]
  rw [ev_call (n := "tire_" ++ "rl") (snm := mf52Names) (f := (Mdl.node (mf52 defaults opt) []).eval) rfl
    (by exact (show "tire_rl" ∉ ["aero", "tire_fl", "tire_fr"] by decide)) (hc _ _ _ _ _) (tyre_runs opt _ _ _ _ _ ?_ hg), get_some rfl, get_some rfl]
  rw [ev_call (n := "tire_" ++ "rr") (snm := mf52Names) (f := (Mdl.node (mf52 defaults opt) []).eval) rfl
    (by exact (show "tire_rr" ∉ ["aero", "tire_fl", "tire_fr", "tire_rl"] by decide)) (hc _ _ _ _ _) (tyre_runs opt _ _ _ _ _ ?_ hg'), get_some rfl, get_some rfl,
    get_some (v := cx) rfl]
  · rw [show ∀ a b c d e f g : ℝ, vehicleNames.makeDict "states_dot" [("vx", a), ("vy", b), ("yaw_rate", c), ("wheel_speed_fl", d),
      ("wheel_speed_fr", e), ("wheel_speed_rl", f), ("wheel_speed_rr", g)] = .ok [("vx", a), ("vy", b), ("yaw_rate", c),
      ("wheel_speed_fl", d), ("wheel_speed_fr", e), ("wheel_speed_rl", f), ("wheel_speed_rr", g)] from fun _ _ _ _ _ _ _ => rfl, lift_ok]
    have B : ∀ a1 a2 a3 a4 a5 b1 b2 b3 b4 b5 c1 c2 c3 c4 c5 d1 d2 d3 d4 d5 : ℝ, blank (collected ["tire_fl", "tire_fr", "tire_rl", "tire_rr", "aero"]
        [("aero", { outputs := [("Cx", cx), ("Cy", cy), ("Cz", cz)] }),
         ("tire_fl", retOf opt a1 a2 a3 a4 a5), ("tire_fr", retOf opt b1 b2 b3 b4 b5), ("tire_rl", retOf opt c1 c2 c3 c4 c5),
         ("tire_rr", retOf opt d1 d2 d3 d4 d5)]) = carSubs.map fun k => (k, ()) := by
      intros
      rw [blank_collected]
      exact (show collected ["tire_fl", "tire_fr", "tire_rl", "tire_rr", "aero"] [("aero", coeffs), ("tire_fl", blankTyre),
        ("tire_fr", blankTyre), ("tire_rl", blankTyre), ("tire_rr", blankTyre)] = _ by decide +kernel)
    rw [ev_outputs (K := vehicleOuts) (K' := carSubs) (C := ["aero", "tire_fl", "tire_fr", "tire_rl", "tire_rr"]) rfl rfl rfl
      (keys_of_blank (by exact B _ _ _ _ _ _ _ _ _ _ _ _ _ _ _ _ _ _ _ _))
      (by exact (show ∀ n ∈ ["tire_fl", "tire_fr", "tire_rl", "tire_rr", "aero"], _ by decide))
      (by decide +kernel) (by decide +kernel)
      (by exact (show ∀ n ∈ vehicleNames.outputs ++ carSubs, n ∈ vehicleOuts ∨ n ∈ carSubs by decide +kernel))]
    exact ⟨_, rfl⟩
  · exact hrr
  · exact hrl
  · exact hfr
  · exact hfl

theorem add_norm {a1 b1 r1 a2 b2 r2 : ℝ} (h1 : a1 ^ 2 + b1 ^ 2 ≤ r1 ^ 2) (h2 : a2 ^ 2 + b2 ^ 2 ≤ r2 ^ 2) (k1 : 0 ≤ r1) (k2 : 0 ≤ r2) :
    (a1 + a2) ^ 2 + (b1 + b2) ^ 2 ≤ (r1 + r2) ^ 2 := by
  have h3 : (a1 * a2 + b1 * b2) ^ 2 ≤ (r1 * r2) ^ 2 := by
    have e : (a1 * a2 + b1 * b2) ^ 2 ≤ (a1 ^ 2 + b1 ^ 2) * (a2 ^ 2 + b2 ^ 2) := by nlinarith [sq_nonneg (a1 * b2 - a2 * b1)]
    refine e.trans ?_
    rw [mul_pow]
    exact mul_le_mul h1 h2 (by positivity) (by positivity)
  have h4 : a1 * a2 + b1 * b2 ≤ r1 * r2 := le_of_abs_le (abs_le_of_sq_le_sq h3 (by positivity))
  nlinarith

/-- **C85** (acceleration). On four default tyres, with the four wheel loads inside the range of the parameter file, the acceleration of the car, apart from
the drag, is at most 1.48 times the sum of the wheel loads over the mass. -/
theorem C85_acceleration {p : Params} {opt : Bool} {aero : Mdl ℝ} {kw : Kw ℝ} {r : Ret ℝ} (hm : 0 < p.vehicle_mass)
    (h : (car p ⟨defaults, defaults, defaults, defaults⟩ opt aero).eval kw = .ok r)
    (hl : ∀ c ∈ wheelNames, ∀ fx fy fz, Wheel c r fx fy fz → 0 < fz ∧ fz ≤ 102349 / 5) :
    ∃ ax ay drag f1 f2 f3 f4, r.outputs.lookup "ax" = some ax ∧ r.outputs.lookup "ay" = some ay ∧
      r.outputs.lookup "Fz_tire_fl" = some f1 ∧ r.outputs.lookup "Fz_tire_fr" = some f2 ∧
      r.outputs.lookup "Fz_tire_rl" = some f3 ∧ r.outputs.lookup "Fz_tire_rr" = some f4 ∧
      (∃ states vx vy cx, kw.states = some states ∧ states.lookup "vx" = some vx ∧ states.lookup "vy" = some vy ∧
        (∃ yaw, states.lookup "yaw_rate" = some yaw ∧
          Nums.Returns aero [("front_ride_height", vx), ("rear_ride_height", vy), ("yaw", yaw)] [("Cx", cx)]) ∧
        drag = cx * (0.5 * p.air_density * (vx ^ 2 + vy ^ 2))) ∧
      (ax + drag / p.vehicle_mass) ^ 2 + ay ^ 2 ≤ (148 / 100 * (f1 + f2 + f3 + f4) / p.vehicle_mass) ^ 2 := by
  have h' := h
  obtain ⟨st, inp, m, hst, -, hgv, hcall, -, sub, ho⟩ := vehicle_inv h'
  have w1 : Wheel "fl" r (m.force p).fl.x (m.force p).fl.y (m.force p).fl.z := by
    unfold Wheel
    rw [ho]
    exact ⟨rfl, rfl, rfl⟩
  have w2 : Wheel "fr" r (m.force p).fr.x (m.force p).fr.y (m.force p).fr.z := by
    unfold Wheel
    rw [ho]
    exact ⟨rfl, rfl, rfl⟩
  have w3 : Wheel "rl" r (m.force p).rl.x (m.force p).rl.y (m.force p).rl.z := by
    unfold Wheel
    rw [ho]
    exact ⟨rfl, rfl, rfl⟩
  have w4 : Wheel "rr" r (m.force p).rr.x (m.force p).rr.y (m.force p).rr.z := by
    unfold Wheel
    rw [ho]
    exact ⟨rfl, rfl, rfl⟩
  have l1 := hl "fl" (by decide) _ _ _ w1
  have l2 := hl "fr" (by decide) _ _ _ w2
  have l3 := hl "rl" (by decide) _ _ _ w3
  have l4 := hl "rr" (by decide) _ _ _ w4
  have g1 := C85_grip h (by decide) w1 l1.1 l1.2
  have g2 := C85_grip h (by decide) w2 l2.1 l2.2
  have g3 := C85_grip h (by decide) w3 l3.1 l3.2
  have g4 := C85_grip h (by decide) w4 l4.1 l4.2
  have s := add_norm (add_norm (add_norm g1 g2 (by linarith [l1.1]) (by linarith [l2.1])) g3 (by linarith [l1.1, l2.1]) (by linarith [l3.1])) g4
    (by linarith [l1.1, l2.1, l3.1]) (by linarith [l4.1])
  refine ⟨m.ax p, m.ay p, m.cx * (0.5 * p.air_density * (m.vx ^ 2 + m.vy ^ 2)), (m.force p).fl.z, (m.force p).fr.z, (m.force p).rl.z, (m.force p).rr.z,
    ?_, ?_, w1.2.2, w2.2.2, w3.2.2, w4.2.2, ⟨st, m.vx, m.vy, m.cx, hst, hgv.vx, hgv.vy, ⟨m.yaw_rate, hgv.yaw_rate, ?_⟩, rfl⟩, ?_⟩
  · rw [ho]
    rfl
  · rw [ho]
    rfl
  · obtain ⟨ret, e1, e2⟩ := hcall.aero
    exact ⟨ret, e1, fun k v hk => e2 k v (by simp at hk; simp [hk])⟩
  · have ex : m.ax p + m.cx * (0.5 * p.air_density * (m.vx ^ 2 + m.vy ^ 2)) / p.vehicle_mass =
        ((m.force p).fl.x + (m.force p).fr.x + (m.force p).rl.x + (m.force p).rr.x) / p.vehicle_mass := by
      show ((m.force p).fl.x + (m.force p).fr.x + (m.force p).rl.x + (m.force p).rr.x + -m.cx * m.dynPressure p) / p.vehicle_mass + _ = _
      unfold Nums.dynPressure
      ring
    have ey : m.ay p = ((m.force p).fl.y + (m.force p).fr.y + (m.force p).rl.y + (m.force p).rr.y) / p.vehicle_mass := by
      show ((m.force p).fl.y + (m.force p).fr.y + (m.force p).rl.y + (m.force p).rr.y + 0) / p.vehicle_mass = _
      rw [add_zero]
    rw [ex, ey, div_pow, div_pow, ← add_div, div_pow]
    refine div_le_div_of_nonneg_right ?_ (by positivity)
    refine s.trans (le_of_eq ?_)
    ring

/-- The hypotheses can be met: the default car with default tyres, upright on a level road, in every state without accelerations in the inputs and without
downforce. -/
theorem C85_case (opt : Bool) (cx cy : ℝ) (x u : String → ℝ) (mesh : Option ℝ) (hax : u "ax" = 0) (hay : u "ay" = 0) :
    ∃ r, (car defaultParams ⟨defaults, defaults, defaults, defaults⟩ opt (.node (constAero cx cy 0) [])).eval
        ⟨some (vehicleNames.states.map fun n => (n, x n)), some (vehicleNames.inputs.map fun n => (n, u n)), mesh⟩ = .ok r ∧
      ∀ c ∈ wheelNames, ∀ fx fy fz, Wheel c r fx fy fz → 0 < fz ∧ fz ≤ 102349 / 5 := by
  have hL : ∀ y, y ∈ [(loads defaultParams 0 x u).fl, (loads defaultParams 0 x u).fr, (loads defaultParams 0 x u).rl, (loads defaultParams 0 x u).rr] →
      y = 8829 / 2 := by
    intro y hy
    unfold loads at hy
    rw [hax, hay] at hy
    simp only [defaultParams, List.mem_cons, List.not_mem_nil, or_false] at hy
    rcases hy with rfl | rfl | rfl | rfl <;> norm_num
  obtain ⟨r, hr⟩ := C85_runs defaultParams opt cx cy 0 x u mesh
    (by rw [hL (loads defaultParams 0 x u).fl (by simp)]; norm_num) (by rw [hL (loads defaultParams 0 x u).fr (by simp)]; norm_num)
    (by rw [hL (loads defaultParams 0 x u).rl (by simp)]; norm_num) (by rw [hL (loads defaultParams 0 x u).rr (by simp)]; norm_num)
  refine ⟨r, hr, ?_⟩
  obtain ⟨st, inp, m, hst, hin, hgv, hcall, -, sub, ho⟩ := vehicle_inv hr
  have hst : vehicleNames.states.map (fun n => (n, x n)) = st := Option.some.inj hst
  have hin : vehicleNames.inputs.map (fun n => (n, u n)) = inp := Option.some.inj hin
  subst hst hin
  have e1 : u "ax" = m.ax_in := Option.some.inj hgv.ax
  have e2 : u "ay" = m.ay_in := Option.some.inj hgv.ay
  have e3 : m.cz = 0 := by
    obtain ⟨ret, k1, k2⟩ := hcall.aero
    have k3 := k2 "Cz" m.cz (by simp)
    cases k1
    exact (Option.some.inj k3).symm
  have hload : ∀ y, y ∈ [(m.load defaultParams).fl, (m.load defaultParams).fr, (m.load defaultParams).rl, (m.load defaultParams).rr] → y = 8829 / 2 := by
    intro y hy
    unfold Nums.load Nums.latF Nums.latR Nums.long Nums.fzTotal Nums.wdf at hy
    rw [← e1, ← e2, e3, hax, hay] at hy
    simp only [defaultParams, List.mem_cons, List.not_mem_nil, or_false] at hy
    rcases hy with rfl | rfl | rfl | rfl <;> norm_num
  intro c hc fx fy fz hw
  have hz : fz = 8829 / 2 := by
    have := hw.2.2
    rw [ho] at this
    simp only [wheelNames, List.mem_cons, List.not_mem_nil, or_false] at hc
    rcases hc with rfl | rfl | rfl | rfl
    · exact (Option.some.inj this).symm.trans ((rotate_z _ _).trans (hload _ (by simp)))
    · exact (Option.some.inj this).symm.trans ((rotate_z _ _).trans (hload _ (by simp)))
    · exact (Option.some.inj this).symm.trans ((rotate_z _ _).trans (hload _ (by simp)))
    · exact (Option.some.inj this).symm.trans ((rotate_z _ _).trans (hload _ (by simp)))
  rw [hz]
  norm_num

end Lumos.Tyre
