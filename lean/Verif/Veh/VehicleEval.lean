import Verif.Veh.Kinematics
/-!
# What `SimpleVehicle.forward` returns (helpers for C54-C58)
-/

namespace Lumos.Veh

open Lumos Io Io.Mdl

/-! ## Inversion: what a body that returned has done -/

section
variable {nm : Names} {ns : List String} {look : String → Option (Names × (Kw ℝ → Py (Ret ℝ)))} {called : Dict (Ret ℝ)} {r : Ret ℝ}

theorem inv_get {d : Dict ℝ} {n : String} {k : ℝ → Prog ℝ} (h : evalProg nm ns look called (get d n k) = .ok r) :
    ∃ v, d.lookup n = some v ∧ evalProg nm ns look called (k v) = .ok r := by
  unfold get at h
  cases hd : d.lookup n with
  | none => rw [hd] at h; simp [evalProg] at h
  | some v => rw [hd] at h; exact ⟨v, rfl, h⟩

theorem inv_call {n : String} {kw : Kw ℝ} {k : Ret ℝ → Prog ℝ} (h : evalProg nm ns look called (call n kw k) = .ok r) :
    ∃ snm f ret, look n = some (snm, f) ∧ n ∉ called.keys ∧ checkCall snm kw = .ok () ∧ f kw = .ok ret ∧
      evalProg nm ns look (called ++ [(n, ret)]) (k ret) = .ok r := by
  unfold call at h
  simp only [evalProg] at h
  cases hl : look n with
  | none => rw [hl] at h; simp at h
  | some q =>
    obtain ⟨snm, f⟩ := q
    rw [hl] at h
    by_cases hc : n ∈ called.keys
    · simp [hc] at h
    · simp only [if_neg hc] at h
      cases hk : checkCall snm kw with
      | error e => rw [hk] at h; simp at h
      | ok _ =>
        rw [hk] at h
        cases hf : f kw with
        | error e => rw [hf] at h; simp at h
        | ok ret => rw [hf] at h; exact ⟨snm, f, ret, rfl, hc, hk, hf, h⟩

theorem inv_outputs {kw : Dict ℝ} {k : Dict ℝ → Prog ℝ} (h : evalProg nm ns look called (makeOutputs kw k) = .ok r) :
    ∃ d, mergeOutputs nm kw (collected ns called) = .ok d ∧ evalProg nm ns look [] (k d) = .ok r := by
  unfold makeOutputs at h
  simp only [evalProg] at h
  split_ifs at h
  cases hd : mergeOutputs nm kw (collected ns called) with
  | error e => rw [hd] at h; simp at h
  | ok d => rw [hd] at h; exact ⟨d, rfl, h⟩

theorem inv_arg {a : Option (Dict ℝ)} {k : Dict ℝ → Prog ℝ} (h : evalProg nm ns look called (arg a k) = .ok r) :
    ∃ d, a = some d ∧ evalProg nm ns look called (k d) = .ok r := by
  cases a with
  | none => simp [arg, evalProg] at h
  | some d => exact ⟨d, rfl, h⟩

theorem inv_lift {α : Type} {p : Py α} {k : α → Prog ℝ} (h : evalProg nm ns look called (lift p k) = .ok r) :
    ∃ a, p = .ok a ∧ evalProg nm ns look called (k a) = .ok r := by
  cases p with
  | error e => simp [lift, evalProg] at h
  | ok a => exact ⟨a, rfl, h⟩

end

/-- The keywords of `make_outputs_dict` come first. -/
theorem mergeOutputs_eq {nm : Names} {kw sub d : Dict ℝ} (h : mergeOutputs nm kw sub = .ok d) : d = kw ++ sub := by
  unfold mergeOutputs at h
  split_ifs at h
  unfold Names.makeDict at h
  simp only [bind, Except.bind, pure, Except.pure] at h
  cases h1 : Names.starArgs ["self", "group"] (kw ++ sub) with
  | error e => simp [h1] at h
  | ok _ =>
    cases h2 : nm.checkKeys "outputs" (kw ++ sub) with
    | error e => simp [h1, h2] at h
    | ok _ => simp only [h1, h2] at h; exact (Except.ok.inj h).symm

theorem lookup_append_left {d e : Dict ℝ} {k : String} {v : ℝ} (h : d.lookup k = some v) : List.lookup k (d ++ e) = some v := by
  rw [List.lookup_append, h]; rfl

/-! ## The numbers -/

/-- The states and inputs of the vehicle, the coefficients of the aero model and the forces of the tires in their own axes. -/
structure Nums where
  vx : ℝ
  vy : ℝ
  yaw_rate : ℝ
  w : Four ℝ
  throttle : ℝ
  brake : ℝ
  steer : ℝ
  ax_in : ℝ
  ay_in : ℝ
  cx : ℝ
  cz : ℝ
  fx : Four ℝ
  fy : Four ℝ

namespace Nums

noncomputable section

variable (p : Params) (m : Nums)

def angle : ℝ := m.steer * p.max_steer_angle
def deltaTorque : ℝ := -p.kd * (m.w.rl - m.w.rr)
def torqueL : ℝ := (m.throttle * p.max_power + m.deltaTorque p * m.w.rr) / (m.w.rl + m.w.rr)
def torqueR : ℝ := m.torqueL p - m.deltaTorque p
def brakeF : ℝ := p.max_total_brake_torque * m.brake * p.brake_balance * 0.5
def brakeR : ℝ := p.max_total_brake_torque * m.brake * (1 - p.brake_balance) * 0.5
def dynPressure : ℝ := 0.5 * p.air_density * (m.vx ^ 2 + m.vy ^ 2)
def fzTotal : ℝ := p.vehicle_mass * p.gravity + m.cz * m.dynPressure p
def latF : ℝ := -m.ay_in * p.vehicle_mass * p.cog_height * p.mech_balance / p.track_front
def latR : ℝ := -m.ay_in * p.vehicle_mass * p.cog_height * (1 - p.mech_balance) / p.track_rear
def long : ℝ := -m.ax_in * p.vehicle_mass * p.cog_height / (p.cog_to_fa + p.cog_to_ra) / 2
def wdf : ℝ := p.cog_to_ra / (p.cog_to_fa + p.cog_to_ra)

def load : Four ℝ where
  fl := 0.5 * wdf p * m.fzTotal p + m.latF p + m.long p
  fr := 0.5 * wdf p * m.fzTotal p - m.latF p + m.long p
  rl := 0.5 * (1 - wdf p) * m.fzTotal p + m.latR p - m.long p
  rr := 0.5 * (1 - wdf p) * m.fzTotal p - m.latR p - m.long p

def pos : Four V3 where
  fl := ⟨p.cog_to_fa, p.track_front / 2, -p.cog_height⟩
  fr := ⟨p.cog_to_fa, -p.track_front / 2, -p.cog_height⟩
  rl := ⟨-p.cog_to_ra, p.track_rear / 2, -p.cog_height⟩
  rr := ⟨-p.cog_to_ra, -p.track_rear / 2, -p.cog_height⟩

/-- Velocity of a contact patch in the axes of the wheel. -/
def vel : Four V3 where
  fl := rotateZ (m.angle p) (⟨m.vx, m.vy, 0⟩ + V3.cross ⟨0, 0, m.yaw_rate⟩ (pos p).fl)
  fr := rotateZ (m.angle p) (⟨m.vx, m.vy, 0⟩ + V3.cross ⟨0, 0, m.yaw_rate⟩ (pos p).fr)
  rl := rotateZ 0 (⟨m.vx, m.vy, 0⟩ + V3.cross ⟨0, 0, m.yaw_rate⟩ (pos p).rl)
  rr := rotateZ 0 (⟨m.vx, m.vy, 0⟩ + V3.cross ⟨0, 0, m.yaw_rate⟩ (pos p).rr)

def kappa (w : ℝ) : ℝ := -(1 - p.rolling_radius * w / m.vx)

def alpha (v : V3) : ℝ := Real.arctan (v.y / v.x)

/-- Forces of the tires in the axes of the body. -/
def force : Four V3 where
  fl := rotateZ (-m.angle p) ⟨m.fx.fl, m.fy.fl * 1, (m.load p).fl⟩
  fr := rotateZ (-m.angle p) ⟨m.fx.fr, m.fy.fr * -1, (m.load p).fr⟩
  rl := rotateZ (-0) ⟨m.fx.rl, m.fy.rl * 1, (m.load p).rl⟩
  rr := rotateZ (-0) ⟨m.fx.rr, m.fy.rr * -1, (m.load p).rr⟩

def drag : V3 := ⟨-m.cx * m.dynPressure p, 0, 0⟩

def totalForce : V3 := (m.force p).fl + (m.force p).fr + (m.force p).rl + (m.force p).rr + m.drag p

def totalMoment : V3 :=
  V3.cross (pos p).fl (m.force p).fl + V3.cross (pos p).fr (m.force p).fr + V3.cross (pos p).rl (m.force p).rl
    + V3.cross (pos p).rr (m.force p).rr

def ax : ℝ := (m.totalForce p).x / p.vehicle_mass
def ay : ℝ := (m.totalForce p).y / p.vehicle_mass

def dots : Dict ℝ :=
  [("vx", m.ax p + m.yaw_rate * m.vy), ("vy", m.ay p - m.yaw_rate * m.vx), ("yaw_rate", (m.totalMoment p).z / p.Iz),
   ("wheel_speed_fl", (0 - m.brakeF p - m.fx.fl * p.rolling_radius) / p.wheel_inertia),
   ("wheel_speed_fr", (0 - m.brakeF p - m.fx.fr * p.rolling_radius) / p.wheel_inertia),
   ("wheel_speed_rl", (m.torqueL p - m.brakeR p - m.fx.rl * p.rolling_radius) / p.wheel_inertia),
   ("wheel_speed_rr", (m.torqueR p - m.brakeR p - m.fx.rr * p.rolling_radius) / p.wheel_inertia)]

def outs : Dict ℝ :=
  [("ax", m.ax p), ("ay", m.ay p), ("drive_torque_rl", m.torqueL p), ("drive_torque_rr", m.torqueR p),
   ("Fx_tire_fl", (m.force p).fl.x), ("Fy_tire_fl", (m.force p).fl.y), ("Fz_tire_fl", (m.force p).fl.z),
   ("Fx_tire_fr", (m.force p).fr.x), ("Fy_tire_fr", (m.force p).fr.y), ("Fz_tire_fr", (m.force p).fr.z),
   ("Fx_tire_rl", (m.force p).rl.x), ("Fy_tire_rl", (m.force p).rl.y), ("Fz_tire_rl", (m.force p).rl.z),
   ("Fx_tire_rr", (m.force p).rr.x), ("Fy_tire_rr", (m.force p).rr.y), ("Fz_tire_rr", (m.force p).rr.z),
   ("res_ax", m.ax p - m.ax_in), ("res_ay", m.ay p - m.ay_in),
   ("slip_ratio_fl", m.kappa p m.w.fl), ("slip_angle_fl", alpha (m.vel p).fl),
   ("slip_ratio_fr", m.kappa p m.w.fr), ("slip_angle_fr", alpha (m.vel p).fr),
   ("slip_ratio_rl", m.kappa p m.w.rl), ("slip_angle_rl", alpha (m.vel p).rl),
   ("slip_ratio_rr", m.kappa p m.w.rr), ("slip_angle_rr", alpha (m.vel p).rr)]

/-- The inputs of the tire at a corner. -/
def tireIn (w load mirror : ℝ) (v : V3) : Dict ℝ :=
  [("Fz", load), ("kappa", m.kappa p w), ("alpha", alpha v * mirror), ("vx", v.x), ("gamma", 0 * mirror)]

end

/-- The states and inputs are those in the dictionaries. -/
structure Given (m : Nums) (states inputs : Dict ℝ) : Prop where
  vx : states.lookup "vx" = some m.vx
  vy : states.lookup "vy" = some m.vy
  yaw_rate : states.lookup "yaw_rate" = some m.yaw_rate
  w_fl : states.lookup "wheel_speed_fl" = some m.w.fl
  w_fr : states.lookup "wheel_speed_fr" = some m.w.fr
  w_rl : states.lookup "wheel_speed_rl" = some m.w.rl
  w_rr : states.lookup "wheel_speed_rr" = some m.w.rr
  throttle : inputs.lookup "throttle" = some m.throttle
  brake : inputs.lookup "brake" = some m.brake
  steer : inputs.lookup "steer" = some m.steer
  ax : inputs.lookup "ax" = some m.ax_in
  ay : inputs.lookup "ay" = some m.ay_in

/-- A submodel returned for these inputs, and its return has these outputs. -/
def Returns (sub : Mdl ℝ) (inputs : Dict ℝ) (vals : Dict ℝ) : Prop :=
  ∃ ret, sub.eval { inputs := some inputs } = .ok ret ∧ ∀ k v, (k, v) ∈ vals → ret.outputs.lookup k = some v

/-- The forces and coefficients are those that the submodels return. -/
structure Called (p : Params) (m : Nums) (tfl tfr trl trr aero : Mdl ℝ) : Prop where
  aero : Returns aero [("front_ride_height", m.vx), ("rear_ride_height", m.vy), ("yaw", m.yaw_rate)] [("Cx", m.cx), ("Cz", m.cz)]
  fl : Returns tfl (m.tireIn p m.w.fl (m.load p).fl 1 (m.vel p).fl) [("Fx", m.fx.fl), ("Fy", m.fy.fl)]
  fr : Returns tfr (m.tireIn p m.w.fr (m.load p).fr (-1) (m.vel p).fr) [("Fx", m.fx.fr), ("Fy", m.fy.fr)]
  rl : Returns trl (m.tireIn p m.w.rl (m.load p).rl 1 (m.vel p).rl) [("Fx", m.fx.rl), ("Fy", m.fy.rl)]
  rr : Returns trr (m.tireIn p m.w.rr (m.load p).rr (-1) (m.vel p).rr) [("Fx", m.fx.rr), ("Fy", m.fy.rr)]

end Nums

theorem evalL_some {s : List (String × Mdl ℝ)} {n : String} {snm : Names} {f : Kw ℝ → Py (Ret ℝ)} {sub : Mdl ℝ}
    (h : evalL s n = some (snm, f)) (hs : s.lookup n = some sub) : f = sub.eval := by
  rw [evalL_eq, hs] at h
  exact (congrArg Prod.snd (Option.some.inj h)).symm

/-- If `forward` of a vehicle returns, its submodels returned, and the result is made of these numbers. -/
theorem vehicle_inv {p : Params} {tfl tfr trl trr aero : Mdl ℝ} {kw : Kw ℝ} {r : Ret ℝ}
    (h : (Mdl.node (simpleVehicle p) (vehicleSubs tfl tfr trl trr aero)).eval kw = .ok r) :
    ∃ states inputs m, kw.states = some states ∧ kw.inputs = some inputs ∧ Nums.Given m states inputs ∧
      Nums.Called p m tfl tfr trl trr aero ∧ r.statesDot = m.dots p ∧ ∃ sub, r.outputs = m.outs p ++ sub := by
  simp only [eval, simpleVehicle, body, bind_apply, pure_apply, tireRow] at h
  obtain ⟨states, hst, h⟩ := inv_arg h
  obtain ⟨inputs, hin, h⟩ := inv_arg h
  obtain ⟨throttle, h1, h⟩ := inv_get h
  obtain ⟨brake, h2, h⟩ := inv_get h
  obtain ⟨steer, h3, h⟩ := inv_get h
  obtain ⟨ax_in, h4, h⟩ := inv_get h
  obtain ⟨ay_in, h5, h⟩ := inv_get h
  obtain ⟨vx, h6, h⟩ := inv_get h
  obtain ⟨vy, h7, h⟩ := inv_get h
  obtain ⟨yaw_rate, h8, h⟩ := inv_get h
  obtain ⟨w1, h9, h⟩ := inv_get h
  obtain ⟨w2, h10, h⟩ := inv_get h
  obtain ⟨w3, h11, h⟩ := inv_get h
  obtain ⟨w4, h12, h⟩ := inv_get h
  obtain ⟨n0, f0, r0, l0, -, -, e0, h⟩ := inv_call h
  obtain ⟨cz, h13, h⟩ := inv_get h
  obtain ⟨n1, f1, r1, l1, -, -, e1, h⟩ := inv_call h
  obtain ⟨fx1, h14, h⟩ := inv_get h
  obtain ⟨fy1, h15, h⟩ := inv_get h
  obtain ⟨n2, f2, r2, l2, -, -, e2, h⟩ := inv_call h
  obtain ⟨fx2, h16, h⟩ := inv_get h
  obtain ⟨fy2, h17, h⟩ := inv_get h
  obtain ⟨n3, f3, r3, l3, -, -, e3, h⟩ := inv_call h
  obtain ⟨fx3, h18, h⟩ := inv_get h
  obtain ⟨fy3, h19, h⟩ := inv_get h
  obtain ⟨n4, f4, r4, l4, -, -, e4, h⟩ := inv_call h
  obtain ⟨fx4, h20, h⟩ := inv_get h
  obtain ⟨fy4, h21, h⟩ := inv_get h
  obtain ⟨cx, h22, h⟩ := inv_get h
  obtain ⟨sd, h23, h⟩ := inv_lift h
  obtain ⟨d, h24, h⟩ := inv_outputs h
  have k0 := evalL_some (sub := aero) l0 rfl
  have k1 := evalL_some (sub := tfl) l1 rfl
  have k2 := evalL_some (sub := tfr) l2 rfl
  have k3 := evalL_some (sub := trl) l3 rfl
  have k4 := evalL_some (sub := trr) l4 rfl
  subst k0 k1 k2 k3 k4
  have hr : (⟨sd, d, [], []⟩ : Ret ℝ) = r := Except.ok.inj h
  refine ⟨states, inputs, ⟨vx, vy, yaw_rate, ⟨w1, w2, w3, w4⟩, throttle, brake, steer, ax_in, ay_in, cx, cz, ⟨fx1, fx2, fx3, fx4⟩,
    ⟨fy1, fy2, fy3, fy4⟩⟩, hst, hin, ⟨h6, h7, h8, h9, h10, h11, h12, h1, h2, h3, h4, h5⟩, ⟨⟨r0, e0, ?_⟩, ⟨r1, e1, ?_⟩, ⟨r2, e2, ?_⟩,
    ⟨r3, e3, ?_⟩, ⟨r4, e4, ?_⟩⟩, ?_, ?_⟩
  · intro k v hk
    simp only [List.mem_cons, Prod.mk.injEq, List.not_mem_nil, or_false] at hk
    rcases hk with ⟨rfl, rfl⟩ | ⟨rfl, rfl⟩
    · exact h22
    · exact h13
  · intro k v hk
    simp only [List.mem_cons, Prod.mk.injEq, List.not_mem_nil, or_false] at hk
    rcases hk with ⟨rfl, rfl⟩ | ⟨rfl, rfl⟩
    · exact h14
    · exact h15
  · intro k v hk
    simp only [List.mem_cons, Prod.mk.injEq, List.not_mem_nil, or_false] at hk
    rcases hk with ⟨rfl, rfl⟩ | ⟨rfl, rfl⟩
    · exact h16
    · exact h17
  · intro k v hk
    simp only [List.mem_cons, Prod.mk.injEq, List.not_mem_nil, or_false] at hk
    rcases hk with ⟨rfl, rfl⟩ | ⟨rfl, rfl⟩
    · exact h18
    · exact h19
  · intro k v hk
    simp only [List.mem_cons, Prod.mk.injEq, List.not_mem_nil, or_false] at hk
    rcases hk with ⟨rfl, rfl⟩ | ⟨rfl, rfl⟩
    · exact h20
    · exact h21
  · rw [← hr]
    exact (Except.ok.inj h23).symm
  · rw [← hr]
    exact ⟨_, mergeOutputs_eq h24⟩

end Lumos.Veh
