import Verif.Veh.Perantoni
/-!
# C60: left and right

A vehicle driving a mirrored situation moves as the mirror image.
-/

namespace Lumos.Veh

open Lumos Io Io.Mdl

/-! ## Specification -/

/-- The states (or their derivatives) are mirror images: lateral velocity and yaw rate change sign, left and right wheels swap. -/
structure StatesMirror (x x' : Dict ℝ) : Prop where
  vx : val x' "vx" = val x "vx"
  vy : val x' "vy" = -val x "vy"
  yaw_rate : val x' "yaw_rate" = -val x "yaw_rate"
  fl : val x' "wheel_speed_fl" = val x "wheel_speed_fr"
  fr : val x' "wheel_speed_fr" = val x "wheel_speed_fl"
  rl : val x' "wheel_speed_rl" = val x "wheel_speed_rr"
  rr : val x' "wheel_speed_rr" = val x "wheel_speed_rl"

/-- The inputs are mirror images: steering and lateral acceleration change sign. -/
structure InputsMirror (u u' : Dict ℝ) : Prop where
  throttle : val u' "throttle" = val u "throttle"
  brake : val u' "brake" = val u "brake"
  ax : val u' "ax" = val u "ax"
  steer : val u' "steer" = -val u "steer"
  ay : val u' "ay" = -val u "ay"

/-- The other side. -/
def Corner.other : Corner → Corner
  | .fl => .fr | .fr => .fl | .rl => .rr | .rr => .rl

/-- The outputs are mirror images. -/
structure OutputsMirror (o o' : Dict ℝ) : Prop where
  ax : val o' "ax" = val o "ax"
  ay : val o' "ay" = -val o "ay"
  res_ax : val o' "res_ax" = val o "res_ax"
  res_ay : val o' "res_ay" = -val o "res_ay"
  drive_rl : val o' "drive_torque_rl" = val o "drive_torque_rr"
  drive_rr : val o' "drive_torque_rr" = val o "drive_torque_rl"
  Fx : ∀ c : Corner, val o' ("Fx_tire_" ++ c.name) = val o ("Fx_tire_" ++ c.other.name)
  Fy : ∀ c : Corner, val o' ("Fy_tire_" ++ c.name) = -val o ("Fy_tire_" ++ c.other.name)
  Fz : ∀ c : Corner, val o' ("Fz_tire_" ++ c.name) = val o ("Fz_tire_" ++ c.other.name)
  slip_ratio : ∀ c : Corner, val o' ("slip_ratio_" ++ c.name) = val o ("slip_ratio_" ++ c.other.name)
  slip_angle : ∀ c : Corner, val o' ("slip_angle_" ++ c.name) = -val o ("slip_angle_" ++ c.other.name)

/-- The aero coefficients are those of a symmetric body. -/
def AeroMirror (aero : Mdl ℝ) : Prop :=
  ∀ (a b c : ℝ) r r', aero.eval ⟨none, some [("front_ride_height", a), ("rear_ride_height", b), ("yaw", c)], none⟩ = .ok r →
    aero.eval ⟨none, some [("front_ride_height", a), ("rear_ride_height", -b), ("yaw", -c)], none⟩ = .ok r' →
    val r'.outputs "Cx" = val r.outputs "Cx" ∧ val r'.outputs "Cz" = val r.outputs "Cz"

/-! ## Helpers -/

/-- The mirror image of the numbers. -/
def Nums.mir (m : Nums) : Nums where
  vx := m.vx
  vy := -m.vy
  yaw_rate := -m.yaw_rate
  w := ⟨m.w.fr, m.w.fl, m.w.rr, m.w.rl⟩
  throttle := m.throttle
  brake := m.brake
  steer := -m.steer
  ax_in := m.ax_in
  ay_in := -m.ay_in
  cx := m.cx
  cz := m.cz
  fx := ⟨m.fx.fr, m.fx.fl, m.fx.rr, m.fx.rl⟩
  fy := ⟨m.fy.fr, m.fy.fl, m.fy.rr, m.fy.rl⟩

theorem Nums.mir_load (p : Params) (m : Nums) :
    (m.mir.load p).fl = (m.load p).fr ∧ (m.mir.load p).fr = (m.load p).fl ∧ (m.mir.load p).rl = (m.load p).rr ∧
      (m.mir.load p).rr = (m.load p).rl := by
  simp only [Nums.load, Nums.mir, Nums.latF, Nums.latR, Nums.long, Nums.fzTotal, Nums.dynPressure]
  refine ⟨?_, ?_, ?_, ?_⟩ <;> ring

/-- The mirror image of a vector. -/
def V3.mir (v : V3) : V3 := ⟨v.x, -v.y, v.z⟩

theorem Nums.mir_vel (p : Params) (m : Nums) :
    (m.mir.vel p).fl = (m.vel p).fr.mir ∧ (m.mir.vel p).fr = (m.vel p).fl.mir ∧ (m.mir.vel p).rl = (m.vel p).rr.mir ∧
      (m.mir.vel p).rr = (m.vel p).rl.mir := by
  refine ⟨?_, ?_, ?_, ?_⟩ <;>
  · ext <;> simp only [Nums.vel, Nums.mir, V3.mir, rotateZ, Nums.angle, Nums.pos, V3.cross, V3.add_x, V3.add_y, V3.add_z, neg_mul,
      Real.cos_neg, Real.sin_neg, Real.cos_zero, Real.sin_zero] <;> ring

theorem Nums.mir_alpha (v : V3) : Nums.alpha v.mir = -Nums.alpha v := by
  simp only [Nums.alpha, V3.mir, neg_div, Real.arctan_neg]

theorem Nums.mir_force (p : Params) (m : Nums) :
    (m.mir.force p).fl = (m.force p).fr.mir ∧ (m.mir.force p).fr = (m.force p).fl.mir ∧ (m.mir.force p).rl = (m.force p).rr.mir ∧
      (m.mir.force p).rr = (m.force p).rl.mir := by
  obtain ⟨l1, l2, l3, l4⟩ := Nums.mir_load p m
  simp only [Nums.force, l1, l2, l3, l4]
  refine ⟨?_, ?_, ?_, ?_⟩ <;>
  · ext <;> simp only [Nums.mir, V3.mir, rotateZ, Nums.angle, neg_mul, neg_neg, neg_zero, Real.cos_neg, Real.sin_neg, Real.cos_zero,
      Real.sin_zero] <;> ring

theorem Nums.mir_asks (p : Params) (m : Nums) (c : Corner) : m.mir.asks p c = m.asks p c.other := by
  obtain ⟨l1, l2, l3, l4⟩ := Nums.mir_load p m
  obtain ⟨v1, v2, v3, v4⟩ := Nums.mir_vel p m
  cases c <;> simp only [Corner.other, Nums.asks, Nums.tireIn, l1, l2, l3, l4, v1, v2, v3, v4, Nums.mir_alpha] <;>
    simp [Nums.mir, V3.mir, Nums.kappa]

/-- The same submodel asked the same twice. -/
theorem returns_same {s : Mdl ℝ} {d : Dict ℝ} {k1 k2 : String} {a b a' b' : ℝ} (h : Nums.Returns s d [(k1, a), (k2, b)])
    (h' : Nums.Returns s d [(k1, a'), (k2, b')]) : a = a' ∧ b = b' := by
  obtain ⟨r, e, hv⟩ := h
  obtain ⟨r', e', hv'⟩ := h'
  rw [e] at e'
  cases e'
  have h1 := hv k1 a (.head _)
  rw [hv' k1 a' (.head _)] at h1
  have h2 := hv k2 b (.tail _ (.head _))
  rw [hv' k2 b' (.tail _ (.head _))] at h2
  exact ⟨(Option.some.inj h1).symm, (Option.some.inj h2).symm⟩

/-! ## C60 -/

/-- A vehicle and the vehicle with the tires of the other side, in mirrored states with mirrored inputs: derivatives and outputs are
mirror images. -/
theorem C60_mirror {p : Params} {t : Four (Mdl ℝ)} {aero : Mdl ℝ} {x u x' u' : Dict ℝ} {mesh mesh' : Option ℝ} {r r' : Ret ℝ}
    (h : (vehicle p t.fl t.fr t.rl t.rr aero).eval ⟨some x, some u, mesh⟩ = .ok r)
    (h' : (vehicle p t.fr t.fl t.rr t.rl aero).eval ⟨some x', some u', mesh'⟩ = .ok r')
    (hx : StatesMirror x x') (hu : InputsMirror u u') (ha : AeroMirror aero)
    (hw : val x "wheel_speed_rl" + val x "wheel_speed_rr" ≠ 0) :
    StatesMirror r.statesDot r'.statesDot ∧ OutputsMirror r.outputs r'.outputs := by
  obtain ⟨m, hg, hc, hd, sub, ho⟩ := vehicle_nums h
  obtain ⟨m', hg', hc', hd', sub', ho'⟩ := vehicle_nums h'
  have key : m' = m.mir := by
    have e1 : m'.vx = m.vx := by have := hx.vx; rwa [val_of hg.vx, val_of hg'.vx] at this
    have e2 : m'.vy = -m.vy := by have := hx.vy; rwa [val_of hg.vy, val_of hg'.vy] at this
    have e3 : m'.yaw_rate = -m.yaw_rate := by have := hx.yaw_rate; rwa [val_of hg.yaw_rate, val_of hg'.yaw_rate] at this
    have e4 : m'.w.fl = m.w.fr := by have := hx.fl; rwa [val_of hg.w_fr, val_of hg'.w_fl] at this
    have e5 : m'.w.fr = m.w.fl := by have := hx.fr; rwa [val_of hg.w_fl, val_of hg'.w_fr] at this
    have e6 : m'.w.rl = m.w.rr := by have := hx.rl; rwa [val_of hg.w_rr, val_of hg'.w_rl] at this
    have e7 : m'.w.rr = m.w.rl := by have := hx.rr; rwa [val_of hg.w_rl, val_of hg'.w_rr] at this
    have e8 : m'.throttle = m.throttle := by have := hu.throttle; rwa [val_of hg.throttle, val_of hg'.throttle] at this
    have e9 : m'.brake = m.brake := by have := hu.brake; rwa [val_of hg.brake, val_of hg'.brake] at this
    have e10 : m'.ax_in = m.ax_in := by have := hu.ax; rwa [val_of hg.ax, val_of hg'.ax] at this
    have e11 : m'.steer = -m.steer := by have := hu.steer; rwa [val_of hg.steer, val_of hg'.steer] at this
    have e12 : m'.ay_in = -m.ay_in := by have := hu.ay; rwa [val_of hg.ay, val_of hg'.ay] at this
    obtain ⟨vx, vy, yr, ⟨w1, w2, w3, w4⟩, th, br, st, ax, ay, cx, cz, ⟨fx1, fx2, fx3, fx4⟩, ⟨fy1, fy2, fy3, fy4⟩⟩ := m'
    simp only at e1 e2 e3 e4 e5 e6 e7 e8 e9 e10 e11 e12
    subst e1 e2 e3 e4 e5 e6 e7 e8 e9 e10 e11 e12
    have ec : cx = m.cx ∧ cz = m.cz := by
      obtain ⟨ra, ea, va⟩ := hc.aero
      obtain ⟨ra', ea', va'⟩ := hc'.aero
      obtain ⟨c1, c2⟩ := ha _ _ _ _ _ ea ea'
      rw [val_of (va "Cx" _ (.head _)), val_of (va' "Cx" _ (.head _))] at c1
      rw [val_of (va "Cz" _ (.tail _ (.head _))), val_of (va' "Cz" _ (.tail _ (.head _)))] at c2
      exact ⟨c1, c2⟩
    obtain ⟨rfl, rfl⟩ := ec
    have A := Nums.mir_asks p m
    have f1 : fx1 = m.fx.fr ∧ fy1 = m.fy.fr := by
      refine returns_same hc'.fl ?_
      have := hc.fr
      rw [show Nums.tireIn p m m.w.fr (m.load p).fr (-1) (m.vel p).fr = m.mir.asks p .fl from (A .fl).symm] at this
      exact this
    have f2 : fx2 = m.fx.fl ∧ fy2 = m.fy.fl := by
      refine returns_same hc'.fr ?_
      have := hc.fl
      rw [show Nums.tireIn p m m.w.fl (m.load p).fl 1 (m.vel p).fl = m.mir.asks p .fr from (A .fr).symm] at this
      exact this
    have f3 : fx3 = m.fx.rr ∧ fy3 = m.fy.rr := by
      refine returns_same hc'.rl ?_
      have := hc.rr
      rw [show Nums.tireIn p m m.w.rr (m.load p).rr (-1) (m.vel p).rr = m.mir.asks p .rl from (A .rl).symm] at this
      exact this
    have f4 : fx4 = m.fx.rl ∧ fy4 = m.fy.rl := by
      refine returns_same hc'.rr ?_
      have := hc.rl
      rw [show Nums.tireIn p m m.w.rl (m.load p).rl 1 (m.vel p).rl = m.mir.asks p .rr from (A .rr).symm] at this
      exact this
    obtain ⟨rfl, rfl⟩ := f1
    obtain ⟨rfl, rfl⟩ := f2
    obtain ⟨rfl, rfl⟩ := f3
    obtain ⟨rfl, rfl⟩ := f4
    rfl
  subst key
  have O := outs_of p m sub
  rw [← ho] at O
  have D := dots_of p m
  rw [← hd] at D
  have O' := outs_of p m.mir sub'
  rw [← ho'] at O'
  have D' := dots_of p m.mir
  rw [← hd'] at D'
  obtain ⟨F1, F2, F3, F4⟩ := Nums.mir_force p m
  obtain ⟨v1, v2, v3, v4⟩ := Nums.mir_vel p m
  have ax : m.mir.ax p = m.ax p := by
    unfold Nums.ax Nums.totalForce
    simp only [V3.add_x, F1, F2, F3, F4, V3.mir, Nums.drag, Nums.dynPressure]
    simp only [Nums.mir]
    ring
  have ay : m.mir.ay p = -m.ay p := by
    unfold Nums.ay Nums.totalForce
    simp only [V3.add_y, F1, F2, F3, F4, V3.mir, Nums.drag]
    ring_nf
  have mz : (m.mir.totalMoment p).z = -(m.totalMoment p).z := by
    unfold Nums.totalMoment V3.cross
    simp only [V3.add_z, F1, F2, F3, F4, V3.mir, Nums.pos]
    ring
  have dt : m.mir.deltaTorque p = -m.deltaTorque p := by unfold Nums.deltaTorque Nums.mir; ring
  have tl : m.mir.torqueL p = m.torqueR p := by
    unfold Nums.torqueR Nums.torqueL
    rw [dt]
    rw [val_of hg.w_rl, val_of hg.w_rr] at hw
    simp only [Nums.mir, add_comm m.w.rr]
    field_simp
    ring
  have tr : m.mir.torqueR p = m.torqueL p := by
    unfold Nums.torqueR
    rw [tl, dt]
    unfold Nums.torqueR
    ring
  refine ⟨⟨?_, ?_, ?_, ?_, ?_, ?_, ?_⟩, ⟨?_, ?_, ?_, ?_, ?_, ?_, ?_, ?_, ?_, ?_, ?_⟩⟩
  · rw [D.vx, D'.vx, ax]; simp only [Nums.mir]; ring
  · rw [D.vy, D'.vy, ay]; simp only [Nums.mir]; ring
  · rw [D.yaw, D'.yaw, mz]; ring
  · rw [D.fr, D'.fl]; rfl
  · rw [D.fl, D'.fr]; rfl
  · rw [D.rr, D'.rl, tl]; rfl
  · rw [D.rl, D'.rr, tr]; rfl
  · rw [O.ax, O'.ax, ax]
  · rw [O.ay, O'.ay, ay]
  · rw [O.rax, O'.rax, ax]; rfl
  · rw [O.ray, O'.ray, ay]; simp only [Nums.mir]; ring
  · rw [O.tr, O'.tl, tl]
  · rw [O.tl, O'.tr, tr]
  · intro c
    cases c
    · exact O'.xfl.trans ((congrArg V3.x F1).trans O.xfr.symm)
    · exact O'.xfr.trans ((congrArg V3.x F2).trans O.xfl.symm)
    · exact O'.xrl.trans ((congrArg V3.x F3).trans O.xrr.symm)
    · exact O'.xrr.trans ((congrArg V3.x F4).trans O.xrl.symm)
  · intro c
    cases c
    · exact O'.yfl.trans ((congrArg V3.y F1).trans (congrArg Neg.neg O.yfr.symm))
    · exact O'.yfr.trans ((congrArg V3.y F2).trans (congrArg Neg.neg O.yfl.symm))
    · exact O'.yrl.trans ((congrArg V3.y F3).trans (congrArg Neg.neg O.yrr.symm))
    · exact O'.yrr.trans ((congrArg V3.y F4).trans (congrArg Neg.neg O.yrl.symm))
  · intro c
    cases c
    · exact O'.zfl.trans ((congrArg V3.z F1).trans O.zfr.symm)
    · exact O'.zfr.trans ((congrArg V3.z F2).trans O.zfl.symm)
    · exact O'.zrl.trans ((congrArg V3.z F3).trans O.zrr.symm)
    · exact O'.zrr.trans ((congrArg V3.z F4).trans O.zrl.symm)
  · intro c
    cases c
    · exact O'.kfl.trans O.kfr.symm
    · exact O'.kfr.trans O.kfl.symm
    · exact O'.krl.trans O.krr.symm
    · exact O'.krr.trans O.krl.symm
  · intro c
    cases c
    · exact O'.afl.trans ((congrArg Nums.alpha v1).trans ((Nums.mir_alpha _).trans (congrArg Neg.neg O.afr.symm)))
    · exact O'.afr.trans ((congrArg Nums.alpha v2).trans ((Nums.mir_alpha _).trans (congrArg Neg.neg O.afl.symm)))
    · exact O'.arl.trans ((congrArg Nums.alpha v3).trans ((Nums.mir_alpha _).trans (congrArg Neg.neg O.arr.symm)))
    · exact O'.arr.trans ((congrArg Nums.alpha v4).trans ((Nums.mir_alpha _).trans (congrArg Neg.neg O.arl.symm)))

/-- The hypotheses can be met: any vehicle with Perantoni tires and constant aero coefficients, in any state. -/
example (p : Params) (q : Four TireParams) (cx cy cz : ℝ) (x u : String → ℝ) (hw : x "wheel_speed_rl" + x "wheel_speed_rr" ≠ 0) :
    ∃ x' u' : String → ℝ, ∃ r r', (standardVehicle p q cx cy cz).eval ⟨some (vehicleNames.states.map fun n => (n, x n)),
        some (vehicleNames.inputs.map fun n => (n, u n)), none⟩ = .ok r ∧
      (standardVehicle p ⟨q.fr, q.fl, q.rr, q.rl⟩ cx cy cz).eval ⟨some (vehicleNames.states.map fun n => (n, x' n)),
        some (vehicleNames.inputs.map fun n => (n, u' n)), none⟩ = .ok r' ∧
      StatesMirror r.statesDot r'.statesDot ∧ OutputsMirror r.outputs r'.outputs := by
  obtain ⟨r, h⟩ := standard_runs p q cx cy cz x u none
  let x' : String → ℝ := fun n => if n = "vx" then x "vx" else if n = "vy" then -x "vy" else if n = "yaw_rate" then -x "yaw_rate"
    else if n = "wheel_speed_fl" then x "wheel_speed_fr" else if n = "wheel_speed_fr" then x "wheel_speed_fl"
    else if n = "wheel_speed_rl" then x "wheel_speed_rr" else x "wheel_speed_rl"
  let u' : String → ℝ := fun n => if n = "steer" then -u "steer" else if n = "ay" then -u "ay" else u n
  obtain ⟨r', h'⟩ := standard_runs p ⟨q.fr, q.fl, q.rr, q.rl⟩ cx cy cz x' u' none
  refine ⟨x', u', r, r', h, h', ?_⟩
  refine C60_mirror (t := ⟨tire q.fl, tire q.fr, tire q.rl, tire q.rr⟩) h h' ⟨rfl, rfl, rfl, rfl, rfl, rfl, rfl⟩
    ⟨rfl, rfl, rfl, rfl, rfl⟩ ?_ hw
  intro a b c r r' e e'
  have k : ∀ d, (Mdl.node (constAero cx cy cz) []).eval ⟨none, some d, none⟩
    = .ok { outputs := [("Cx", cx), ("Cy", cy), ("Cz", cz)] } := fun _ => rfl
  rw [k] at e e'
  cases e; cases e'
  exact ⟨rfl, rfl⟩

end Lumos.Veh
