import Verif.Veh.Perantoni
import Verif.Veh.OnTrack
import Mathlib.Analysis.SpecialFunctions.Sqrt
import Mathlib.Analysis.SpecialFunctions.Trigonometric.ArctanDeriv
import Mathlib.Analysis.SpecialFunctions.Trigonometric.Deriv
/-!
# The equations of the car are smooth (helpers for C112)
-/

namespace Lumos.Veh

open Lumos Io Io.Mdl

section
variable {E : Type} [NormedAddCommGroup E] [NormedSpace ℝ E] {k : ℕ∞} {e : E}

theorem line_smooth (q : TireParams) (a b : ℝ) {F : E → ℝ} (hF : ContDiffAt ℝ k F e) : ContDiffAt ℝ k (fun y => q.line a b (F y)) e := by
  unfold TireParams.line
  fun_prop

theorem rho_smooth (q : TireParams) {F κ α : E → ℝ} (hF : ContDiffAt ℝ k F e) (hκ : ContDiffAt ℝ k κ e) (hα : ContDiffAt ℝ k α e)
    (h1 : q.kappaMax (F e) ≠ 0) (h2 : q.alphaMax (F e) ≠ 0) : ContDiffAt ℝ k (fun y => q.rho (F y) (κ y) (α y)) e := by
  unfold TireParams.rho
  refine ContDiffAt.sqrt ?_ (ne_of_gt (by positivity))
  exact ((((hα.div (line_smooth q _ _ hF) h2).pow 2).add ((hκ.div (line_smooth q _ _ hF) h1).pow 2)).add contDiffAt_const)

theorem shape_smooth (Q : ℝ) {ρ : E → ℝ} (hρ : ContDiffAt ℝ k ρ e) : ContDiffAt ℝ k (fun y => shape Q (ρ y)) e := by
  unfold shape
  exact (contDiffAt_const.mul (contDiffAt_const.mul hρ).arctan).sin

theorem tyre_smooth (q : TireParams) {F κ α : E → ℝ} (hF : ContDiffAt ℝ k F e) (hκ : ContDiffAt ℝ k κ e) (hα : ContDiffAt ℝ k α e)
    (h1 : q.kappaMax (F e) ≠ 0) (h2 : q.alphaMax (F e) ≠ 0) :
    ContDiffAt ℝ k (fun y => q.fx (F y) (κ y) (α y)) e ∧ ContDiffAt ℝ k (fun y => q.fy (F y) (κ y) (α y)) e := by
  have hr := rho_smooth q hF hκ hα h1 h2
  unfold TireParams.fx TireParams.fy
  exact ⟨((((line_smooth q _ _ hF).mul (shape_smooth _ hr)).mul hF).mul (hκ.div (line_smooth q _ _ hF) h1)).div hr (rho_pos ..).ne',
    (((((line_smooth q _ _ hF).mul (shape_smooth _ hr)).neg).mul hF).mul (hα.div (line_smooth q _ _ hF) h2)).div hr (rho_pos ..).ne'⟩

end

/-! ## The numbers of the standard vehicle -/

/-- The states and inputs, without the forces of the tyres. -/
noncomputable def rawNums (cx cz : ℝ) (x u : String → ℝ) : Nums where
  vx := x "vx"
  vy := x "vy"
  yaw_rate := x "yaw_rate"
  w := ⟨x "wheel_speed_fl", x "wheel_speed_fr", x "wheel_speed_rl", x "wheel_speed_rr"⟩
  throttle := u "throttle"
  brake := u "brake"
  steer := u "steer"
  ax_in := u "ax"
  ay_in := u "ay"
  cx := cx
  cz := cz
  fx := ⟨0, 0, 0, 0⟩
  fy := ⟨0, 0, 0, 0⟩

/-- The force of a tyre. -/
noncomputable def tyreForce (f : ℝ → ℝ → ℝ → ℝ) (p : Params) (m : Nums) (w load mirror : ℝ) (v : V3) : ℝ :=
  f load (m.kappa p w) (Nums.alpha v * mirror)

/-- All numbers of the standard vehicle. -/
noncomputable def numsOf (p : Params) (q : Four TireParams) (cx cz : ℝ) (x u : String → ℝ) : Nums :=
  let m := rawNums cx cz x u
  { m with
    fx := ⟨tyreForce q.fl.fx p m m.w.fl (m.load p).fl 1 (m.vel p).fl, tyreForce q.fr.fx p m m.w.fr (m.load p).fr (-1) (m.vel p).fr,
      tyreForce q.rl.fx p m m.w.rl (m.load p).rl 1 (m.vel p).rl, tyreForce q.rr.fx p m m.w.rr (m.load p).rr (-1) (m.vel p).rr⟩
    fy := ⟨tyreForce q.fl.fy p m m.w.fl (m.load p).fl 1 (m.vel p).fl, tyreForce q.fr.fy p m m.w.fr (m.load p).fr (-1) (m.vel p).fr,
      tyreForce q.rl.fy p m m.w.rl (m.load p).rl 1 (m.vel p).rl, tyreForce q.rr.fy p m m.w.rr (m.load p).rr (-1) (m.vel p).rr⟩ }

/-! ## Smooth families of numbers -/

/-- Families of states, inputs and coefficients that are smooth at a point. -/
structure RawSmooth {E : Type} [NormedAddCommGroup E] [NormedSpace ℝ E] (k : ℕ∞) (e : E) (m : E → Nums) : Prop where
  vx : ContDiffAt ℝ k (fun y => (m y).vx) e
  vy : ContDiffAt ℝ k (fun y => (m y).vy) e
  yaw_rate : ContDiffAt ℝ k (fun y => (m y).yaw_rate) e
  w_fl : ContDiffAt ℝ k (fun y => (m y).w.fl) e
  w_fr : ContDiffAt ℝ k (fun y => (m y).w.fr) e
  w_rl : ContDiffAt ℝ k (fun y => (m y).w.rl) e
  w_rr : ContDiffAt ℝ k (fun y => (m y).w.rr) e
  throttle : ContDiffAt ℝ k (fun y => (m y).throttle) e
  brake : ContDiffAt ℝ k (fun y => (m y).brake) e
  steer : ContDiffAt ℝ k (fun y => (m y).steer) e
  ax_in : ContDiffAt ℝ k (fun y => (m y).ax_in) e
  ay_in : ContDiffAt ℝ k (fun y => (m y).ay_in) e
  cx : ContDiffAt ℝ k (fun y => (m y).cx) e
  cz : ContDiffAt ℝ k (fun y => (m y).cz) e

/-- The denominators of the vehicle are not zero. -/
structure Divides (p : Params) (m : Nums) : Prop where
  vx : m.vx ≠ 0
  wheels : m.w.rl + m.w.rr ≠ 0
  fl : (m.vel p).fl.x ≠ 0
  fr : (m.vel p).fr.x ≠ 0
  rl : (m.vel p).rl.x ≠ 0
  rr : (m.vel p).rr.x ≠ 0

section
variable {E : Type} [NormedAddCommGroup E] [NormedSpace ℝ E] {k : ℕ∞} {e : E} {m : E → Nums}

/-- A family of vectors that is smooth at a point. -/
def VSmooth (k : ℕ∞) (e : E) (v : E → V3) : Prop :=
  ContDiffAt ℝ k (fun y => (v y).x) e ∧ ContDiffAt ℝ k (fun y => (v y).y) e ∧ ContDiffAt ℝ k (fun y => (v y).z) e

theorem VSmooth.add {v w : E → V3} (hv : VSmooth k e v) (hw : VSmooth k e w) : VSmooth k e (fun y => v y + w y) :=
  ⟨hv.1.add hw.1, hv.2.1.add hw.2.1, hv.2.2.add hw.2.2⟩

theorem VSmooth.cross {v w : E → V3} (hv : VSmooth k e v) (hw : VSmooth k e w) : VSmooth k e (fun y => V3.cross (v y) (w y)) :=
  ⟨(hv.2.1.mul hw.2.2).sub (hv.2.2.mul hw.2.1), (hv.2.2.mul hw.1).sub (hv.1.mul hw.2.2), (hv.1.mul hw.2.1).sub (hv.2.1.mul hw.1)⟩

theorem VSmooth.const (v : V3) : VSmooth k e (fun _ => v) := ⟨contDiffAt_const, contDiffAt_const, contDiffAt_const⟩

theorem VSmooth.rotate {θ : E → ℝ} {v : E → V3} (hθ : ContDiffAt ℝ k θ e) (hv : VSmooth k e v) : VSmooth k e (fun y => rotateZ (θ y) (v y)) := by
  obtain ⟨h1, h2, h3⟩ := hv
  exact ⟨((hθ.cos.mul h1).add (hθ.sin.mul h2)).add (contDiffAt_const.mul h3),
    ((hθ.sin.neg.mul h1).add (hθ.cos.mul h2)).add (contDiffAt_const.mul h3),
    ((contDiffAt_const.mul h1).add (contDiffAt_const.mul h2)).add (contDiffAt_const.mul h3)⟩

namespace RawSmooth

variable (p : Params) (h : RawSmooth k e m)
include h

theorem angle : ContDiffAt ℝ k (fun y => (m y).angle p) e := h.steer.mul contDiffAt_const

theorem dynPressure : ContDiffAt ℝ k (fun y => (m y).dynPressure p) e := contDiffAt_const.mul ((h.vx.pow 2).add (h.vy.pow 2))

theorem fzTotal : ContDiffAt ℝ k (fun y => (m y).fzTotal p) e := contDiffAt_const.add (h.cz.mul (h.dynPressure p))

theorem latF : ContDiffAt ℝ k (fun y => (m y).latF p) e :=
  (((h.ay_in.neg.mul contDiffAt_const).mul contDiffAt_const).mul contDiffAt_const).div_const _

theorem latR : ContDiffAt ℝ k (fun y => (m y).latR p) e :=
  (((h.ay_in.neg.mul contDiffAt_const).mul contDiffAt_const).mul contDiffAt_const).div_const _

theorem long : ContDiffAt ℝ k (fun y => (m y).long p) e :=
  (((h.ax_in.neg.mul contDiffAt_const).mul contDiffAt_const).div_const _).div_const _

theorem load : ContDiffAt ℝ k (fun y => ((m y).load p).fl) e ∧ ContDiffAt ℝ k (fun y => ((m y).load p).fr) e ∧
    ContDiffAt ℝ k (fun y => ((m y).load p).rl) e ∧ ContDiffAt ℝ k (fun y => ((m y).load p).rr) e := by
  have a := h.fzTotal p
  have b := h.latF p
  have c := h.latR p
  have d := h.long p
  exact ⟨((contDiffAt_const.mul a).add b).add d, ((contDiffAt_const.mul a).sub b).add d, ((contDiffAt_const.mul a).add c).sub d,
    ((contDiffAt_const.mul a).sub c).sub d⟩

theorem patch (v : V3) {θ : E → ℝ} (hθ : ContDiffAt ℝ k θ e) :
    VSmooth k e (fun y => rotateZ (θ y) (⟨(m y).vx, (m y).vy, 0⟩ + V3.cross ⟨0, 0, (m y).yaw_rate⟩ v)) :=
  VSmooth.rotate hθ (VSmooth.add ⟨h.vx, h.vy, contDiffAt_const⟩ (VSmooth.cross ⟨contDiffAt_const, contDiffAt_const, h.yaw_rate⟩ (.const v)))

theorem vel : VSmooth k e (fun y => ((m y).vel p).fl) ∧ VSmooth k e (fun y => ((m y).vel p).fr) ∧
    VSmooth k e (fun y => ((m y).vel p).rl) ∧ VSmooth k e (fun y => ((m y).vel p).rr) :=
  ⟨h.patch _ (h.angle p), h.patch _ (h.angle p), h.patch _ contDiffAt_const, h.patch _ contDiffAt_const⟩

theorem kappa (hv : (m e).vx ≠ 0) {w : E → ℝ} (hw : ContDiffAt ℝ k w e) : ContDiffAt ℝ k (fun y => (m y).kappa p (w y)) e :=
  (contDiffAt_const.sub ((contDiffAt_const.mul hw).div h.vx hv)).neg

omit h in
theorem alpha {v : E → V3} (hv : VSmooth k e v) (h0 : (v e).x ≠ 0) : ContDiffAt ℝ k (fun y => Nums.alpha (v y)) e :=
  (hv.2.1.div hv.1 h0).arctan

theorem torque (hd : (m e).w.rl + (m e).w.rr ≠ 0) :
    ContDiffAt ℝ k (fun y => (m y).torqueL p) e ∧ ContDiffAt ℝ k (fun y => (m y).torqueR p) e := by
  have a : ContDiffAt ℝ k (fun y => (m y).deltaTorque p) e := contDiffAt_const.mul (h.w_rl.sub h.w_rr)
  have b : ContDiffAt ℝ k (fun y => (m y).torqueL p) e := ((h.throttle.mul contDiffAt_const).add (a.mul h.w_rr)).div (h.w_rl.add h.w_rr) hd
  exact ⟨b, b.sub a⟩

theorem brakes : ContDiffAt ℝ k (fun y => (m y).brakeF p) e ∧ ContDiffAt ℝ k (fun y => (m y).brakeR p) e :=
  ⟨((contDiffAt_const.mul h.brake).mul contDiffAt_const).mul contDiffAt_const, ((contDiffAt_const.mul h.brake).mul contDiffAt_const).mul contDiffAt_const⟩

end RawSmooth

/-- Smooth forces of the tyres as well. -/
structure AllSmooth (k : ℕ∞) (e : E) (m : E → Nums) : Prop extends RawSmooth k e m where
  fx_fl : ContDiffAt ℝ k (fun y => (m y).fx.fl) e
  fx_fr : ContDiffAt ℝ k (fun y => (m y).fx.fr) e
  fx_rl : ContDiffAt ℝ k (fun y => (m y).fx.rl) e
  fx_rr : ContDiffAt ℝ k (fun y => (m y).fx.rr) e
  fy_fl : ContDiffAt ℝ k (fun y => (m y).fy.fl) e
  fy_fr : ContDiffAt ℝ k (fun y => (m y).fy.fr) e
  fy_rl : ContDiffAt ℝ k (fun y => (m y).fy.rl) e
  fy_rr : ContDiffAt ℝ k (fun y => (m y).fy.rr) e

namespace AllSmooth

variable (p : Params) (h : AllSmooth k e m)
include h

theorem force : VSmooth k e (fun y => ((m y).force p).fl) ∧ VSmooth k e (fun y => ((m y).force p).fr) ∧
    VSmooth k e (fun y => ((m y).force p).rl) ∧ VSmooth k e (fun y => ((m y).force p).rr) := by
  obtain ⟨l1, l2, l3, l4⟩ := h.load p
  have a := (h.angle p).neg
  exact ⟨.rotate a ⟨h.fx_fl, h.fy_fl.mul contDiffAt_const, l1⟩, .rotate a ⟨h.fx_fr, h.fy_fr.mul contDiffAt_const, l2⟩,
    .rotate contDiffAt_const ⟨h.fx_rl, h.fy_rl.mul contDiffAt_const, l3⟩, .rotate contDiffAt_const ⟨h.fx_rr, h.fy_rr.mul contDiffAt_const, l4⟩⟩

theorem total : VSmooth k e (fun y => (m y).totalForce p) ∧ VSmooth k e (fun y => (m y).totalMoment p) := by
  obtain ⟨f1, f2, f3, f4⟩ := h.force p
  have hd : VSmooth k e (fun y => (m y).drag p) := ⟨h.cx.neg.mul (h.dynPressure p), contDiffAt_const, contDiffAt_const⟩
  exact ⟨(((f1.add f2).add f3).add f4).add hd,
    ((((VSmooth.const _).cross f1).add ((VSmooth.const _).cross f2)).add ((VSmooth.const _).cross f3)).add ((VSmooth.const _).cross f4)⟩

omit h in
theorem dict (K : List (String × (E → ℝ))) (hK : ∀ q ∈ K, ContDiffAt ℝ k q.2 e) (n : String) :
    ContDiffAt ℝ k (fun y => val (K.map fun q => (q.1, q.2 y)) n) e := by
  induction K with
  | nil => exact contDiffAt_const
  | cons q K ih =>
    by_cases hq : n = q.1
    · have e1 : (fun y => val ((q :: K).map fun q => (q.1, q.2 y)) n) = q.2 := by
        funext y
        show (List.lookup n ((q.1, q.2 y) :: K.map fun q => (q.1, q.2 y))).getD 0 = _
        rw [hq, List.lookup_cons_self]
        rfl
      rw [e1]
      exact hK q (by simp)
    · have e1 : (fun y => val ((q :: K).map fun q => (q.1, q.2 y)) n) = fun y => val (K.map fun q => (q.1, q.2 y)) n := by
        funext y
        show (List.lookup n ((q.1, q.2 y) :: K.map fun q => (q.1, q.2 y))).getD 0 = _
        rw [List.lookup_cons, beq_eq_false_iff_ne.mpr hq]
        rfl
      rw [e1]
      exact ih fun q hq => hK q (List.mem_cons_of_mem _ hq)

theorem accel : ContDiffAt ℝ k (fun y => (m y).ax p) e ∧ ContDiffAt ℝ k (fun y => (m y).ay p) e :=
  ⟨(h.total p).1.1.div_const _, (h.total p).1.2.1.div_const _⟩

theorem dots (hd : Divides p (m e)) (n : String) : ContDiffAt ℝ k (fun y => val ((m y).dots p) n) e := by
  obtain ⟨t1, t2⟩ := h.total p
  obtain ⟨q1, q2⟩ := h.torque p hd.wheels
  obtain ⟨b1, b2⟩ := h.brakes p
  obtain ⟨ax, ay⟩ := h.accel p
  refine dict [("vx", fun y => (m y).ax p + (m y).yaw_rate * (m y).vy), ("vy", fun y => (m y).ay p - (m y).yaw_rate * (m y).vx),
    ("yaw_rate", fun y => ((m y).totalMoment p).z / p.Iz),
    ("wheel_speed_fl", fun y => (0 - (m y).brakeF p - (m y).fx.fl * p.rolling_radius) / p.wheel_inertia),
    ("wheel_speed_fr", fun y => (0 - (m y).brakeF p - (m y).fx.fr * p.rolling_radius) / p.wheel_inertia),
    ("wheel_speed_rl", fun y => ((m y).torqueL p - (m y).brakeR p - (m y).fx.rl * p.rolling_radius) / p.wheel_inertia),
    ("wheel_speed_rr", fun y => ((m y).torqueR p - (m y).brakeR p - (m y).fx.rr * p.rolling_radius) / p.wheel_inertia)] ?_ n
  simp only [List.forall_mem_cons, List.not_mem_nil, false_implies, implies_true, and_true]
  exact ⟨ax.add (h.yaw_rate.mul h.vy), ay.sub (h.yaw_rate.mul h.vx), t2.2.2.div_const _,
    ((contDiffAt_const.sub b1).sub (h.fx_fl.mul contDiffAt_const)).div_const _, ((contDiffAt_const.sub b1).sub (h.fx_fr.mul contDiffAt_const)).div_const _,
    ((q1.sub b2).sub (h.fx_rl.mul contDiffAt_const)).div_const _, ((q2.sub b2).sub (h.fx_rr.mul contDiffAt_const)).div_const _⟩

theorem outs (hd : Divides p (m e)) (n : String) : ContDiffAt ℝ k (fun y => val ((m y).outs p) n) e := by
  obtain ⟨q1, q2⟩ := h.torque p hd.wheels
  obtain ⟨ax, ay⟩ := h.accel p
  obtain ⟨f1, f2, f3, f4⟩ := h.force p
  obtain ⟨v1, v2, v3, v4⟩ := h.vel p
  refine dict [("ax", fun y => (m y).ax p), ("ay", fun y => (m y).ay p), ("drive_torque_rl", fun y => (m y).torqueL p),
    ("drive_torque_rr", fun y => (m y).torqueR p),
    ("Fx_tire_fl", fun y => ((m y).force p).fl.x), ("Fy_tire_fl", fun y => ((m y).force p).fl.y), ("Fz_tire_fl", fun y => ((m y).force p).fl.z),
    ("Fx_tire_fr", fun y => ((m y).force p).fr.x), ("Fy_tire_fr", fun y => ((m y).force p).fr.y), ("Fz_tire_fr", fun y => ((m y).force p).fr.z),
    ("Fx_tire_rl", fun y => ((m y).force p).rl.x), ("Fy_tire_rl", fun y => ((m y).force p).rl.y), ("Fz_tire_rl", fun y => ((m y).force p).rl.z),
    ("Fx_tire_rr", fun y => ((m y).force p).rr.x), ("Fy_tire_rr", fun y => ((m y).force p).rr.y), ("Fz_tire_rr", fun y => ((m y).force p).rr.z),
    ("res_ax", fun y => (m y).ax p - (m y).ax_in), ("res_ay", fun y => (m y).ay p - (m y).ay_in),
    ("slip_ratio_fl", fun y => (m y).kappa p (m y).w.fl), ("slip_angle_fl", fun y => Nums.alpha ((m y).vel p).fl),
    ("slip_ratio_fr", fun y => (m y).kappa p (m y).w.fr), ("slip_angle_fr", fun y => Nums.alpha ((m y).vel p).fr),
    ("slip_ratio_rl", fun y => (m y).kappa p (m y).w.rl), ("slip_angle_rl", fun y => Nums.alpha ((m y).vel p).rl),
    ("slip_ratio_rr", fun y => (m y).kappa p (m y).w.rr), ("slip_angle_rr", fun y => Nums.alpha ((m y).vel p).rr)] ?_ n
  simp only [List.forall_mem_cons, List.not_mem_nil, false_implies, implies_true, and_true]
  exact ⟨ax, ay, q1, q2, f1.1, f1.2.1, f1.2.2, f2.1, f2.2.1, f2.2.2, f3.1, f3.2.1, f3.2.2, f4.1, f4.2.1, f4.2.2, ax.sub h.ax_in, ay.sub h.ay_in,
    h.kappa p hd.vx h.w_fl, RawSmooth.alpha v1 hd.fl, h.kappa p hd.vx h.w_fr, RawSmooth.alpha v2 hd.fr,
    h.kappa p hd.vx h.w_rl, RawSmooth.alpha v3 hd.rl, h.kappa p hd.vx h.w_rr, RawSmooth.alpha v4 hd.rr⟩

end AllSmooth

end

/-- The tyres can take these loads: the slips of their friction peaks are not zero. -/
def Carries (q : Four TireParams) (load : Four ℝ) : Prop :=
  (q.fl.kappaMax load.fl ≠ 0 ∧ q.fl.alphaMax load.fl ≠ 0) ∧ (q.fr.kappaMax load.fr ≠ 0 ∧ q.fr.alphaMax load.fr ≠ 0) ∧
  (q.rl.kappaMax load.rl ≠ 0 ∧ q.rl.alphaMax load.rl ≠ 0) ∧ q.rr.kappaMax load.rr ≠ 0 ∧ q.rr.alphaMax load.rr ≠ 0

theorem numsOf_smooth {E : Type} [NormedAddCommGroup E] [NormedSpace ℝ E] {k : ℕ∞} {e : E} (p : Params) (q : Four TireParams) (cx cz : ℝ)
    {X U : E → String → ℝ} (hX : ∀ n, ContDiffAt ℝ k (fun y => X y n) e) (hU : ∀ n, ContDiffAt ℝ k (fun y => U y n) e)
    (hd : Divides p (rawNums cx cz (X e) (U e))) (hc : Carries q ((rawNums cx cz (X e) (U e)).load p)) :
    AllSmooth k e (fun y => numsOf p q cx cz (X y) (U y)) := by
  have hr : RawSmooth k e (fun y => rawNums cx cz (X y) (U y)) := ⟨hX _, hX _, hX _, hX _, hX _, hX _, hX _, hU _, hU _, hU _, hU _, hU _,
    contDiffAt_const, contDiffAt_const⟩
  have hr' : RawSmooth k e (fun y => numsOf p q cx cz (X y) (U y)) := ⟨hX _, hX _, hX _, hX _, hX _, hX _, hX _, hU _, hU _, hU _, hU _, hU _,
    contDiffAt_const, contDiffAt_const⟩
  obtain ⟨l1, l2, l3, l4⟩ := hr.load p
  obtain ⟨v1, v2, v3, v4⟩ := hr.vel p
  obtain ⟨c1, c2, c3, c4⟩ := hc
  have f1 := tyre_smooth q.fl l1 (hr.kappa p hd.vx hr.w_fl) ((RawSmooth.alpha v1 hd.fl).mul (contDiffAt_const (c := (1 : ℝ)))) c1.1 c1.2
  have f2 := tyre_smooth q.fr l2 (hr.kappa p hd.vx hr.w_fr) ((RawSmooth.alpha v2 hd.fr).mul (contDiffAt_const (c := (-1 : ℝ)))) c2.1 c2.2
  have f3 := tyre_smooth q.rl l3 (hr.kappa p hd.vx hr.w_rl) ((RawSmooth.alpha v3 hd.rl).mul (contDiffAt_const (c := (1 : ℝ)))) c3.1 c3.2
  have f4 := tyre_smooth q.rr l4 (hr.kappa p hd.vx hr.w_rr) ((RawSmooth.alpha v4 hd.rr).mul (contDiffAt_const (c := (-1 : ℝ)))) c4.1 c4.2
  exact { hr' with fx_fl := f1.1, fx_fr := f2.1, fx_rl := f3.1, fx_rr := f4.1, fy_fl := f1.2, fy_fr := f2.2, fy_rl := f3.2, fy_rr := f4.2 }

/-- The outputs of the submodels. -/
noncomputable def subDict (m : Nums) (cy : ℝ) : Dict ℝ :=
  [("tire_fl.Fx", m.fx.fl), ("tire_fl.Fy", m.fy.fl), ("tire_fl.Mx", 0), ("tire_fl.My", 0), ("tire_fl.Mz", 0),
   ("tire_fr.Fx", m.fx.fr), ("tire_fr.Fy", m.fy.fr), ("tire_fr.Mx", 0), ("tire_fr.My", 0), ("tire_fr.Mz", 0),
   ("tire_rl.Fx", m.fx.rl), ("tire_rl.Fy", m.fy.rl), ("tire_rl.Mx", 0), ("tire_rl.My", 0), ("tire_rl.Mz", 0),
   ("tire_rr.Fx", m.fx.rr), ("tire_rr.Fy", m.fy.rr), ("tire_rr.Mx", 0), ("tire_rr.My", 0), ("tire_rr.Mz", 0),
   ("aero.Cx", m.cx), ("aero.Cy", cy), ("aero.Cz", m.cz)]

theorem tire_value (q : TireParams) (Fz kappa alpha vx gamma : ℝ) :
    (tire q).eval { inputs := some [("Fz", Fz), ("kappa", kappa), ("alpha", alpha), ("vx", vx), ("gamma", gamma)] } = .ok
      { outputs := [("Fx", q.fx Fz kappa alpha), ("Fy", q.fy Fz kappa alpha), ("Mx", 0), ("My", 0), ("Mz", 0)] } := by
  obtain ⟨fx, fy, h⟩ := tire_eval q Fz kappa alpha vx gamma
  obtain ⟨r, h', h1, h2⟩ := gives q Fz kappa alpha vx gamma
  rw [h, Except.ok.injEq] at h'
  subst h'
  rw [h, show fx = _ from Option.some.inj h1, show fy = _ from Option.some.inj h2]

/-- The same keys with other values. -/
def relabel {V W : Type} (f : V → W) (d : Dict V) : Dict W := d.map fun q => (q.1, f q.2)

theorem relabel_set {V W : Type} (f : V → W) (d : Dict V) (k : String) (v : V) : relabel f (Dict.set d k v) = Dict.set (relabel f d) k (f v) := by
  induction d with
  | nil => rfl
  | cons q d ih =>
    obtain ⟨k', v'⟩ := q
    unfold Dict.set
    by_cases h : k' = k
    · subst h; simp [relabel]
    · simp only [if_neg h]
      show (k', f v') :: relabel f (Dict.set d k v) = _
      rw [ih]
      show _ = Dict.set ((k', f v') :: relabel f d) k (f v)
      conv_rhs => unfold Dict.set
      rw [if_neg h]

theorem relabel_update {V W : Type} (f : V → W) (d e : Dict V) : relabel f (d.update e) = (relabel f d).update (relabel f e) := by
  unfold Dict.update
  induction e generalizing d with
  | nil => rfl
  | cons q e ih => exact (ih _).trans (by rw [relabel_set]; rfl)

theorem relabel_collected {V W : Type} (f : V → W) (ns : List String) (called : Dict (Ret V)) :
    relabel f (collected ns called) = collected ns (called.map fun q => (q.1, ({ outputs := relabel f q.2.outputs } : Ret W))) := by
  rw [collected_eq, collected_eq]
  have : ∀ acc : Dict V, relabel f (ns.foldl (addSub called) acc)
      = ns.foldl (addSub (called.map fun q => (q.1, ({ outputs := relabel f q.2.outputs } : Ret W)))) (relabel f acc) := by
    induction ns with
    | nil => intro acc; rfl
    | cons n ns ih =>
      intro acc
      rw [List.foldl_cons, List.foldl_cons, ih]
      congr 1
      have : List.lookup n (called.map fun q => (q.1, ({ outputs := relabel f q.2.outputs } : Ret W)))
          = (called.lookup n).map fun r => { outputs := relabel f r.outputs } := by
        clear ih
        induction called with
        | nil => rfl
        | cons q c ih =>
          rw [List.map_cons, List.lookup_cons, List.lookup_cons, ih]
          split <;> rfl
      unfold addSub
      rw [this]
      cases called.lookup n with
      | none => rfl
      | some r =>
        simp only [Option.map_some, Option.getD_some]
        rw [relabel_update]
        congr 1
        unfold relabel
        rw [List.map_map, List.map_map]
        rfl
  exact this []

theorem collected_value (a b c f1 f2 f3 f4 g1 g2 g3 g4 : ℝ) : collected ["tire_fl", "tire_fr", "tire_rl", "tire_rr", "aero"]
      [("aero", { outputs := [("Cx", a), ("Cy", b), ("Cz", c)] }),
       ("tire_fl", { outputs := [("Fx", f1), ("Fy", g1), ("Mx", 0), ("My", 0), ("Mz", 0)] }),
       ("tire_fr", { outputs := [("Fx", f2), ("Fy", g2), ("Mx", 0), ("My", 0), ("Mz", 0)] }),
       ("tire_rl", { outputs := [("Fx", f3), ("Fy", g3), ("Mx", 0), ("My", 0), ("Mz", 0)] }),
       ("tire_rr", { outputs := [("Fx", f4), ("Fy", g4), ("Mx", 0), ("My", 0), ("Mz", 0)] })] =
  [("tire_fl.Fx", f1), ("tire_fl.Fy", g1), ("tire_fl.Mx", 0), ("tire_fl.My", 0), ("tire_fl.Mz", 0),
   ("tire_fr.Fx", f2), ("tire_fr.Fy", g2), ("tire_fr.Mx", 0), ("tire_fr.My", 0), ("tire_fr.Mz", 0),
   ("tire_rl.Fx", f3), ("tire_rl.Fy", g3), ("tire_rl.Mx", 0), ("tire_rl.My", 0), ("tire_rl.Mz", 0),
   ("tire_rr.Fx", f4), ("tire_rr.Fy", g4), ("tire_rr.Mx", 0), ("tire_rr.My", 0), ("tire_rr.Mz", 0),
   ("aero.Cx", a), ("aero.Cy", b), ("aero.Cz", c)] := by
  have h := relabel_collected (fun i : Nat => [a, b, c, f1, f2, f3, f4, g1, g2, g3, g4].getD i 0) ["tire_fl", "tire_fr", "tire_rl", "tire_rr", "aero"]
      [("aero", { outputs := [("Cx", 0), ("Cy", 1), ("Cz", 2)] }),
       ("tire_fl", { outputs := [("Fx", 3), ("Fy", 7), ("Mx", 11), ("My", 11), ("Mz", 11)] }),
       ("tire_fr", { outputs := [("Fx", 4), ("Fy", 8), ("Mx", 11), ("My", 11), ("Mz", 11)] }),
       ("tire_rl", { outputs := [("Fx", 5), ("Fy", 9), ("Mx", 11), ("My", 11), ("Mz", 11)] }),
       ("tire_rr", { outputs := [("Fx", 6), ("Fy", 10), ("Mx", 11), ("My", 11), ("Mz", 11)] })]
  rw [show collected ["tire_fl", "tire_fr", "tire_rl", "tire_rr", "aero"]
      [("aero", ({ outputs := [("Cx", 0), ("Cy", 1), ("Cz", 2)] } : Ret Nat)),
       ("tire_fl", { outputs := [("Fx", 3), ("Fy", 7), ("Mx", 11), ("My", 11), ("Mz", 11)] }),
       ("tire_fr", { outputs := [("Fx", 4), ("Fy", 8), ("Mx", 11), ("My", 11), ("Mz", 11)] }),
       ("tire_rl", { outputs := [("Fx", 5), ("Fy", 9), ("Mx", 11), ("My", 11), ("Mz", 11)] }),
       ("tire_rr", { outputs := [("Fx", 6), ("Fy", 10), ("Mx", 11), ("My", 11), ("Mz", 11)] })] =
    [("tire_fl.Fx", 3), ("tire_fl.Fy", 7), ("tire_fl.Mx", 11), ("tire_fl.My", 11), ("tire_fl.Mz", 11),
     ("tire_fr.Fx", 4), ("tire_fr.Fy", 8), ("tire_fr.Mx", 11), ("tire_fr.My", 11), ("tire_fr.Mz", 11),
     ("tire_rl.Fx", 5), ("tire_rl.Fy", 9), ("tire_rl.Mx", 11), ("tire_rl.My", 11), ("tire_rl.Mz", 11),
     ("tire_rr.Fx", 6), ("tire_rr.Fy", 10), ("tire_rr.Mx", 11), ("tire_rr.My", 11), ("tire_rr.Mz", 11),
     ("aero.Cx", 0), ("aero.Cy", 1), ("aero.Cz", 2)] by decide +kernel] at h
  exact h.symm

theorem keys_subDict (m : Nums) (cy : ℝ) : (subDict m cy).keys = subOuts := rfl

/-- What the standard vehicle returns, with the outputs of its submodels. -/
theorem standard_eval (p : Params) (q : Four TireParams) (cx cy cz : ℝ) (x u : String → ℝ) (mesh : Option ℝ) :
    (standardVehicle p q cx cy cz).eval ⟨some (vehicleNames.states.map fun n => (n, x n)), some (vehicleNames.inputs.map fun n => (n, u n)), mesh⟩
      = .ok { statesDot := (numsOf p q cx cz x u).dots p, outputs := (numsOf p q cx cz x u).outs p ++ subDict (numsOf p q cx cz x u) cy } := by
  unfold standardVehicle vehicle
  simp only [eval, simpleVehicle, body, bind_apply, pure_apply, tireRow, arg_some]
  rw [get_some (v := u "throttle") rfl, get_some (v := u "brake") rfl, get_some (v := u "steer") rfl, get_some (v := u "ax") rfl,
    get_some (v := u "ay") rfl, get_some (v := x "vx") rfl, get_some (v := x "vy") rfl, get_some (v := x "yaw_rate") rfl,
    get_some (v := x "wheel_speed_fl") rfl, get_some (v := x "wheel_speed_fr") rfl, get_some (v := x "wheel_speed_rl") rfl,
    get_some (v := x "wheel_speed_rr") rfl]
  rw [ev_call (snm := (constAero cx cy cz).direct) (f := (Mdl.node (constAero cx cy cz) []).eval) rfl (by decide) rfl rfl,
    get_some (v := cz) rfl]
  have hc : ∀ Fz kappa alpha vx gamma : ℝ, checkCall tireNames { inputs := some [("Fz", Fz), ("kappa", kappa), ("alpha", alpha), ("vx", vx), ("gamma", gamma)] } = .ok () :=
    fun _ _ _ _ _ => rfl
  rw [ev_call (n := "tire_" ++ "fl") (snm := tireNames) (f := (tire q.fl).eval) rfl
    (by exact (show "tire_fl" ∉ ["aero"] by decide)) (hc _ _ _ _ _) (tire_value q.fl _ _ _ _ _), get_some rfl, get_some rfl]
  rw [ev_call (n := "tire_" ++ "fr") (snm := tireNames) (f := (tire q.fr).eval) rfl
    (by exact (show "tire_fr" ∉ ["aero", "tire_fl"] by decide)) (hc _ _ _ _ _) (tire_value q.fr _ _ _ _ _), get_some rfl, get_some rfl]
  rw [ev_call (n := "tire_" ++ "rl") (snm := tireNames) (f := (tire q.rl).eval) rfl
    (by exact (show "tire_rl" ∉ ["aero", "tire_fl", "tire_fr"] by decide)) (hc _ _ _ _ _) (tire_value q.rl _ _ _ _ _), get_some rfl, get_some rfl]
  rw [ev_call (n := "tire_" ++ "rr") (snm := tireNames) (f := (tire q.rr).eval) rfl
    (by exact (show "tire_rr" ∉ ["aero", "tire_fl", "tire_fr", "tire_rl"] by decide)) (hc _ _ _ _ _) (tire_value q.rr _ _ _ _ _), get_some rfl,
    get_some rfl, get_some (v := cx) rfl]
  rw [show ∀ a b c d e f g : ℝ, vehicleNames.makeDict "states_dot" [("vx", a), ("vy", b), ("yaw_rate", c), ("wheel_speed_fl", d),
    ("wheel_speed_fr", e), ("wheel_speed_rl", f), ("wheel_speed_rr", g)] = .ok [("vx", a), ("vy", b), ("yaw_rate", c),
    ("wheel_speed_fl", d), ("wheel_speed_fr", e), ("wheel_speed_rl", f), ("wheel_speed_rr", g)] from fun _ _ _ _ _ _ _ => rfl, lift_ok]
  rw [ev_outputs (K := vehicleOuts) (K' := subOuts) (C := ["aero", "tire_fl", "tire_fr", "tire_rl", "tire_rr"]) rfl rfl rfl
    (by exact (show Dict.keys _ = subOuts from (congrArg Dict.keys (collected_value ..)).trans rfl))
    (by exact (show ∀ n ∈ ["tire_fl", "tire_fr", "tire_rl", "tire_rr", "aero"], _ by decide))
    (by decide +kernel) (by decide +kernel)
    (by exact (show ∀ n ∈ vehicleNames.outputs ++ subOuts, n ∈ vehicleOuts ∨ n ∈ subOuts by decide +kernel))]
  exact congrArg (fun s => (Except.ok ({ statesDot := (numsOf p q cx cz x u).dots p, outputs := (numsOf p q cx cz x u).outs p ++ s } : Ret ℝ) : Py (Ret ℝ)))
    (collected_value ..)

end Lumos.Veh
