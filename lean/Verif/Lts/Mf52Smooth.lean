import Verif.Lts.SmoothGen
import Verif.Lts.Mf52Model
import Verif.Tyre.Load
/-!
# C113: a lap of the default car, which has MF5.2 tyres
-/

namespace Lumos.Lts

open Lumos DecVar DecVar.Layout NLP Bounds Ocp OCP Track LapSim Io Io.Mdl Lumos.Trans Veh Tyre

/-! ## Specification -/

/-- Nothing in the equations of car and road is divided by zero: the car and each of its contact patches move along the wheel's plane, the driven wheels turn, the car is not at the
centre of the road's curvature and it moves along the road; and the load and slips of each tyre (the reported ones; those of the tyres on the right are mirrored)
satisfy `T`. -/
structure Runs52 (T : Pars → ℝ → ℝ → ℝ → Prop) (p : Params) (d : Four (Dict ℝ)) (junk : In → Out) (cx cy cz : ℝ) (x u : String → ℝ) : Prop where
  speed : x "vx" ≠ 0
  wheels : x "wheel_speed_rl" + x "wheel_speed_rr" ≠ 0
  front : ∀ side : ℝ, side = 1 ∨ side = -1 → Real.cos (u "steer" * p.max_steer_angle) * (x "vx" - side * x "yaw_rate" * (p.track_front / 2))
    + Real.sin (u "steer" * p.max_steer_angle) * (x "vy" + x "yaw_rate" * p.cog_to_fa) ≠ 0
  rear : ∀ side : ℝ, side = 1 ∨ side = -1 → x "vx" - side * x "yaw_rate" * (p.track_rear / 2) ≠ 0
  tyres : ∀ r, (defaultCar p d junk cx cy cz).eval ⟨some (vehicleNames.states.map fun n => (n, x n)), some (vehicleNames.inputs.map fun n => (n, u n)), none⟩ = .ok r →
    ∀ F kappa alpha,
      (r.outputs.lookup "Fz_tire_fl" = some F → r.outputs.lookup "slip_ratio_fl" = some kappa → r.outputs.lookup "slip_angle_fl" = some alpha → T (par d.fl) F kappa alpha) ∧
      (r.outputs.lookup "Fz_tire_fr" = some F → r.outputs.lookup "slip_ratio_fr" = some kappa → r.outputs.lookup "slip_angle_fr" = some alpha → T (par d.fr) F kappa (-alpha)) ∧
      (r.outputs.lookup "Fz_tire_rl" = some F → r.outputs.lookup "slip_ratio_rl" = some kappa → r.outputs.lookup "slip_angle_rl" = some alpha → T (par d.rl) F kappa alpha) ∧
      (r.outputs.lookup "Fz_tire_rr" = some F → r.outputs.lookup "slip_ratio_rr" = some kappa → r.outputs.lookup "slip_angle_rr" = some alpha → T (par d.rr) F kappa (-alpha))
  road : 1 - x "n" * u "track_curvature" ≠ 0
  along : x "vx" * Real.cos (x "eta") - x "vy" * Real.sin (x "eta") ≠ 0

/-- Nothing in the car's equations is divided by zero or at a corner. -/
def Regular52 : Params → Four (Dict ℝ) → (In → Out) → ℝ → ℝ → ℝ → (String → ℝ) → (String → ℝ) → Prop := Runs52 Takes

section
variable {p : Params} {d : Four (Dict ℝ)} {junk : In → Out} {cx cy cz : ℝ}

/-! ## The tyres -/

section
variable {E : Type} [NormedAddCommGroup E] [NormedSpace ℝ E] {e : E} {k : ℕ∞}

theorem tyre52_smooth (hk : k ≤ 2) (d : Dict ℝ) (junk : In → Out) {F κ α : E → ℝ} (v : E → ℝ) (hF : ContDiffAt ℝ k F e) (hκ : ContDiffAt ℝ k κ e) (hα : ContDiffAt ℝ k α e)
    (h : Bears (par d) (F e) (κ e) (α e)) (hc : k = 0 ∨ Takes (par d) (F e) (κ e) (α e)) :
    ContDiffAt ℝ k (fun y => (outs52 d junk ⟨F y, κ y, α y, v y, 0⟩).Fx) e ∧ ContDiffAt ℝ k (fun y => (outs52 d junk ⟨F y, κ y, α y, v y, 0⟩).Fy) e := by
  obtain ⟨h1, h2⟩ := forces_smooth hk v hF hκ hα h hc
  have hn := finite_near v hF hκ hα h hc
  have key : ∀ y, Tyre.Finite (par d) ⟨F y, κ y, α y, v y, 0⟩ → outs52 d junk ⟨F y, κ y, α y, v y, 0⟩ = outOf (par d) ⟨F y, κ y, α y, v y, 0⟩ (0, 0, 0) := by
    intro y hy
    unfold outs52
    rw [(forces_iff (par d) true ⟨F y, κ y, α y, v y, 0⟩ (outOf (par d) ⟨F y, κ y, α y, v y, 0⟩ (0, 0, 0))).mpr ⟨hy, fun h => absurd h (by decide), rfl⟩]
  constructor
  · refine h1.congr_of_eventuallyEq ?_
    filter_upwards [hn] with y hy
    rw [key y hy]
    rfl
  · refine h2.congr_of_eventuallyEq ?_
    filter_upwards [hn] with y hy
    rw [key y hy]
    rfl

end

theorem divides_of {x u : String → ℝ} (h1 : x "vx" ≠ 0) (h2 : x "wheel_speed_rl" + x "wheel_speed_rr" ≠ 0)
    (h3 : ∀ side : ℝ, side = 1 ∨ side = -1 → Real.cos (u "steer" * p.max_steer_angle) * (x "vx" - side * x "yaw_rate" * (p.track_front / 2))
      + Real.sin (u "steer" * p.max_steer_angle) * (x "vy" + x "yaw_rate" * p.cog_to_fa) ≠ 0)
    (h4 : ∀ side : ℝ, side = 1 ∨ side = -1 → x "vx" - side * x "yaw_rate" * (p.track_rear / 2) ≠ 0) : Divides p (rawNums cx cz x u) where
  vx := h1
  wheels := h2
  fl := by
    have := h3 1 (Or.inl rfl)
    intro e
    apply this
    rw [← e]
    show _ = Real.cos (u "steer" * p.max_steer_angle) * (x "vx" + (0 * -p.cog_height - x "yaw_rate" * (p.track_front / 2)))
      + Real.sin (u "steer" * p.max_steer_angle) * (x "vy" + (x "yaw_rate" * p.cog_to_fa - 0 * -p.cog_height)) + 0 * (0 + (0 * (p.track_front / 2) - 0 * p.cog_to_fa))
    ring
  fr := by
    have := h3 (-1) (Or.inr rfl)
    intro e
    apply this
    rw [← e]
    show _ = Real.cos (u "steer" * p.max_steer_angle) * (x "vx" + (0 * -p.cog_height - x "yaw_rate" * (-p.track_front / 2)))
      + Real.sin (u "steer" * p.max_steer_angle) * (x "vy" + (x "yaw_rate" * p.cog_to_fa - 0 * -p.cog_height)) + 0 * (0 + (0 * (-p.track_front / 2) - 0 * p.cog_to_fa))
    ring
  rl := by
    have := h4 1 (Or.inl rfl)
    intro e
    apply this
    rw [← e]
    show _ = Real.cos 0 * (x "vx" + (0 * -p.cog_height - x "yaw_rate" * (p.track_rear / 2)))
      + Real.sin 0 * (x "vy" + (x "yaw_rate" * -p.cog_to_ra - 0 * -p.cog_height)) + 0 * (0 + (0 * (p.track_rear / 2) - 0 * -p.cog_to_ra))
    rw [Real.cos_zero, Real.sin_zero]
    ring
  rr := by
    have := h4 (-1) (Or.inr rfl)
    intro e
    apply this
    rw [← e]
    show _ = Real.cos 0 * (x "vx" + (0 * -p.cog_height - x "yaw_rate" * (-p.track_rear / 2)))
      + Real.sin 0 * (x "vy" + (x "yaw_rate" * -p.cog_to_ra - 0 * -p.cog_height)) + 0 * (0 + (0 * (-p.track_rear / 2) - 0 * -p.cog_to_ra))
    rw [Real.cos_zero, Real.sin_zero]
    ring

/-- The car with all parameters of its tyres. -/
def Keyed (d : Four (Dict ℝ)) : Prop := HasKeys d.fl true ∧ HasKeys d.fr true ∧ HasKeys d.rl true ∧ HasKeys d.rr true

theorem reported52 (hd : Keyed d) (p : Params) (junk : In → Out) (cx cy cz : ℝ) (x u : String → ℝ) :
    ∃ r, (defaultCar p d junk cx cy cz).eval ⟨some (vehicleNames.states.map fun n => (n, x n)), some (vehicleNames.inputs.map fun n => (n, u n)), none⟩ = .ok r ∧
      (r.outputs.lookup "Fz_tire_fl" = some ((rawNums cx cz x u).load p).fl ∧ r.outputs.lookup "slip_ratio_fl" = some ((rawNums cx cz x u).kappa p (rawNums cx cz x u).w.fl) ∧
        r.outputs.lookup "slip_angle_fl" = some (Nums.alpha ((rawNums cx cz x u).vel p).fl)) ∧
      (r.outputs.lookup "Fz_tire_fr" = some ((rawNums cx cz x u).load p).fr ∧ r.outputs.lookup "slip_ratio_fr" = some ((rawNums cx cz x u).kappa p (rawNums cx cz x u).w.fr) ∧
        r.outputs.lookup "slip_angle_fr" = some (Nums.alpha ((rawNums cx cz x u).vel p).fr)) ∧
      (r.outputs.lookup "Fz_tire_rl" = some ((rawNums cx cz x u).load p).rl ∧ r.outputs.lookup "slip_ratio_rl" = some ((rawNums cx cz x u).kappa p (rawNums cx cz x u).w.rl) ∧
        r.outputs.lookup "slip_angle_rl" = some (Nums.alpha ((rawNums cx cz x u).vel p).rl)) ∧
      (r.outputs.lookup "Fz_tire_rr" = some ((rawNums cx cz x u).load p).rr ∧ r.outputs.lookup "slip_ratio_rr" = some ((rawNums cx cz x u).kappa p (rawNums cx cz x u).w.rr) ∧
        r.outputs.lookup "slip_angle_rr" = some (Nums.alpha ((rawNums cx cz x u).vel p).rr)) := by
  obtain ⟨subs, -, h⟩ := default_eval p hd.1 hd.2.1 hd.2.2.1 hd.2.2.2 junk cx cy cz x u none
  refine ⟨_, h, ⟨?_, rfl, rfl⟩, ⟨?_, rfl, rfl⟩, ⟨?_, rfl, rfl⟩, ?_, rfl, rfl⟩
  · show some (rotateZ _ _).z = _
    rw [rotate_z]; rfl
  · show some (rotateZ _ _).z = _
    rw [rotate_z]; rfl
  · show some (rotateZ _ _).z = _
    rw [rotate_z]; rfl
  · show some (rotateZ _ _).z = _
    rw [rotate_z]; rfl

section
variable {k : ℕ∞} {E : Type} [NormedAddCommGroup E] [NormedSpace ℝ E] {e : E} {X U : E → String → ℝ}

theorem nums52_smooth (hk : k ≤ 2) {T : Pars → ℝ → ℝ → ℝ → Prop} (hT : ∀ p F κ α, T p F κ α → Bears p F κ α ∧ (k = 0 ∨ Takes p F κ α)) (hd : Keyed d) (hX : ∀ n, ContDiffAt ℝ k (fun y => X y n) e) (hU : ∀ n, ContDiffAt ℝ k (fun y => U y n) e)
    (hR : Runs52 T p d junk cx cy cz (X e) (U e)) : AllSmooth k e (fun y => nums52 p d junk cx cz (X y) (U y)) := by
  have hdv : Divides p (rawNums cx cz (X e) (U e)) := divides_of hR.speed hR.wheels hR.front hR.rear
  have hr : RawSmooth k e (fun y => rawNums cx cz (X y) (U y)) := ⟨hX _, hX _, hX _, hX _, hX _, hX _, hX _, hU _, hU _, hU _, hU _, hU _,
    contDiffAt_const, contDiffAt_const⟩
  have hr' : RawSmooth k e (fun y => nums52 p d junk cx cz (X y) (U y)) := ⟨hX _, hX _, hX _, hX _, hX _, hX _, hX _, hU _, hU _, hU _, hU _, hU _,
    contDiffAt_const, contDiffAt_const⟩
  obtain ⟨l1, l2, l3, l4⟩ := hr.load p
  obtain ⟨v1, v2, v3, v4⟩ := hr.vel p
  obtain ⟨r, er, ⟨a1, a2, a3⟩, ⟨b1, b2, b3⟩, ⟨c1, c2, c3⟩, e1, e2, e3⟩ := reported52 hd p junk cx cy cz (X e) (U e)
  have t1 := (hR.tyres r er _ _ _).1 a1 a2 a3
  have t2 := (hR.tyres r er _ _ _).2.1 b1 b2 b3
  have t3 := (hR.tyres r er _ _ _).2.2.1 c1 c2 c3
  have t4 := (hR.tyres r er _ _ _).2.2.2 e1 e2 e3
  rw [← mul_one (Nums.alpha _)] at t1 t3
  rw [← mul_neg_one] at t2 t4
  have f1 := tyre52_smooth hk d.fl junk (fun y => ((rawNums cx cz (X y) (U y)).vel p).fl.x) l1 (hr.kappa p hdv.vx hr.w_fl)
    ((RawSmooth.alpha v1 hdv.fl).mul (contDiffAt_const (c := (1 : ℝ)))) (hT _ _ _ _ t1).1 (hT _ _ _ _ t1).2
  have f2 := tyre52_smooth hk d.fr junk (fun y => ((rawNums cx cz (X y) (U y)).vel p).fr.x) l2 (hr.kappa p hdv.vx hr.w_fr)
    ((RawSmooth.alpha v2 hdv.fr).mul (contDiffAt_const (c := (-1 : ℝ)))) (hT _ _ _ _ t2).1 (hT _ _ _ _ t2).2
  have f3 := tyre52_smooth hk d.rl junk (fun y => ((rawNums cx cz (X y) (U y)).vel p).rl.x) l3 (hr.kappa p hdv.vx hr.w_rl)
    ((RawSmooth.alpha v3 hdv.rl).mul (contDiffAt_const (c := (1 : ℝ)))) (hT _ _ _ _ t3).1 (hT _ _ _ _ t3).2
  have f4 := tyre52_smooth hk d.rr junk (fun y => ((rawNums cx cz (X y) (U y)).vel p).rr.x) l4 (hr.kappa p hdv.vx hr.w_rr)
    ((RawSmooth.alpha v4 hdv.rr).mul (contDiffAt_const (c := (-1 : ℝ)))) (hT _ _ _ _ t4).1 (hT _ _ _ _ t4).2
  have z1 : (0 : ℝ) = 0 * 1 := (zero_mul _).symm
  have z2 : (0 : ℝ) = 0 * -1 := (zero_mul _).symm
  rw [z1] at f1 f3
  rw [z2] at f2 f4
  exact { hr' with fx_fl := f1.1, fx_fr := f2.1, fx_rl := f3.1, fx_rr := f4.1, fy_fl := f1.2, fy_fr := f2.2, fy_rl := f3.2, fy_rr := f4.2 }

end

theorem smooth52 {k : ℕ∞} (hk : k ≤ 2) {T : Pars → ℝ → ℝ → ℝ → Prop} (hT : ∀ p F κ α, T p F κ α → Bears p F κ α ∧ (k = 0 ∨ Takes p F κ α)) (hd : Keyed d) {x u : String → ℝ} (hR : Runs52 T p d junk cx cy cz x u) : SmoothAt k (defaultCar p d junk cx cy cz) x u := by
  have ev : ∀ x u : String → ℝ, ∃ subs, answer (defaultCar p d junk cx cy cz) x u =
      { statesDot := (nums52 p d junk cx cz x u).dots p, outputs := (nums52 p d junk cx cz x u).outs p ++ subs } := by
    intro x u
    obtain ⟨subs, -, h⟩ := default_eval p hd.1 hd.2.1 hd.2.2.1 hd.2.2.2 junk cx cy cz x u none
    refine ⟨subs, ?_⟩
    unfold answer
    rw [h]
  have hdv : Divides p (nums52 p d junk cx cz x u) := by
    obtain ⟨h1, h2, h3, h4, h5, h6⟩ := divides_of (cx := cx) (cz := cz) hR.speed hR.wheels hR.front hR.rear
    exact ⟨h1, h2, h3, h4, h5, h6⟩
  refine ⟨hR.road, hR.along, ?_, ?_⟩
  · intro E _ _ e X U hX hU eX eU n hn
    have hA := nums52_smooth hk hT hd hX hU (by rw [eX, eU]; exact hR)
    have e1 : (fun y => val (answer (defaultCar p d junk cx cy cz) (X y) (U y)).statesDot n) = fun y => val ((nums52 p d junk cx cz (X y) (U y)).dots p) n := by
      funext y
      obtain ⟨subs, h⟩ := ev (X y) (U y)
      rw [h]
    rw [e1]
    exact hA.dots p (by rw [eX, eU]; exact hdv) n
  · intro E _ _ e X U hX hU eX eU n hn
    have hA := nums52_smooth hk hT hd hX hU (by rw [eX, eU]; exact hR)
    have e1 : (fun y => val (answer (defaultCar p d junk cx cy cz) (X y) (U y)).outputs n) = fun y => val ((nums52 p d junk cx cz (X y) (U y)).outs p) n := by
      funext y
      obtain ⟨subs, h⟩ := ev (X y) (U y)
      rw [h]
      obtain ⟨a, ha⟩ := Option.isSome_iff_exists.mp ((Dict.lookup_isSome ((nums52 p d junk cx cz (X y) (U y)).outs p) n).mpr
        ((show ∀ n ∈ vehicleNames.outputs, n ∈ vehicleOuts by decide +kernel) n hn))
      unfold val
      rw [lookup_append_left ha, ha]
    rw [e1]
    exact hA.outs p (by rw [eX, eU]; exact hdv) n

theorem Runs52.congr {T : Pars → ℝ → ℝ → ℝ → Prop} {x u x' u' : String → ℝ} (hx : ∀ n ∈ onTrackNames.states, x n = x' n) (hu : ∀ n ∈ onTrackNames.inputs, u n = u' n)
    (h : Runs52 T p d junk cx cy cz x u) : Runs52 T p d junk cx cy cz x' u' := by
  have ex : (vehicleNames.states.map fun n => (n, x n)) = vehicleNames.states.map fun n => (n, x' n) :=
    List.map_congr_left fun n hn => by rw [hx n (List.mem_append_right _ hn)]
  have eu : (vehicleNames.inputs.map fun n => (n, u n)) = vehicleNames.inputs.map fun n => (n, u' n) := by
    refine List.map_congr_left fun n hn => ?_
    rw [hu n ((show ∀ n ∈ vehicleNames.inputs, n ∈ onTrackNames.inputs by decide) n hn)]
  obtain ⟨h1, h2, h3, h4, h5, h6, h7⟩ := h
  rw [hx _ (by decide)] at h1
  rw [hx _ (by decide), hx _ (by decide)] at h2
  rw [hu _ (by decide), hx _ (by decide), hx _ (by decide), hx _ (by decide)] at h3
  rw [hx _ (by decide), hx _ (by decide)] at h4
  rw [ex, eu] at h5
  rw [hx _ (by decide), hu _ (by decide)] at h6
  rw [hx _ (by decide), hx _ (by decide), hx _ (by decide)] at h7
  exact ⟨h1, h2, h3, h4, h5, h6, h7⟩

end

variable {p : Params} {d : Four (Dict ℝ)} {junk : In → Out} {cx cy cz : ℝ} {cf : Conf} {u : UnitProblem} {D : List ℝ → ℝ → Prop}

/-- **C113.** For every car with MF5.2 tyres (whatever their parameters, so long as none is missing), usable configuration that constrains outputs of the car itself or of the road,
road, and backend whose derivatives are right where the equations have derivatives, the derivatives that the solver is given for a lap are right at every point of the
search at which the car runs and its tyres are at no corner of their formulas at every stage: the Jacobian of the constraints, the gradient of the objective and the
Hessian of the Lagrangian, for all multipliers. Nothing is assumed about what the tyres return where their formulas are not finite (`junk`). -/
theorem C113_lap (hd : Keyed d) (hc : Usable (defaultCar p d junk cx cy cz) cf) (hco : ∀ n ∈ cf.conOutputs, n ∈ ownOutputs) (hu : Backed (defaultCar p d junk cx cy cz) cf u D)
    (hD : ∀ v μ, ((vehicleOnTrack (defaultCar p d junk cx cy cz)).explicit cf.conOutputs).Smooth v μ → D v μ) {file : Py (List Row)} {l : Lap}
    (hl : laptime (defaultCar p d junk cx cy cz) u cf file = .ok l) {b : Built} (hb : l.problem = .ok b) {z : List ℝ} (hz : z.length = l.S.c.o.L.numDec)
    (hR : ∀ s < l.S.c.o.L.numStages, Regular52 p d junk cx cy cz (fun n => readAt l.S.c.o.L (vmul z b.prob.scales) "states" n s)
      (fun n => readAt l.S.c.o.L (vmul z b.prob.scales) "inputs" n s)) (lam : List ℝ) (hlam : lam.length = b.prob.numCon) (sigma : ℝ) :
    ∃ (F : List ℝ → List ℝ) (f : List ℝ → ℝ) (jr jc hr hc : List Nat) (jv hv g : List ℝ),
      (∀ y, b.prob.constraints y = .ok (F y)) ∧ (∀ y, b.prob.objective y = .ok (f y))
      ∧ b.prob.jacobianstructure = .ok (jr, jc) ∧ b.prob.jacobian z = .ok jv ∧ jr.length = jc.length ∧ jv.length = jr.length
      ∧ IsJacobianAt l.S.c.o.L.numDec b.prob.numCon F z (assemble jr jc jv)
      ∧ b.prob.gradient z = .ok g ∧ g.length = l.S.c.o.L.numDec ∧ IsGradientAt l.S.c.o.L.numDec f z (fun j => g.getD j 0)
      ∧ b.prob.hessianstructure.2 = .ok (hr, hc)
      ∧ b.prob.hessianstructure.1.hessian z lam sigma = (b.prob.hessianstructure.1, .ok hv)
      ∧ hr.length = hc.length ∧ hv.length = hr.length
      ∧ IsHessianAt l.S.c.o.L.numDec (fun y => f y * sigma + dot lam (F y)) z Upper (assemble hr hc hv) :=
  lap_derivatives (default_car p hd.1 hd.2.1 hd.2.2.1 hd.2.2.2 junk cx cy cz)
    (show ∀ n ∈ vehicleNames.outputs, n ∈ vehicleNames.outputs ++ carSubs from fun _ hn => List.mem_append_left _ hn)
    (show ∀ n ∈ ["res_ax", "res_ay"], n ∈ vehicleNames.outputs by decide)
    hc hco hu hD hl hb hz (fun s hs _ _ hx hy => smooth52 (k := 2) le_rfl (fun _ _ _ _ h => ⟨h.toBears, .inr h⟩) hd (Runs52.congr hx hy (hR s hs))) lam hlam sigma

end Lumos.Lts
