import Verif.Lts.SmoothLap
/-!
# C112 for the default car and bounds
-/

namespace Lumos.Lts

open Lumos DecVar DecVar.Layout NLP Bounds Ocp OCP Track LapSim Io Io.Mdl Lumos.Trans Veh

/-- Default parameters of the vehicle (simple_vehicle.py:374-405, those that `forward` reads). -/
noncomputable def carParams : Params where
  max_power := 500000
  max_steer_angle := 10 * Real.pi / 180
  kd := 10.47
  rolling_radius := 0.33
  max_total_brake_torque := 16000
  brake_balance := 0.6
  cog_to_fa := 1.8
  cog_to_ra := 1.8
  cog_height := 0.3
  track_front := 1.46
  track_rear := 1.46
  gravity := 9.81
  vehicle_mass := 1800
  Iz := 1200
  wheel_inertia := 5
  air_density := 1.2
  mech_balance := 0.5

/-- Default parameters of the tyre (perantoni.py:97-117). -/
noncomputable def tyreParams : TireParams where
  Fz1 := 2000
  Fz2 := 6000
  mux1 := 1.75
  mux2 := 1.4
  muy1 := 1.8
  muy2 := 1.45
  kappa1 := 0.11
  kappa2 := 0.1
  alpha1 := 9 * Real.pi / 180
  alpha2 := 8 * Real.pi / 180
  Qx := 1.9
  Qy := 1.9

/-- **C112 (default bounds).** For a car with the default rear track (and every other parameter, tyre and aerodynamics), of the divisions in the car's
equations the default bounds keep those by the car's speed, by the rear wheels' speed and by the speeds of the rear contact patches from being divisions by zero;
what is left are those by the speeds of the front contact patches, by the tyres' slips at the friction peak, by the distance to the centre of
curvature and by the speed along the road. -/
theorem C112_default {p : Params} (hp : p.track_rear = 1.46) (q : Four TireParams) (cx cy cz : ℝ) {closed : Bool} {tr : RaceTrack} {N : Nat} {d : Nat → ℝ}
    {X : String → String → Nat → ℝ} (h : InDefaults closed tr N d X) {s : Nat} (hs : s < N) :
    Regular p q cx cy cz (X "states" · s) (X "inputs" · s) ↔
      (∀ side : ℝ, side = 1 ∨ side = -1 → Real.cos (X "inputs" "steer" s * p.max_steer_angle) * (X "states" "vx" s - side * X "states" "yaw_rate" s * (p.track_front / 2))
        + Real.sin (X "inputs" "steer" s * p.max_steer_angle) * (X "states" "vy" s + X "states" "yaw_rate" s * p.cog_to_fa) ≠ 0) ∧
      (∀ r, (standardVehicle p q cx cy cz).eval ⟨some (vehicleNames.states.map fun n => (n, X "states" n s)),
          some (vehicleNames.inputs.map fun n => (n, X "inputs" n s)), none⟩ = .ok r →
        ∀ F, (r.outputs.lookup "Fz_tire_fl" = some F → q.fl.kappaMax F ≠ 0 ∧ q.fl.alphaMax F ≠ 0) ∧
          (r.outputs.lookup "Fz_tire_fr" = some F → q.fr.kappaMax F ≠ 0 ∧ q.fr.alphaMax F ≠ 0) ∧
          (r.outputs.lookup "Fz_tire_rl" = some F → q.rl.kappaMax F ≠ 0 ∧ q.rl.alphaMax F ≠ 0) ∧
          (r.outputs.lookup "Fz_tire_rr" = some F → q.rr.kappaMax F ≠ 0 ∧ q.rr.alphaMax F ≠ 0)) ∧
      1 - X "states" "n" s * X "inputs" "track_curvature" s ≠ 0 ∧
      X "states" "vx" s * Real.cos (X "states" "eta" s) - X "states" "vy" s * Real.sin (X "states" "eta" s) ≠ 0 := by
  constructor
  · rintro ⟨-, -, h3, -, h5, h6, h7⟩
    exact ⟨h3, h5, h6, h7⟩
  · rintro ⟨h3, h5, h6, h7⟩
    have hvx := (h.vx s hs).1
    have hyaw := abs_le.mp (h.yaw s hs)
    have hrl := (h.wheels s hs "rl" (by decide)).1
    have hrr := (h.wheels s hs "rr" (by decide)).1
    have hpi := Real.pi_lt_d2
    refine ⟨?_, ?_, h3, ?_, h5, h6, h7⟩
    · exact ne_of_gt (by linarith)
    · have e1 : X "states" ("wheel_speed_" ++ "rl") s = X "states" "wheel_speed_rl" s := rfl
      have e2 : X "states" ("wheel_speed_" ++ "rr") s = X "states" "wheel_speed_rr" s := rfl
      rw [e1] at hrl
      rw [e2] at hrr
      refine ne_of_gt ?_
      have : (0 : ℝ) < 0.1 := by norm_num
      linarith
    · rintro side (rfl | rfl) <;> rw [hp] <;> refine ne_of_gt ?_ <;> norm_num at hpi ⊢ <;> linarith

/-- **C112 (default bounds, the speed along the road).** Within the default bounds the speed along the road can be zero, for every car and road. -/
theorem C112_along : ∃ x : String → ℝ, (5 ≤ x "vx" ∧ x "vx" ≤ 100) ∧ |x "vy"| ≤ 10 ∧ |x "eta"| ≤ Real.pi / 4 ∧ |x "yaw_rate"| ≤ Real.pi * 2 ∧
    ∀ p q cx cy cz (u : String → ℝ), sdot x u = 0 ∧ ¬ Regular p q cx cy cz x u := by
  have hpi := Real.pi_pos
  refine ⟨fun m => if m = "vx" then 5 else if m = "vy" then 5 else if m = "eta" then Real.pi / 4 else 0, ?_⟩
  have key : (fun m => if m = "vx" then (5 : ℝ) else if m = "vy" then 5 else if m = "eta" then Real.pi / 4 else 0) "vx" *
        Real.cos ((fun m => if m = "vx" then (5 : ℝ) else if m = "vy" then 5 else if m = "eta" then Real.pi / 4 else 0) "eta") -
      (fun m => if m = "vx" then (5 : ℝ) else if m = "vy" then 5 else if m = "eta" then Real.pi / 4 else 0) "vy" *
        Real.sin ((fun m => if m = "vx" then (5 : ℝ) else if m = "vy" then 5 else if m = "eta" then Real.pi / 4 else 0) "eta") = 0 := by
    simp only [String.reduceEq, if_true, if_false, Real.cos_pi_div_four, Real.sin_pi_div_four]
    ring
  refine ⟨?_, ?_, ?_, ?_, fun p q cx cy cz u => ⟨?_, fun h => h.along key⟩⟩
  · simp
    norm_num
  · simp
    norm_num
  · simp [abs_of_pos, hpi]
  · simp
    positivity
  · unfold sdot
    rw [key, zero_div]

/-- **C112 (default bounds, the front wheels).** Within the default bounds on speed and steering a contact patch of a front wheel of the default car can stand still in the
direction of the wheel. -/
theorem C112_front : ∃ x u : String → ℝ, (5 ≤ x "vx" ∧ x "vx" ≤ 100) ∧ |x "vy"| ≤ 10 ∧ |x "yaw_rate"| ≤ Real.pi * 2 ∧ |u "steer"| ≤ 1 ∧
    Real.cos (u "steer" * carParams.max_steer_angle) * (x "vx" - x "yaw_rate" * (carParams.track_front / 2))
      + Real.sin (u "steer" * carParams.max_steer_angle) * (x "vy" + x "yaw_rate" * carParams.cog_to_fa) = 0 ∧
    ∀ q cx cy cz, ¬ Regular carParams q cx cy cz x u := by
  have hpi := Real.pi_pos
  have hp3 := Real.pi_gt_d2
  have hp4 := Real.pi_lt_d2
  have ht1 : Real.pi / 18 ≤ Real.tan (Real.pi / 18) := (Real.lt_tan (by positivity) (by linarith)).le
  have ht2 : Real.tan (Real.pi / 18) ≤ 1 := by
    rw [← Real.tan_pi_div_four]
    exact (Real.tan_lt_tan_of_lt_of_lt_pi_div_two (by linarith) (by linarith) (by linarith)).le
  have hc : 0 < Real.cos (Real.pi / 18) := Real.cos_pos_of_mem_Ioo ⟨by linarith, by linarith⟩
  have key : Real.cos (-1 * (10 * Real.pi / 180)) * ((Real.pi * 2 * (1.46 / 2) + Real.tan (Real.pi / 18) * (10 + Real.pi * 2 * 1.8)) - Real.pi * 2 * (1.46 / 2))
      + Real.sin (-1 * (10 * Real.pi / 180)) * (10 + Real.pi * 2 * 1.8) = 0 := by
    have e : -1 * (10 * Real.pi / 180) = -(Real.pi / 18) := by ring
    rw [e, Real.cos_neg, Real.sin_neg, add_sub_cancel_left, Real.tan_eq_sin_div_cos]
    field_simp
    ring
  refine ⟨fun m => if m = "vx" then Real.pi * 2 * (1.46 / 2) + Real.tan (Real.pi / 18) * (10 + Real.pi * 2 * 1.8) else if m = "vy" then 10 else
    if m = "yaw_rate" then Real.pi * 2 else 0, fun _ => -1, ?_, ?_, ?_, ?_, ?_, ?_⟩
  · simp only [if_true]
    constructor <;> nlinarith
  · simp
  · simp [abs_of_pos, hpi]
  · simp
  · simp only [String.reduceEq, if_true, if_false]
    exact key
  · intro q cx cy cz h
    refine h.front 1 (Or.inl rfl) ?_
    simp only [String.reduceEq, if_true, if_false, one_mul]
    exact key

/-- The default car on a straight at 50 m/s, wheels rolling. -/
theorem cruise_regular (x u : String → ℝ) (hvx : x "vx" = 50) (hvy : x "vy" = 0) (hyaw : x "yaw_rate" = 0) (hn : x "n" = 0) (heta : x "eta" = 0)
    (hrl : x "wheel_speed_rl" = 150) (hrr : x "wheel_speed_rr" = 150) (hsteer : u "steer" = 0) (hax : u "ax" = 0) (hay : u "ay" = 0) :
    Regular carParams ⟨tyreParams, tyreParams, tyreParams, tyreParams⟩ 0.6 0 1.9 x u := by
  have hpi := Real.pi_pos
  refine ⟨by rw [hvx]; norm_num, by rw [hrl, hrr]; norm_num, ?_, ?_, ?_, by rw [hn]; norm_num, by rw [hvx, heta, hvy]; norm_num⟩
  · intro side _
    rw [hsteer, hyaw, hvy, hvx]
    norm_num
  · intro side _
    rw [hyaw, hvx]
    norm_num
  · intro r hr F
    obtain ⟨r', e, h1, h2, h3, h4⟩ := reported carParams ⟨tyreParams, tyreParams, tyreParams, tyreParams⟩ 0.6 0 1.9 x u
    rw [hr, Except.ok.injEq] at e
    subst e
    have good : ∀ F : ℝ, F = 5127 → tyreParams.kappaMax F ≠ 0 ∧ tyreParams.alphaMax F ≠ 0 := by
      rintro F rfl
      have ek : tyreParams.kappaMax 5127 = 0.11 + (0.1 - 0.11) * ((5127 - 2000) / (6000 - 2000)) := rfl
      have ea : tyreParams.alphaMax 5127 = 9 * Real.pi / 180 + (8 * Real.pi / 180 - 9 * Real.pi / 180) * ((5127 - 2000) / (6000 - 2000)) := rfl
      rw [ek, ea]
      constructor
      · norm_num
      · refine ne_of_gt ?_
        norm_num
        linarith
    have l : ((rawNums 0.6 1.9 x u).load carParams) = ⟨5127, 5127, 5127, 5127⟩ := by
      simp only [Nums.load, Nums.fzTotal, Nums.dynPressure, Nums.latF, Nums.latR, Nums.long, Nums.wdf, rawNums, carParams, hvx, hvy, hax, hay]
      norm_num
    rw [l] at h1 h2 h3 h4
    refine ⟨fun hF => good F ?_, fun hF => good F ?_, fun hF => good F ?_, fun hF => good F ?_⟩
    · rw [h1, Option.some.injEq] at hF; exact hF.symm
    · rw [h2, Option.some.injEq] at hF; exact hF.symm
    · rw [h3, Option.some.injEq] at hF; exact hF.symm
    · rw [h4, Option.some.injEq] at hF; exact hF.symm

/-- **C112 (not vacuous).** For the default car, every scheme, mesh and road and the default configuration there is a lap simulation with exact derivatives and, for it, points that
satisfy the hypotheses of `C112_lap`: at 50 m/s straight on. -/
theorem C112_cruise {tn : String} {kw : List (String × Int)} {t : Transcription} (ht : makeTranscription tn kw = .ok t) {n : Nat} (hn : 1 ≤ n) {pts : Option (List ℝ)}
    {mesh : List (List ℝ)} (hm : setMesh t.interp n pts = .ok mesh) (cyc closed : Bool) {nc : List String} (hnd : nc.Nodup)
    (hnc : ∀ w ∈ nc, (∃ n ∈ onTrackNames.states, w = "states." ++ n) ∨ ∃ n ∈ onTrackNames.inputs, w = "inputs." ++ n)
    (hst : cyc = true → "inputs.steer" ∉ nc) {rows : List Row} (hr : Road rows) :
    ∃ u D l b z, Usable (standardVehicle carParams ⟨tyreParams, tyreParams, tyreParams, tyreParams⟩ 0.6 0 1.9) (defaults tn kw n pts cyc nc closed) ∧
      Backed (standardVehicle carParams ⟨tyreParams, tyreParams, tyreParams, tyreParams⟩ 0.6 0 1.9) (defaults tn kw n pts cyc nc closed) u D ∧
      (∀ v μ, ((vehicleOnTrack (standardVehicle carParams ⟨tyreParams, tyreParams, tyreParams, tyreParams⟩ 0.6 0 1.9)).explicit
        (defaults tn kw n pts cyc nc closed).conOutputs).Smooth v μ → D v μ) ∧
      laptime (standardVehicle carParams ⟨tyreParams, tyreParams, tyreParams, tyreParams⟩ 0.6 0 1.9) u (defaults tn kw n pts cyc nc closed) (.ok rows) = .ok l ∧
      l.problem = .ok b ∧ z.length = l.S.c.o.L.numDec ∧
      ∀ s < l.S.c.o.L.numStages, Regular carParams ⟨tyreParams, tyreParams, tyreParams, tyreParams⟩ 0.6 0 1.9
        (fun n => readAt l.S.c.o.L (vmul z b.prob.scales) "states" n s) (fun n => readAt l.S.c.o.L (vmul z b.prob.scales) "inputs" n s) := by
  set v := standardVehicle carParams ⟨tyreParams, tyreParams, tyreParams, tyreParams⟩ 0.6 0 1.9 with hvd
  have hv : Car v := standard_car ..
  have hc : Usable v (defaults tn kw n pts cyc nc closed) := defaults_usable (standard_con _ _ _ _ _) hv hn hnd hnc hst
  have hu := backed_auto hv hc
  obtain ⟨l, tr, h1, h2, h3, h4⟩ := C95_construct hv hc hu ht hm hr
  obtain ⟨t', S, b0, tr', ht', hmd, hg, hb0, hrd, hs, f1, f2, f3⟩ := laptime_inv hv hc hu h1
  obtain ⟨p1, p2, p3, p4, p5⟩ := hmd.plain
  have hg' : l.S.Good _ := f3 ▸ Good.rescale hg (hg.lap p2).1 p4 _
  obtain ⟨b1, _, _, hb1, _, hr1, _⟩ := build_ok hg'
  have hb : l.problem = .ok { b1 with bounds := l.st } := by
    unfold Lap.problem
    simp only [bind, Except.bind, hb1]
    rfl
  have eL : l.S.c.o.L = S.c.o.L := by rw [f3]; rfl
  obtain ⟨n1, n2, -, -⟩ := hmd.names
  obtain ⟨x, hx, hval⟩ := exists_point hg'.cond.ocp.made fun g m _ => if g = "states" then (if m = "vx" then (50 : ℝ) else
    if m = "wheel_speed_rl" then 150 else if m = "wheel_speed_rr" then 150 else 0) else 0
  refine ⟨_, _, l, _, vdiv x b1.prob.scales, hc, hu, fun _ _ h => h, h1, hb, ?_, ?_⟩
  · rw [vdiv, List.length_zipWith, hx, hr1.inv.scales.1, Nat.min_self]
  · intro s hs'
    show Regular _ _ _ _ _ (fun n => readAt l.S.c.o.L (vmul (vdiv x b1.prob.scales) b1.prob.scales) "states" n s)
      (fun n => readAt l.S.c.o.L (vmul (vdiv x b1.prob.scales) b1.prob.scales) "inputs" n s)
    rw [vmul_vdiv_cancel (hx.trans hr1.inv.scales.1.symm) hr1.inv.scales.2]
    have rs : ∀ m ∈ onTrackNames.states, readAt l.S.c.o.L x "states" m s = if m = "vx" then (50 : ℝ) else
        if m = "wheel_speed_rl" then 150 else if m = "wheel_speed_rr" then 150 else 0 := by
      intro m hm
      have hvv : l.S.c.o.L.IsVar (.stage s "states" m) := by
        rw [eL, hmd.layout] at hs' ⊢
        exact (isVar_iff ..).mpr ⟨hs', Or.inl ⟨rfl, by show m ∈ (vehicleOnTrack v).names.states; rw [onTrack_names]; exact hm⟩⟩
      rw [hval s "states" m hvv, if_pos rfl]
    have ri : ∀ m ∈ onTrackNames.inputs, readAt l.S.c.o.L x "inputs" m s = 0 := by
      intro m hm
      have hvv : l.S.c.o.L.IsVar (.stage s "inputs" m) := by
        rw [eL, hmd.layout] at hs' ⊢
        exact (isVar_iff ..).mpr ⟨hs', Or.inr (Or.inl ⟨rfl, by show m ∈ (vehicleOnTrack v).names.inputs; rw [onTrack_names]; exact hm⟩)⟩
      rw [hval s "inputs" m hvv, if_neg (by decide)]
    exact cruise_regular _ _ (rs _ (by decide)) (rs _ (by decide)) (rs _ (by decide)) (rs _ (by decide)) (rs _ (by decide)) (rs _ (by decide)) (rs _ (by decide))
      (ri _ (by decide)) (ri _ (by decide)) (ri _ (by decide))

end Lumos.Lts
