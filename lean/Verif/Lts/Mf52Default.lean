import Verif.Lts.Mf52Smooth
import Verif.Lts.SmoothDefault
import Verif.Tyre.LoadDefault
/-!
# C113: the default car, and what its lap inherits from the laps of other cars
-/

namespace Lumos.Lts

open Lumos DecVar DecVar.Layout NLP Bounds Ocp OCP Track LapSim Io Io.Mdl Lumos.Trans Veh Tyre

/-! ## The model with arbitrary numbers is the model, where the latter has numbers -/

/-- Replacing submodels by others that return the same wherever these return. -/
theorem evalProg_mono {V : Type} (nm : Names) (ns : List String) {f g : String → Option (Names × (Kw V → Py (Ret V)))}
    (h : ∀ n snm F, f n = some (snm, F) → ∃ G, g n = some (snm, G) ∧ ∀ kw r, F kw = .ok r → G kw = .ok r) (called : Dict (Ret V)) (prog : Prog V) (r : Ret V)
    (hr : evalProg nm ns f called prog = .ok r) : evalProg nm ns g called prog = .ok r := by
  induction prog generalizing called with
  | done => exact hr
  | fail => exact hr
  | call n kw k ih =>
    simp only [evalProg] at hr ⊢
    cases hf : f n with
    | none => rw [hf] at hr; simp at hr
    | some q =>
      obtain ⟨snm, F⟩ := q
      obtain ⟨G, hG, hFG⟩ := h n snm F hf
      rw [hf] at hr
      rw [hG]
      dsimp only at hr ⊢
      split_ifs at hr ⊢ with hc
      cases hk : checkCall snm kw with
      | error e => rw [hk] at hr; simp at hr
      | ok _ =>
        rw [hk] at hr
        dsimp only at hr ⊢
        cases hF : F kw with
        | error e => rw [hF] at hr; simp at hr
        | ok r' =>
          rw [hF] at hr
          rw [hFG kw r' hF]
          exact ih r' _ hr
  | makeOutputs kw k ih =>
    simp only [evalProg] at hr ⊢
    split_ifs at hr ⊢ with h1 h2
    cases hm : mergeOutputs nm kw (collected ns called) with
    | error e => rw [hm] at hr; simp at hr
    | ok d =>
      rw [hm] at hr
      exact ih d _ hr

theorem tyre_agrees (d : Dict ℝ) (junk : In → Out) (kw : Kw ℝ) (r : Ret ℝ) (h : (Mdl.node (mf52 d true) []).eval kw = .ok r) :
    (Mdl.node (mf52Or d junk) []).eval kw = .ok r := by
  obtain ⟨x, u, m⟩ := kw
  simp only [eval, mf52, mf52Or, body, bind_apply, pure_apply] at h ⊢
  unfold arg at h ⊢
  cases u with
  | none => simp [evalProg] at h
  | some u =>
    dsimp only at h ⊢
    unfold Veh.get at h ⊢
    cases e1 : u.lookup "gamma" with
    | none => rw [e1] at h; simp [evalProg] at h
    | some g =>
    rw [e1] at h
    dsimp only at h ⊢
    cases e2 : u.lookup "vx" with
    | none => rw [e2] at h; simp [evalProg] at h
    | some w =>
    rw [e2] at h
    dsimp only at h ⊢
    cases e3 : u.lookup "Fz" with
    | none => rw [e3] at h; simp [evalProg] at h
    | some F =>
    rw [e3] at h
    dsimp only at h ⊢
    cases e4 : u.lookup "kappa" with
    | none => rw [e4] at h; simp [evalProg] at h
    | some k =>
    rw [e4] at h
    dsimp only at h ⊢
    cases e5 : u.lookup "alpha" with
    | none => rw [e5] at h; simp [evalProg] at h
    | some a =>
    rw [e5] at h
    dsimp only at h ⊢
    simp only [if_true, List.append_nil] at h
    by_cases hk : ∀ k ∈ forceKeys, (d.lookup k).isSome
    · rw [if_pos hk, lift_ok] at h ⊢
      cases hf : forces (fun k => (d.lookup k).getD 0) true ⟨F, k, a, w, g⟩ with
      | error e => rw [hf] at h; unfold lift at h; simp [evalProg] at h
      | ok o =>
        rw [hf, lift_ok] at h
        exact h
    · rw [if_neg hk] at h
      unfold lift at h
      simp [evalProg] at h

theorem tyre_names (d : Dict ℝ) (junk : In → Out) : (Mdl.node (mf52Or d junk) []).names = (Mdl.node (mf52 d true) []).names := rfl

/-- **C113 (the same car).** Whatever the car with MF5.2 tyres returns, without any number that is not finite, is what the car returns that goes on with arbitrary numbers: a theorem
about all `junk` is a theorem about the code where the code has numbers. -/
theorem C113_agrees (p : Params) (d : Four (Dict ℝ)) (junk : In → Out) (cx cy cz : ℝ) (kw : Kw ℝ) (r : Ret ℝ)
    (h : (car p d true (.node (constAero cx cy cz) [])).eval kw = .ok r) : (defaultCar p d junk cx cy cz).eval kw = .ok r := by
  unfold car vehicle at h
  unfold defaultCar vehicle
  rw [eval.eq_def] at h ⊢
  dsimp only at h ⊢
  refine evalProg_mono _ _ ?_ _ _ _ h
  intro n snm F hF

  unfold vehicleSubs at hF ⊢
  simp only [evalL] at hF ⊢
  split_ifs at hF ⊢ with h1 h2 h3 h4 h5
  · simp only [Option.some.injEq, Prod.mk.injEq] at hF
    obtain ⟨e1, e2⟩ := hF
    refine ⟨(Mdl.node (mf52Or d.fl junk) []).eval, by rw [← e1, tyre_names], fun kw r hr => tyre_agrees d.fl junk kw r ?_⟩
    rw [← e2] at hr
    exact hr
  · simp only [Option.some.injEq, Prod.mk.injEq] at hF
    obtain ⟨e1, e2⟩ := hF
    refine ⟨(Mdl.node (mf52Or d.fr junk) []).eval, by rw [← e1, tyre_names], fun kw r hr => tyre_agrees d.fr junk kw r ?_⟩
    rw [← e2] at hr
    exact hr
  · simp only [Option.some.injEq, Prod.mk.injEq] at hF
    obtain ⟨e1, e2⟩ := hF
    refine ⟨(Mdl.node (mf52Or d.rl junk) []).eval, by rw [← e1, tyre_names], fun kw r hr => tyre_agrees d.rl junk kw r ?_⟩
    rw [← e2] at hr
    exact hr
  · simp only [Option.some.injEq, Prod.mk.injEq] at hF
    obtain ⟨e1, e2⟩ := hF
    refine ⟨(Mdl.node (mf52Or d.rr junk) []).eval, by rw [← e1, tyre_names], fun kw r hr => tyre_agrees d.rr junk kw r ?_⟩
    rw [← e2] at hr
    exact hr
  · simp only [Option.some.injEq, Prod.mk.injEq] at hF
    obtain ⟨e1, e2⟩ := hF
    refine ⟨(Mdl.node (constAero cx cy cz) []).eval, by rw [e1], fun kw r hr => ?_⟩
    rw [← e2] at hr
    exact hr

/-! ## The default tyres -/

/-- Default tyres on all wheels. -/
noncomputable def defaultTyres : Four (Dict ℝ) := ⟨Tyre.defaults, Tyre.defaults, Tyre.defaults, Tyre.defaults⟩

theorem defaultTyres_keyed : Keyed defaultTyres := ⟨hasKeys_default true, hasKeys_default true, hasKeys_default true, hasKeys_default true⟩

theorem con_own : ∀ n ∈ defaultConOutputs, n ∈ ownOutputs := by decide +kernel

/-- **C113 (the default car).** With the default car and any scheme, mesh, road and default configuration a lap simulation is made, from the code's model with default tyres, and the
derivative theorem's hypotheses about the car and the configuration hold. -/
theorem C113_default_lap (p : Params) (junk : In → Out) (cx cy cz : ℝ) {tn : String} {kw : List (String × Int)} {t : Transcription} (ht : makeTranscription tn kw = .ok t)
    {n : Nat} (hn : 1 ≤ n) {pts : Option (List ℝ)}
    {mesh : List (List ℝ)} (hm : setMesh t.interp n pts = .ok mesh) (cyc closed : Bool) {nc : List String} (hnd : nc.Nodup)
    (hnc : ∀ w ∈ nc, (∃ n ∈ onTrackNames.states, w = "states." ++ n) ∨ ∃ n ∈ onTrackNames.inputs, w = "inputs." ++ n)
    (hst : cyc = true → "inputs.steer" ∉ nc) {rows : List Row} (hr : Road rows) :
    Keyed defaultTyres ∧ Usable (defaultCar p defaultTyres junk cx cy cz) (defaults tn kw n pts cyc nc closed) ∧
    (∀ w ∈ (defaults tn kw n pts cyc nc closed).conOutputs, w ∈ ownOutputs) ∧
    ∀ u D, Backed (defaultCar p defaultTyres junk cx cy cz) (defaults tn kw n pts cyc nc closed) u D →
      ∃ l, laptime (defaultCar p defaultTyres junk cx cy cz) u (defaults tn kw n pts cyc nc closed) (.ok rows) = .ok l := by
  have hd := defaultTyres_keyed
  have hv := default_car p hd.1 hd.2.1 hd.2.2.1 hd.2.2.2 junk cx cy cz
  have hc := defaults_usable (default_con p defaultTyres junk cx cy cz) hv (tn := tn) (kw := kw) (pts := pts) (closed := closed) hn hnd hnc hst
  refine ⟨hd, hc, con_own, fun u D hu => ?_⟩
  obtain ⟨l, tr, h1, -⟩ := C95_construct hv hc hu ht hm hr
  exact ⟨l, h1⟩

/-- The default car on a straight at 50 m/s. -/
theorem cruise_regular52 (junk : In → Out) (x u : String → ℝ) (hvx : x "vx" = 50) (hvy : x "vy" = 0) (hyaw : x "yaw_rate" = 0) (hn : x "n" = 0) (heta : x "eta" = 0)
    (hrl : x "wheel_speed_rl" = 150) (hrr : x "wheel_speed_rr" = 150) (hsteer : u "steer" = 0) (hax : u "ax" = 0) (hay : u "ay" = 0) :
    Regular52 carParams defaultTyres junk 0.6 0 1.9 x u := by
  refine ⟨by rw [hvx]; norm_num, by rw [hrl, hrr]; norm_num, ?_, ?_, ?_, by rw [hn]; norm_num, by rw [hvx, heta, hvy]; norm_num⟩
  · intro side _
    rw [hsteer, hyaw, hvy, hvx]
    norm_num
  · intro side _
    rw [hyaw, hvx]
    norm_num
  · intro r hr F k a
    obtain ⟨r', e, ⟨h1, -⟩, ⟨h2, -⟩, ⟨h3, -⟩, h4, -⟩ := reported52 defaultTyres_keyed carParams junk 0.6 0 1.9 x u
    rw [hr, Except.ok.injEq] at e
    subst e
    have good : ∀ F : ℝ, F = 5127 → ∀ k a, Takes (par Tyre.defaults) F k a := by
      rintro F rfl k a
      exact takes_default (by norm_num) (Or.inl (by norm_num)) (by norm_num) (by have := corner_bounds; intro e; rw [← e] at this; norm_num at this) k a
    have l : ((rawNums 0.6 1.9 x u).load carParams) = ⟨5127, 5127, 5127, 5127⟩ := by
      simp only [Nums.load, Nums.fzTotal, Nums.dynPressure, Nums.latF, Nums.latR, Nums.long, Nums.wdf, rawNums, carParams, hvx, hvy, hax, hay]
      norm_num
    rw [l] at h1 h2 h3 h4
    refine ⟨fun hF _ _ => good F ?_ _ _, fun hF _ _ => good F ?_ _ _, fun hF _ _ => good F ?_ _ _, fun hF _ _ => good F ?_ _ _⟩
    · rw [h1, Option.some.injEq] at hF; exact hF.symm
    · rw [h2, Option.some.injEq] at hF; exact hF.symm
    · rw [h3, Option.some.injEq] at hF; exact hF.symm
    · rw [h4, Option.some.injEq] at hF; exact hF.symm

/-- **C113 (not vacuous).** For the default car, every scheme, mesh and road and the default configuration there is a lap simulation with exact derivatives and, for it, points that
satisfy the hypotheses of `C113_lap`: at 50 m/s straight on. -/
theorem C113_cruise (junk : In → Out) {tn : String} {kw : List (String × Int)} {t : Transcription} (ht : makeTranscription tn kw = .ok t) {n : Nat} (hn : 1 ≤ n) {pts : Option (List ℝ)}
    {mesh : List (List ℝ)} (hm : setMesh t.interp n pts = .ok mesh) (cyc closed : Bool) {nc : List String} (hnd : nc.Nodup)
    (hnc : ∀ w ∈ nc, (∃ n ∈ onTrackNames.states, w = "states." ++ n) ∨ ∃ n ∈ onTrackNames.inputs, w = "inputs." ++ n)
    (hst : cyc = true → "inputs.steer" ∉ nc) {rows : List Row} (hr : Road rows) :
    ∃ u D l b z, Usable (defaultCar carParams defaultTyres junk 0.6 0 1.9) (defaults tn kw n pts cyc nc closed) ∧
      Backed (defaultCar carParams defaultTyres junk 0.6 0 1.9) (defaults tn kw n pts cyc nc closed) u D ∧
      (∀ v μ, ((vehicleOnTrack (defaultCar carParams defaultTyres junk 0.6 0 1.9)).explicit
        (defaults tn kw n pts cyc nc closed).conOutputs).Smooth v μ → D v μ) ∧
      laptime (defaultCar carParams defaultTyres junk 0.6 0 1.9) u (defaults tn kw n pts cyc nc closed) (.ok rows) = .ok l ∧
      l.problem = .ok b ∧ z.length = l.S.c.o.L.numDec ∧
      ∀ s < l.S.c.o.L.numStages, Regular52 carParams defaultTyres junk 0.6 0 1.9
        (fun n => readAt l.S.c.o.L (vmul z b.prob.scales) "states" n s) (fun n => readAt l.S.c.o.L (vmul z b.prob.scales) "inputs" n s) := by
  set v := defaultCar carParams defaultTyres junk 0.6 0 1.9 with hvd
  have hv : Car v := default_car _ defaultTyres_keyed.1 defaultTyres_keyed.2.1 defaultTyres_keyed.2.2.1 defaultTyres_keyed.2.2.2 ..
  have hc : Usable v (defaults tn kw n pts cyc nc closed) := defaults_usable (default_con _ _ _ _ _ _) hv hn hnd hnc hst
  have hu := backed_auto hv hc
  obtain ⟨l, tr, h1, h2, h3, h4⟩ := C95_construct hv hc hu ht hm hr
  obtain ⟨t', S, b0, tr', ht', hmd, hg, hb0, hrd, hs, f1, f2, f3⟩ := laptime_inv hv hc hu h1
  obtain ⟨p1, p2, p3, p4, p5⟩ := hmd.plain
  have hg' : l.S.Good _ := f3 ▸ Good.rescale hg (hg.lap p2).1 p4 _
  obtain ⟨b1, _, _, hb1, _, hr1, _⟩ := build_ok hg'
  have hb : l.problem = .ok { b1 with bounds := l.st } := by
    unfold Lap.problem
    simp only [bind, Except.bind, hb1]
    rfl
  have eL : l.S.c.o.L = S.c.o.L := by rw [f3]; rfl
  obtain ⟨n1, n2, -, -⟩ := hmd.names
  obtain ⟨x, hx, hval⟩ := exists_point hg'.cond.ocp.made fun g m _ => if g = "states" then (if m = "vx" then (50 : ℝ) else
    if m = "wheel_speed_rl" then 150 else if m = "wheel_speed_rr" then 150 else 0) else 0
  refine ⟨_, _, l, _, vdiv x b1.prob.scales, hc, hu, fun _ _ h => h, h1, hb, ?_, ?_⟩
  · rw [vdiv, List.length_zipWith, hx, hr1.inv.scales.1, Nat.min_self]
  · intro s hs'
    show Regular52 _ _ _ _ _ _ (fun n => readAt l.S.c.o.L (vmul (vdiv x b1.prob.scales) b1.prob.scales) "states" n s)
      (fun n => readAt l.S.c.o.L (vmul (vdiv x b1.prob.scales) b1.prob.scales) "inputs" n s)
    rw [vmul_vdiv_cancel (hx.trans hr1.inv.scales.1.symm) hr1.inv.scales.2]
    have rs : ∀ m ∈ onTrackNames.states, readAt l.S.c.o.L x "states" m s = if m = "vx" then (50 : ℝ) else
        if m = "wheel_speed_rl" then 150 else if m = "wheel_speed_rr" then 150 else 0 := by
      intro m hm
      have hvv : l.S.c.o.L.IsVar (.stage s "states" m) := by
        rw [eL, hmd.layout] at hs' ⊢
        exact (isVar_iff ..).mpr ⟨hs', Or.inl ⟨rfl, by show m ∈ (vehicleOnTrack v).names.states; rw [onTrack_names]; exact hm⟩⟩
      rw [hval s "states" m hvv, if_pos rfl]
    have ri : ∀ m ∈ onTrackNames.inputs, readAt l.S.c.o.L x "inputs" m s = 0 := by
      intro m hm
      have hvv : l.S.c.o.L.IsVar (.stage s "inputs" m) := by
        rw [eL, hmd.layout] at hs' ⊢
        exact (isVar_iff ..).mpr ⟨hs', Or.inr (Or.inl ⟨rfl, by show m ∈ (vehicleOnTrack v).names.inputs; rw [onTrack_names]; exact hm⟩)⟩
      rw [hval s "inputs" m hvv, if_neg (by decide)]
    exact cruise_regular52 _ _ _ (rs _ (by decide)) (rs _ (by decide)) (rs _ (by decide)) (rs _ (by decide)) (rs _ (by decide)) (rs _ (by decide)) (rs _ (by decide))
      (ri _ (by decide)) (ri _ (by decide)) (ri _ (by decide))

end Lumos.Lts
