import Verif.Veh.Mirror
/-!
# C61: the vehicle on the track, C62: the drone
-/

namespace Lumos.Veh

open Lumos Io Io.Mdl

/-! ## Helpers -/

theorem inv_pick {nm : Names} {ns : List String} {look : String → Option (Names × (Kw ℝ → Py (Ret ℝ)))} {called : Dict (Ret ℝ)}
    {r : Ret ℝ} {d : Dict ℝ} {ks : List String} {k : Dict ℝ → Prog ℝ} (h : evalProg nm ns look called (pick d ks k) = .ok r) :
    (∀ n ∈ ks, n ∈ d.keys) ∧ evalProg nm ns look called (k (ks.map fun n => (n, val d n))) = .ok r := by
  induction ks generalizing k with
  | nil => exact ⟨by simp, h⟩
  | cons n ks ih =>
    unfold pick at h
    simp only [bind_apply, pure_apply] at h
    obtain ⟨v, hv, h⟩ := inv_get h
    obtain ⟨h1, h2⟩ := ih h
    refine ⟨?_, ?_⟩
    · intro n' hn'
      rcases List.mem_cons.mp hn' with rfl | hn'
      · exact (Dict.lookup_isSome d n').mp (by rw [hv]; rfl)
      · exact h1 n' hn'
    · rw [List.map_cons, val_of hv]
      exact h2

/-- The values of some keys. -/
noncomputable def only (d : Dict ℝ) (ks : List String) : Dict ℝ := ks.map fun n => (n, val d n)

theorem only_lookup {d : Dict ℝ} {ks : List String} {n : String} (h : n ∈ ks) : (only d ks).lookup n = some (val d n) := by
  induction ks with
  | nil => simp at h
  | cons k ks ih =>
    unfold only at ih ⊢
    rw [List.map_cons, Dict.lookup_cons]
    by_cases hk : n = k
    · rw [if_pos hk, hk]
    · rw [if_neg hk]
      exact ih (by simpa [hk] using h)

theorem lookup_map_val (f : ℝ → ℝ) (d : Dict ℝ) (n : String) : List.lookup n (d.map fun q => (q.1, f q.2)) = (d.lookup n).map f := by
  induction d with
  | nil => rfl
  | cons q d ih =>
    obtain ⟨k, v⟩ := q
    rw [List.map_cons, Dict.lookup_cons, Dict.lookup_cons, ih]
    split <;> rfl

theorem keys_map_val (f : ℝ → ℝ) (d : Dict ℝ) : Dict.keys (d.map fun q => (q.1, f q.2)) = d.keys := by
  unfold Dict.keys
  rw [List.map_map]
  rfl

/-! ## C61 -/

/-- What the combined model returns: the vehicle is asked with its own states and inputs, the kinematics with the velocities of the
vehicle and the track; the derivatives of the kinematics are returned as they are, those of the vehicle are turned from time to distance,
and all outputs are passed on under the name of the submodel. -/
theorem C61_composition {v : Mdl ℝ} {x u : Dict ℝ} {mesh : Option ℝ} {r : Ret ℝ}
    (h : (vehicleOnTrack v).eval ⟨some x, some u, mesh⟩ = .ok r) :
    ∃ rv rk, v.eval ⟨some (only x vehicleNames.states), some (only u vehicleNames.inputs), none⟩ = .ok rv ∧
      (Mdl.node trackPosition2D []).eval ⟨some (only x trackNames.states), some (only u ["track_curvature", "track_heading"]
        ++ only x ["vx", "vy", "yaw_rate"]), mesh⟩ = .ok rk ∧
      (rv.statesDot.keys.Nodup → ∀ n, n ∈ rv.statesDot.keys → r.statesDot.lookup n = some (val rv.statesDot n * val rk.statesDot "time")) ∧
      (rv.statesDot.keys.Nodup → ∀ n, n ∉ rv.statesDot.keys → r.statesDot.lookup n = rk.statesDot.lookup n) ∧
      (∃ T, rk.statesDot.lookup "time" = some T) ∧
      r.outputs = collected ["vehicle", "kinematics"] [("vehicle", rv), ("kinematics", rk)] := by
  unfold vehicleOnTrack at h
  simp only [eval, onTrack, body, bind_apply, pure_apply, arg_some] at h
  obtain ⟨-, h⟩ := inv_pick h
  obtain ⟨-, h⟩ := inv_pick h
  obtain ⟨n1, f1, rv, l1, -, -, e1, h⟩ := inv_call h
  obtain ⟨-, h⟩ := inv_pick h
  obtain ⟨-, h⟩ := inv_pick h
  obtain ⟨-, h⟩ := inv_pick h
  obtain ⟨n2, f2, rk, l2, -, -, e2, h⟩ := inv_call h
  obtain ⟨T, hT, h⟩ := inv_get h
  obtain ⟨o, ho, h⟩ := inv_outputs h
  have k1 := evalL_some (sub := v) l1 rfl
  have k2 := evalL_some (sub := .node trackPosition2D []) l2 rfl
  subst k1 k2
  have hr : (⟨rk.statesDot.update (rv.statesDot.map fun q => (q.1, q.2 * T)), o, [], []⟩ : Ret ℝ) = r := Except.ok.inj h
  have hd : (["vx", "vy", "yaw_rate"].map fun n => (n, val (vehicleNames.states.map fun n => (n, val x n)) n))
      = only x ["vx", "vy", "yaw_rate"] := by
    apply List.map_congr_left
    intro n hn
    have := only_lookup (d := x) (ks := vehicleNames.states) (n := n)
      (by simp only [List.mem_cons, List.not_mem_nil, or_false] at hn; rcases hn with rfl | rfl | rfl <;> simp [vehicleNames])
    rw [show (vehicleNames.states.map fun n => (n, val x n)) = only x vehicleNames.states from rfl, val_of this]
  rw [hd] at e2
  refine ⟨rv, rk, e1, e2, ?_, ?_, ⟨T, hT⟩, ?_⟩
  · intro hnd n hn
    rw [← hr, val_of hT]
    show (rk.statesDot.update (rv.statesDot.map fun q => (q.1, q.2 * T))).lookup n = _
    rw [lookup_update _ _ (by rw [keys_map_val (fun a => a * T)]; exact hnd), lookup_map_val (fun a => a * T)]
    obtain ⟨a, ha⟩ := Option.isSome_iff_exists.mp ((Dict.lookup_isSome _ _).mpr hn)
    rw [ha, val_of ha]
    rfl
  · intro hnd n hn
    rw [← hr]
    show (rk.statesDot.update (rv.statesDot.map fun q => (q.1, q.2 * T))).lookup n = _
    rw [lookup_update _ _ (by rw [keys_map_val (fun a => a * T)]; exact hnd), lookup_map_val (fun a => a * T),
      (Dict.lookup_none _ _).mpr hn]
    rfl
  · rw [← hr]
    have := mergeOutputs_eq ho
    rw [List.nil_append] at this
    simp only [Dict.keys, List.map_cons, List.map_nil, List.nil_append, List.cons_append] at this
    exact this

/-- A vehicle model: the states and inputs of `SimpleVehicle`, their derivatives returned in any order, whatever the mesh variable is. -/
structure IsVehicle (v : Mdl ℝ) : Prop where
  states : v.names.states = vehicleNames.states
  inputs : v.names.inputs = vehicleNames.inputs
  dots : ∀ kw r, v.eval kw = .ok r → r.statesDot.keys.Perm vehicleNames.states
  mesh : ∀ x u m m', v.eval ⟨x, u, m⟩ = v.eval ⟨x, u, m'⟩

theorem simple_isVehicle (p : Params) (tfl tfr trl trr aero : Mdl ℝ) : IsVehicle (vehicle p tfl tfr trl trr aero) := by
  refine ⟨rfl, rfl, ?_, fun _ _ _ _ => rfl⟩
  intro kw r h
  obtain ⟨x, u, m, -, -, -, -, hd, -⟩ := vehicle_inv h
  rw [hd]
  exact List.Perm.refl _

/-- The signals that the kinematics are driven by. -/
def kinInputs (x u : String → ℝ → ℝ) : String → ℝ → ℝ := fun n =>
  if n = "vx" ∨ n = "vy" ∨ n = "yaw_rate" then x n else u n

theorem only_at {ks ns : List String} {x : String → ℝ → ℝ} {s : ℝ} (h : ∀ k ∈ ks, k ∈ ns) : only (at_ ns x s) ks = at_ ks x s := by
  unfold only
  apply List.map_congr_left
  intro k hk
  have : ∀ ns : List String, k ∈ ns → (at_ ns x s).lookup k = some (x k s) := by
    intro ns
    induction ns with
    | nil => simp
    | cons n ns ih =>
      intro hn
      unfold at_ at ih ⊢
      rw [List.map_cons, Dict.lookup_cons]
      by_cases e : k = n
      · rw [if_pos e, e]
      · rw [if_neg e]; exact ih (by simpa [e] using hn)
  rw [val_of (this ns (h k hk))]

/-- A solution of the combined model along the track is a motion in time: with `σ t` the distance at time `t`, the signals of the vehicle
solve the equations of the vehicle model in time, and the vehicle moves over the ground with its velocity. -/
theorem C61_in_time {v : Mdl ℝ} (V : IsVehicle v) {x u : String → ℝ → ℝ} {σ : ℝ → ℝ} {t : ℝ} (hσ : ContinuousAt σ t)
    (hinv : ∀ᶠ τ in nhds t, x "time" (σ τ) = τ) (h : Solves (vehicleOnTrack v) x u (σ t)) {cx cy : ℝ → ℝ}
    (hc : Centreline cx cy (u "track_heading") (u "track_curvature" (σ t)) (σ t))
    (hn : 1 - x "n" (σ t) * u "track_curvature" (σ t) ≠ 0)
    (hv : x "vx" (σ t) * Real.cos (x "eta" (σ t)) - x "vy" (σ t) * Real.sin (x "eta" (σ t)) ≠ 0) :
    Solves v (fun n τ => x n (σ τ)) (fun n τ => u n (σ τ)) t ∧
    HasDerivAt (fun τ => cx (σ τ) - x "n" (σ τ) * Real.sin (u "track_heading" (σ τ)))
      (x "vx" (σ t) * Real.cos (x "eta" (σ t) + u "track_heading" (σ t))
        - x "vy" (σ t) * Real.sin (x "eta" (σ t) + u "track_heading" (σ t))) t ∧
    HasDerivAt (fun τ => cy (σ τ) + x "n" (σ τ) * Real.cos (u "track_heading" (σ τ)))
      (x "vx" (σ t) * Real.sin (x "eta" (σ t) + u "track_heading" (σ t))
        + x "vy" (σ t) * Real.cos (x "eta" (σ t) + u "track_heading" (σ t))) t ∧
    HasDerivAt (fun τ => x "eta" (σ τ) + u "track_heading" (σ τ)) (x "yaw_rate" (σ t)) t := by
  obtain ⟨r, he, hd⟩ := h
  have hs : (vehicleOnTrack v).names.states = trackNames.states ++ vehicleNames.states := rfl
  have hi : (vehicleOnTrack v).names.inputs = vehicleNames.inputs ++ ["track_curvature", "track_heading"] := rfl
  rw [hs, hi] at he
  rw [hs] at hd
  obtain ⟨rv, rk, ev, ek, dv, dk, ⟨T, hT⟩, -⟩ := C61_composition he
  have hp := V.dots _ _ ev
  have hnd : rv.statesDot.keys.Nodup := hp.nodup_iff.mpr (by decide)
  rw [only_at (by intro k hk; exact List.mem_append_right _ hk), only_at (by intro k hk; exact List.mem_append_left _ hk)] at ev
  rw [only_at (by intro k hk; exact List.mem_append_left _ hk),
    only_at (by intro k hk; exact List.mem_append_right _ hk), only_at (by
      intro k hk
      simp only [List.mem_cons, List.not_mem_nil, or_false] at hk
      rcases hk with rfl | rfl | rfl <;> simp [vehicleNames])] at ek
  have hk : ∀ n ∈ trackNames.states, n ∉ rv.statesDot.keys := by
    intro n hn hm
    have := hp.mem_iff.mp hm
    simp only [trackNames, List.mem_cons, List.not_mem_nil, or_false] at hn
    rcases hn with rfl | rfl | rfl <;> simp [vehicleNames] at this
  -- the kinematics
  have KS : Solves (.node trackPosition2D []) x (kinInputs x u) (σ t) := by
    refine ⟨rk, ?_, ?_⟩
    · rw [← ek]
      rw [track_eval (n := x "n" (σ t)) (eta := x "eta" (σ t)) (vx := x "vx" (σ t)) (vy := x "vy" (σ t)) (r := x "yaw_rate" (σ t))
        (κ := u "track_curvature" (σ t)) (θ := u "track_heading" (σ t)) rfl rfl rfl rfl rfl rfl rfl,
        track_eval (n := x "n" (σ t)) (eta := x "eta" (σ t)) (vx := x "vx" (σ t)) (vy := x "vy" (σ t)) (r := x "yaw_rate" (σ t))
        (κ := u "track_curvature" (σ t)) (θ := u "track_heading" (σ t)) rfl rfl rfl rfl rfl rfl rfl]
    · intro n hn
      obtain ⟨d, h1, h2⟩ := hd n (List.mem_append_left _ hn)
      rw [dk hnd n (hk n hn)] at h1
      exact ⟨d, h1, h2⟩
  obtain ⟨T', hT1, hTw, -⟩ := C53_motion KS hc hn hv
  have hTT : T' = T := by
    obtain ⟨d, h1, h2⟩ := KS.choose_spec.2 "time" (by simp [names, trackPosition2D, trackNames])
    obtain ⟨d', h1', h2'⟩ := hd "time" (List.mem_append_left _ (by simp [trackNames]))
    rw [dk hnd "time" (hk _ (by simp [trackNames])), hT] at h1'
    rw [hT1.unique h2', Option.some.inj h1']
  subst hTT
  have hT0 : T' ≠ 0 := by
    rintro rfl
    rw [zero_mul] at hTw
    exact hn hTw.symm
  have hσ' : HasDerivAt σ T'⁻¹ t := HasDerivAt.of_local_left_inverse hσ hT1 hT0 hinv
  refine ⟨⟨rv, ?_, ?_⟩, C53_in_time (u := kinInputs x u) hσ hinv KS hc hn hv⟩
  · rw [V.states, V.inputs]
    rw [V.mesh _ _ (some t) none]
    exact ev
  · rw [V.states]
    intro n hn
    have hm : n ∈ rv.statesDot.keys := hp.mem_iff.mpr hn
    obtain ⟨d, h1, h2⟩ := hd n (List.mem_append_right _ hn)
    rw [dv hnd n hm, val_of hT] at h1
    obtain ⟨a, ha⟩ := Option.isSome_iff_exists.mp ((Dict.lookup_isSome _ _).mpr hm)
    refine ⟨a, ha, (h2.comp t hσ').congr_deriv ?_⟩
    rw [← Option.some.inj h1, val_of ha]
    field_simp

/-! ### Example: coasting along a straight -/

theorem pick_all {d : Dict ℝ} {ks : List String} (h : ∀ n ∈ ks, n ∈ d.keys) (k : Dict ℝ → Prog ℝ) : pick d ks k = k (only d ks) := by
  induction ks generalizing k with
  | nil => rfl
  | cons n ks ih =>
    unfold pick
    simp only [bind_apply, pure_apply]
    obtain ⟨a, ha⟩ := Option.isSome_iff_exists.mp ((Dict.lookup_isSome _ _).mpr (h n (.head _)))
    rw [get_some ha, ih fun n hn => h n (.tail _ hn)]
    unfold only
    rw [List.map_cons, val_of ha]

theorem keys_at (ns : List String) (x : String → ℝ → ℝ) (s : ℝ) : (at_ ns x s).keys = ns := by
  unfold at_ Dict.keys
  rw [List.map_map]
  exact List.map_id ns

/-- The combined model with these submodels returns. -/
theorem onTrack_runs (p : Params) (q : Four TireParams) (cx cy cz : ℝ) (x u : String → ℝ → ℝ) (s : ℝ) :
    ∃ r, (vehicleOnTrack (standardVehicle p q cx cy cz)).eval
      ⟨some (at_ onTrackNames.states x s), some (at_ onTrackNames.inputs u s), some s⟩ = .ok r := by
  obtain ⟨rv, ev, ov⟩ := standard_outs p q cx cy cz (fun n => x n s) (fun n => u n s) none
  change (standardVehicle p q cx cy cz).eval ⟨some (at_ vehicleNames.states x s), some (at_ vehicleNames.inputs u s), none⟩ = .ok rv at ev
  have ek := track_eval (states := at_ trackNames.states x s)
    (inputs := at_ ["track_curvature", "track_heading"] u s ++ at_ ["vx", "vy", "yaw_rate"] x s) (mesh := some s)
    (n := x "n" s) (eta := x "eta" s) (vx := x "vx" s) (vy := x "vy" s) (r := x "yaw_rate" s)
    (κ := u "track_curvature" s) (θ := u "track_heading" s) rfl rfl rfl rfl rfl rfl rfl
  unfold vehicleOnTrack
  simp only [eval, onTrack, body, bind_apply, pure_apply, arg_some]
  rw [pick_all (by rw [keys_at]; decide), pick_all (by rw [keys_at]; decide), only_at (by decide), only_at (by decide)]
  rw [ev_call (snm := (standardVehicle p q cx cy cz).names) (f := (standardVehicle p q cx cy cz).eval) rfl (by decide) rfl ev]
  rw [pick_all (by rw [keys_at]; decide), pick_all (by rw [keys_at]; decide), pick_all (by rw [keys_at]; decide),
    only_at (by decide), only_at (by decide), only_at (by decide)]
  rw [ev_call (snm := trackNames) (f := (Mdl.node trackPosition2D []).eval) rfl
    (by exact (show "kinematics" ∉ ["vehicle"] by decide)) rfl ek]
  rw [get_some rfl]
  have B : ∀ a b : ℝ, blank (collected ["vehicle", "kinematics"] [("vehicle", rv), ("kinematics", { outputs := [("yaw_angle", a), ("curvature", b)] })])
      = ((vehicleOuts ++ subOuts).map ("vehicle" ++ "." ++ ·) ++ ["kinematics.yaw_angle", "kinematics.curvature"]).map fun k => (k, ()) := by
    intro a b
    rw [blank_collected]
    simp only [List.map_cons, List.map_nil]
    rw [ov]
    exact (show collected ["vehicle", "kinematics"] [("vehicle", ({ outputs := (vehicleOuts ++ subOuts).map fun k => (k, ()) } : Ret Unit)),
      ("kinematics", { outputs := [("yaw_angle", ()), ("curvature", ())] })] = _ by decide +kernel)
  rw [ev_outputs (K := []) (K' := (vehicleOuts ++ subOuts).map ("vehicle" ++ "." ++ ·) ++ ["kinematics.yaw_angle", "kinematics.curvature"])
    (C := ["vehicle", "kinematics"]) rfl rfl rfl (keys_of_blank (by exact B _ _)) (by exact (show ∀ n ∈ ["vehicle", "kinematics"], _ by decide))
    (by decide) (by decide +kernel)
    (by exact (show ∀ n ∈ (vehicleNames.outputs ++ subOuts).map ("vehicle" ++ "." ++ ·) ++ ["kinematics.yaw_angle", "kinematics.curvature"], _ by
      decide +kernel))]
  exact ⟨_, rfl⟩

/-- Straight ahead with 2 m/s, the wheels rolling. -/
noncomputable def coastStates (R : ℝ) (n : String) (s : ℝ) : ℝ :=
  if n = "time" then s / 2 else if n = "n" ∨ n = "eta" ∨ n = "vy" ∨ n = "yaw_rate" then 0 else if n = "vx" then 2 else 2 / R

/-- A tire without slip has no force. -/
theorem no_slip {q : TireParams} {p : Params} {m : Nums} {w load mirror fx fy : ℝ} {v : V3}
    (h : Nums.Returns (tire q) (m.tireIn p w load mirror v) [("Fx", fx), ("Fy", fy)]) (hk : m.kappa p w = 0) (hv : v.y = 0) :
    fx = 0 ∧ fy = 0 := by
  obtain ⟨r, e, hr⟩ := h
  unfold Nums.tireIn at e
  obtain ⟨r', e', h1, h2⟩ := gives q load (m.kappa p w) (Nums.alpha v * mirror) v.x (0 * mirror)
  rw [e] at e'
  cases e'
  rw [hr "Fx" fx (.head _)] at h1
  rw [hr "Fy" fy (.tail _ (.head _))] at h2
  rw [Option.some.inj h1, Option.some.inj h2, hk]
  unfold TireParams.fx TireParams.fy Nums.alpha
  rw [hv]
  simp

/-- Coasting without drag, on a straight track, solves the combined model. -/
theorem coasting (p : Params) (q : Four TireParams) (cy cz : ℝ) (hR : p.rolling_radius ≠ 0) (s : ℝ) :
    Solves (vehicleOnTrack (standardVehicle p q 0 cy cz)) (coastStates p.rolling_radius) (fun _ _ => 0) s := by
  obtain ⟨r, hr⟩ := onTrack_runs p q 0 cy cz (coastStates p.rolling_radius) (fun _ _ => 0) s
  refine ⟨r, hr, ?_⟩
  obtain ⟨rv, rk, ev, ek, dv, dk, -, -⟩ := C61_composition hr
  have ec : ∀ {n}, n ≠ "time" → ∃ c, coastStates p.rolling_radius n = fun _ => c := fun {n} h =>
    ⟨if n = "n" ∨ n = "eta" ∨ n = "vy" ∨ n = "yaw_rate" then 0 else if n = "vx" then 2 else 2 / p.rolling_radius, by
      funext s; simp only [coastStates, if_neg h]⟩
  have et : coastStates p.rolling_radius "time" = fun s => s / 2 := by funext s; simp only [coastStates, if_true]
  rw [only_at (by decide), only_at (by decide)] at ev
  rw [only_at (by decide), only_at (by decide), only_at (by decide)] at ek
  have te := track_eval (states := at_ trackNames.states (coastStates p.rolling_radius) s)
    (inputs := at_ ["track_curvature", "track_heading"] (fun _ _ => 0) s ++ at_ ["vx", "vy", "yaw_rate"] (coastStates p.rolling_radius) s)
    (mesh := some s) (n := 0) (eta := 0) (vx := 2) (vy := 0) (r := 0) (κ := 0) (θ := 0) (congrArg some (by simp [coastStates]))
    (congrArg some (by simp [coastStates])) (congrArg some (by simp [coastStates])) (congrArg some (by simp [coastStates]))
    (congrArg some (by simp [coastStates])) rfl rfl
  rw [te] at ek
  cases ek
  obtain ⟨m, hg, hc, hd, -⟩ := vehicle_nums ev
  have hk : rv.statesDot.keys = vehicleNames.states := by rw [hd]; rfl
  have m1 : m.vx = 2 := by have := hg.vx; exact (Option.some.inj this).symm.trans (by simp [coastStates])
  have m2 : m.vy = 0 := by have := hg.vy; exact (Option.some.inj this).symm.trans (by simp [coastStates])
  have m3 : m.yaw_rate = 0 := by have := hg.yaw_rate; exact (Option.some.inj this).symm.trans (by simp [coastStates])
  have m4 : m.w.fl = 2 / p.rolling_radius := by have := hg.w_fl; exact (Option.some.inj this).symm.trans (by simp [coastStates])
  have m5 : m.w.fr = 2 / p.rolling_radius := by have := hg.w_fr; exact (Option.some.inj this).symm.trans (by simp [coastStates])
  have m6 : m.w.rl = 2 / p.rolling_radius := by have := hg.w_rl; exact (Option.some.inj this).symm.trans (by simp [coastStates])
  have m7 : m.w.rr = 2 / p.rolling_radius := by have := hg.w_rr; exact (Option.some.inj this).symm.trans (by simp [coastStates])
  have m8 : m.throttle = 0 := (Option.some.inj hg.throttle).symm
  have m9 : m.brake = 0 := (Option.some.inj hg.brake).symm
  have m10 : m.steer = 0 := (Option.some.inj hg.steer).symm
  have m11 : m.cx = 0 := by
    obtain ⟨ra, e, ha⟩ := hc.aero
    have e' : Except.ok ({ outputs := [("Cx", (0 : ℝ)), ("Cy", cy), ("Cz", cz)] } : Ret ℝ) = (Except.ok ra : Py (Ret ℝ)) := e
    cases e'
    exact (Option.some.inj (ha "Cx" _ (.head _))).symm
  have kz : m.kappa p (2 / p.rolling_radius) = 0 := by unfold Nums.kappa; rw [m1]; field_simp; norm_num
  have f1 := no_slip hc.fl (by rw [m4]; exact kz) (by simp [Nums.vel, rotateZ, Nums.angle, m10, m2, m3, V3.cross])
  have f2 := no_slip hc.fr (by rw [m5]; exact kz) (by simp [Nums.vel, rotateZ, Nums.angle, m10, m2, m3, V3.cross])
  have f3 := no_slip hc.rl (by rw [m6]; exact kz) (by simp [Nums.vel, rotateZ, m2, m3, V3.cross])
  have f4 := no_slip hc.rr (by rw [m7]; exact kz) (by simp [Nums.vel, rotateZ, m2, m3, V3.cross])
  have D := dots_of p m
  rw [← hd] at D
  have z : ∀ n ∈ vehicleNames.states, val rv.statesDot n = 0 := by
    intro n hn
    simp only [vehicleNames, List.mem_cons, List.not_mem_nil, or_false] at hn
    have F : ∀ c : V3 → ℝ, (∀ z : ℝ, c ⟨0, 0, z⟩ = 0) → c (m.force p).fl = 0 ∧ c (m.force p).fr = 0 ∧ c (m.force p).rl = 0 ∧ c (m.force p).rr = 0 := by
      intro c hc
      simp only [Nums.force, rotateZ, f1.1, f1.2, f2.1, f2.2, f3.1, f3.2, f4.1, f4.2, mul_zero, zero_mul, add_zero]
      exact ⟨hc _, hc _, hc _, hc _⟩
    obtain ⟨x1, x2, x3, x4⟩ := F V3.x fun _ => rfl
    obtain ⟨y1, y2, y3, y4⟩ := F V3.y fun _ => rfl
    rcases hn with rfl | rfl | rfl | rfl | rfl | rfl | rfl
    · rw [D.vx]
      simp [Nums.ax, Nums.totalForce, x1, x2, x3, x4, Nums.drag, m11, m3]
    · rw [D.vy]
      simp [Nums.ay, Nums.totalForce, y1, y2, y3, y4, Nums.drag, m3]
    · rw [D.yaw]
      simp [Nums.totalMoment, V3.cross, x1, x2, x3, x4, y1, y2, y3, y4]
    · rw [D.fl]; simp [Nums.brakeF, m9, f1.1]
    · rw [D.fr]; simp [Nums.brakeF, m9, f2.1]
    · rw [D.rl]; simp [Nums.brakeR, m9, f3.1, Nums.torqueL, Nums.deltaTorque, m8, m6, m7]
    · rw [D.rr]; simp [Nums.brakeR, m9, f4.1, Nums.torqueR, Nums.torqueL, Nums.deltaTorque, m8, m6, m7]
  have hnd : rv.statesDot.keys.Nodup := by rw [hk]; decide
  intro n hn
  change n ∈ trackNames.states ++ vehicleNames.states at hn
  rcases List.mem_append.mp hn with hn | hn
  · simp only [trackNames, List.mem_cons, List.not_mem_nil, or_false] at hn
    rcases hn with rfl | rfl | rfl
    · refine ⟨1 / 2, ?_, ?_⟩
      · rw [dk hnd "time" (by rw [hk]; decide)]
        exact congrArg some (by simp)
      · rw [et]; exact (hasDerivAt_id s).div_const 2
    · obtain ⟨c, hc⟩ := ec (n := "n") (by decide)
      refine ⟨0, ?_, by rw [hc]; exact hasDerivAt_const s c⟩
      rw [dk hnd "n" (by rw [hk]; decide)]
      exact congrArg some (by simp)
    · obtain ⟨c, hc⟩ := ec (n := "eta") (by decide)
      refine ⟨0, ?_, by rw [hc]; exact hasDerivAt_const s c⟩
      rw [dk hnd "eta" (by rw [hk]; decide)]
      exact congrArg some (by simp)
  · obtain ⟨c, hc⟩ := ec (n := n) (by rintro rfl; simp [vehicleNames] at hn)
    refine ⟨0, ?_, by rw [hc]; exact hasDerivAt_const s c⟩
    rw [dv hnd n (by rw [hk]; exact hn), z n hn, zero_mul]

/-- The hypotheses of `C61_in_time` hold for it. -/
example (p : Params) (q : Four TireParams) (cy cz : ℝ) (hR : p.rolling_radius ≠ 0) (t : ℝ) :
    HasDerivAt (fun τ : ℝ => 2 * τ - 0 * Real.sin 0) 2 t := by
  have h := (C61_in_time (simple_isVehicle p (tire q.fl) (tire q.fr) (tire q.rl) (tire q.rr) (.node (constAero 0 cy cz) []))
    (σ := fun τ => 2 * τ) (t := t) (by fun_prop) (Filter.Eventually.of_forall fun τ => by simp [coastStates]) (coasting p q cy cz hR _)
    (cx := fun s => s) (cy := fun _ => 0) ⟨by simpa using hasDerivAt_id' (2 * t), by simpa using hasDerivAt_const (2 * t) (0 : ℝ),
      hasDerivAt_const _ _⟩ (by simp) (by simp [coastStates])).2.1
  simpa [coastStates] using h

/-! ## C62 -/

/-- The drone: gravity down, thrust along the axis tilted by `theta`; positions and angle integrate the velocities and the rate. -/
theorem C62_drone {g : ℝ} {x u : String → ℝ → ℝ} {t : ℝ} (h : Solves (.node (drone g) []) x u t) :
    HasDerivAt (x "x") (x "x_dot" t) t ∧ HasDerivAt (x "z") (x "z_dot" t) t ∧ HasDerivAt (x "theta") (u "omega" t) t ∧
    HasDerivAt (x "x_dot") (u "f" t * Real.sin (x "theta" t)) t ∧
    HasDerivAt (x "z_dot") (u "f" t * Real.cos (x "theta" t) - g) t := by
  obtain ⟨r, he, hd⟩ := h
  have e : (Mdl.node (drone g) []).eval ⟨some (at_ droneNames.states x t), some (at_ droneNames.inputs u t), some t⟩ = .ok
      { statesDot := [("x", x "x_dot" t), ("x_dot", u "f" t * Real.sin (x "theta" t)), ("z", x "z_dot" t),
          ("z_dot", u "f" t * Real.cos (x "theta" t) - g), ("theta", u "omega" t)],
        outputs := [("sin_theta", Real.sin (x "theta" t)), ("f_omega", u "omega" t * u "f" t)] } := rfl
  rw [show (Mdl.node (drone g) []).names = droneNames from rfl] at he hd
  rw [e] at he
  cases he
  have key : ∀ n d, n ∈ droneNames.states → ([("x", x "x_dot" t), ("x_dot", u "f" t * Real.sin (x "theta" t)), ("z", x "z_dot" t),
          ("z_dot", u "f" t * Real.cos (x "theta" t) - g), ("theta", u "omega" t)] : Dict ℝ).lookup n = some d → HasDerivAt (x n) d t := by
    intro n d hn hl
    obtain ⟨d', h1, h2⟩ := hd n hn
    have h1' := h1.symm.trans hl
    cases h1'
    exact h2
  exact ⟨key _ _ (by simp [droneNames]) rfl, key _ _ (by simp [droneNames]) rfl, key _ _ (by simp [droneNames]) rfl,
    key _ _ (by simp [droneNames]) rfl, key _ _ (by simp [droneNames]) rfl⟩

/-- So its energy changes by the power of the thrust. -/
theorem C62_energy {g : ℝ} {x u : String → ℝ → ℝ} {t : ℝ} (h : Solves (.node (drone g) []) x u t) :
    HasDerivAt (fun t => (x "x_dot" t ^ 2 + x "z_dot" t ^ 2) / 2 + g * x "z" t)
      (u "f" t * (Real.sin (x "theta" t) * x "x_dot" t + Real.cos (x "theta" t) * x "z_dot" t)) t := by
  obtain ⟨h1, h2, h3, h4, h5⟩ := C62_drone h
  refine ((((h4.fun_pow 2).fun_add (h5.fun_pow 2)).div_const 2).fun_add (h2.const_mul g)).congr_deriv ?_
  push_cast
  ring

/-- Free fall is a solution. -/
example : Solves (.node (drone 10) []) (fun n t => if n = "z" then -5 * t ^ 2 else if n = "z_dot" then -10 * t else 0) (fun _ _ => 0) 3 := by
  refine ⟨_, rfl, ?_⟩
  intro n hn
  have hn' : n = "x" ∨ n = "x_dot" ∨ n = "z" ∨ n = "z_dot" ∨ n = "theta" := by simpa [names, drone, droneNames] using hn
  rcases hn' with rfl | rfl | rfl | rfl | rfl
  · exact ⟨_, rfl, by simpa using hasDerivAt_const (3 : ℝ) (0 : ℝ)⟩
  · exact ⟨_, rfl, by simpa using hasDerivAt_const (3 : ℝ) (0 : ℝ)⟩
  · refine ⟨_, rfl, ?_⟩
    simp only [if_true, String.reduceEq, if_false]
    refine (((hasDerivAt_id (3 : ℝ)).fun_pow 2).const_mul (-5)).congr_deriv ?_
    norm_num
  · refine ⟨_, rfl, ?_⟩
    simp only [if_true, String.reduceEq, if_false]
    refine ((hasDerivAt_id (3 : ℝ)).const_mul (-10)).congr_deriv ?_
    norm_num
  · exact ⟨_, rfl, by simpa using hasDerivAt_const (3 : ℝ) (0 : ℝ)⟩

end Lumos.Veh
