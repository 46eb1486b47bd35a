import Verif.Lts.Front
import Verif.Veh.OnTrack
/-!
# The vehicle on the track as the model of a lap time simulation
-/

namespace Lumos.Lts

open Lumos Io Io.Mdl Veh LapSim

/-! ## Every program of the vehicle models collects its outputs -/

theorem collects_get {b : Bool} {d : Dict ℝ} {k : String} {f : ℝ → Prog ℝ} (h : ∀ v, Collects b (f v)) : Collects b (Veh.get d k f) := by
  unfold Veh.get
  split
  · exact h _
  · trivial

theorem collects_lift {α : Type} {b : Bool} {r : Py α} {f : α → Prog ℝ} (h : ∀ v, Collects b (f v)) : Collects b (lift r f) := by
  unfold lift
  split
  · exact h _
  · trivial

theorem collects_arg {b : Bool} {a : Option (Dict ℝ)} {f : Dict ℝ → Prog ℝ} (h : ∀ v, Collects b (f v)) : Collects b (arg a f) := by
  unfold arg
  split
  · exact h _
  · trivial

theorem collects_pick {b : Bool} {d : Dict ℝ} {ks : List String} {f : Dict ℝ → Prog ℝ} (h : ∀ v, Collects b (f v)) :
    Collects b (pick d ks f) := by
  induction ks generalizing f with
  | nil => exact h _
  | cons k ks ih => exact collects_get fun v => ih fun w => h _

theorem collects_call {b : Bool} {n : String} {kw : Kw ℝ} {f : Ret ℝ → Prog ℝ} (h : ∀ r, Collects true (f r)) : Collects b (call n kw f) := h

theorem collects_outputs {b : Bool} {kw : Dict ℝ} {f : Dict ℝ → Prog ℝ} (h : ∀ r, Collects false (f r)) : Collects b (makeOutputs kw f) := h

theorem collects_done (r : Ret ℝ) : Collects false (.done r) := rfl

macro "collects" : tactic => `(tactic| repeat first
  | exact collects_done _ | refine collects_get fun _ => ?_ | refine collects_lift fun _ => ?_ | refine collects_arg fun _ => ?_
  | refine collects_pick fun _ => ?_ | refine collects_call fun _ => ?_ | refine collects_outputs fun _ => ?_)

theorem kin_orderly : Orderly (Mdl.node trackPosition2D [] : Mdl ℝ) := by
  refine .node (by decide) (fun kw => ?_) (fun p hp => absurd hp List.not_mem_nil)
  simp only [trackPosition2D, body, bind_apply, pure_apply]
  collects

theorem aero_orderly (cx cy cz : ℝ) : Orderly (Mdl.node (constAero cx cy cz) []) := by
  refine .node (by decide) (fun kw => ?_) (fun p hp => absurd hp List.not_mem_nil)
  simp only [constAero, body, bind_apply, pure_apply]
  collects

theorem tire_orderly (q : TireParams) : Orderly (tire q) := by
  refine .node (by decide) (fun kw => ?_) (fun p hp => absurd hp List.not_mem_nil)
  simp only [perantoni, body, bind_apply, pure_apply]
  collects

theorem vehicle_orderly (p : Params) {a b c d e : Mdl ℝ} (ha : Orderly a) (hb : Orderly b) (hc : Orderly c) (hd : Orderly d) (he : Orderly e) :
    Orderly (vehicle p a b c d e) := by
  refine .node (by show List.Nodup ["tire_fl", "tire_fr", "tire_rl", "tire_rr", "aero"]; decide) (fun kw => ?_) ?_
  · simp only [simpleVehicle, body, bind_apply, pure_apply, tireRow]
    collects
  · intro q hq
    simp only [vehicleSubs, List.mem_cons, List.not_mem_nil, or_false] at hq
    rcases hq with rfl | rfl | rfl | rfl | rfl <;> assumption

theorem onTrack_orderly {v : Mdl ℝ} (hv : Orderly v) : Orderly (vehicleOnTrack v) := by
  refine .node (by show List.Nodup ["vehicle", "kinematics"]; decide) (fun kw => ?_) ?_
  · simp only [onTrack, body, bind_apply, pure_apply]
    collects
  · intro q hq
    simp only [List.mem_cons, List.not_mem_nil, or_false] at hq
    rcases hq with rfl | rfl
    · exact hv
    · exact kin_orderly

/-! ## Specification: a vehicle for the track -/

/-- A vehicle model that does what its declarations promise: it has the states and inputs of `SimpleVehicle`, returns for all their values
with a derivative for each state and a value for each declared output, and its residuals are declared outputs (base.py:465-474). -/
structure Car (v : Mdl ℝ) : Prop where
  isVehicle : IsVehicle v
  orderly : Orderly v
  returns : ∀ x u : String → ℝ, ∃ r, v.eval ⟨some (vehicleNames.states.map fun n => (n, x n)), some (vehicleNames.inputs.map fun n => (n, u n)), none⟩
    = .ok r ∧ r.outputs.keys.Nodup ∧ ∀ n ∈ v.names.outputs, n ∈ r.outputs.keys
  residuals : ∀ n ∈ v.names.residuals, n ∈ v.names.outputs

/-! ## Proofs -/

theorem onTrack_names (v : Mdl ℝ) : (vehicleOnTrack v).names =
    ⟨true, onTrackNames.states, onTrackNames.inputs, addPrefix "vehicle" v.names.outputs ++ ["kinematics.yaw_angle", "kinematics.curvature"], [],
      addPrefix "vehicle" v.names.residuals⟩ := by
  have e : (vehicleOnTrack v).names = ⟨true, onTrackNames.states, onTrackNames.inputs,
      addPrefix "vehicle" v.names.outputs ++ (addPrefix "kinematics" ["yaw_angle", "curvature"] ++ []), [],
      addPrefix "vehicle" v.names.residuals ++ []⟩ := rfl
  rw [e, List.append_nil, List.append_nil]
  rfl

theorem eq_only {d : Dict ℝ} {ns : List String} (h : d.keys = ns) (hnd : ns.Nodup) : d = ns.map fun n => (n, val d n) := by
  subst h
  unfold Dict.keys at hnd ⊢
  rw [List.map_map]
  conv_lhs => rw [← List.map_id d]
  refine List.map_congr_left fun p hp => ?_
  obtain ⟨k, a⟩ := p
  show (k, a) = (k, val d k)
  rw [val_of (Dict.lookup_of_mem hnd hp)]

/-- The speed along the centre line. -/
noncomputable def sdot (x u : String → ℝ) : ℝ :=
  (x "vx" * Real.cos (x "eta") - x "vy" * Real.sin (x "eta")) / (1 - x "n" * u "track_curvature")

/-- The outputs collected from the vehicle and the kinematics. -/
theorem collected_facts {rv : Ret ℝ} (ov : rv.outputs.keys.Nodup) {d : Dict ℝ} {a b : ℝ} :
    Passable (collected ["vehicle", "kinematics"] [("vehicle", rv), ("kinematics", ⟨d, [("yaw_angle", a), ("curvature", b)], [], []⟩)]) ∧
    (∀ ns : List String, (∀ n ∈ ns, n ∈ rv.outputs.keys) → ∀ n ∈ addPrefix "vehicle" ns ++ ["kinematics.yaw_angle", "kinematics.curvature"],
      n ∈ (collected ["vehicle", "kinematics"] [("vehicle", rv), ("kinematics", ⟨d, [("yaw_angle", a), ("curvature", b)], [], []⟩)]).keys) ∧
    (∀ k, (collected ["vehicle", "kinematics"] [("vehicle", rv), ("kinematics", ⟨d, [("yaw_angle", a), ("curvature", b)], [], []⟩)]).lookup
      ("vehicle" ++ "." ++ k) = rv.outputs.lookup k) ∧
    (collected ["vehicle", "kinematics"] [("vehicle", rv), ("kinematics", ⟨d, [("yaw_angle", a), ("curvature", b)], [], []⟩)]).lookup
      "kinematics.yaw_angle" = some a ∧
    (collected ["vehicle", "kinematics"] [("vehicle", rv), ("kinematics", ⟨d, [("yaw_angle", a), ("curvature", b)], [], []⟩)]).lookup
      "kinematics.curvature" = some b := by
  obtain ⟨h1, h2⟩ := collected_lookup (ns := ["vehicle", "kinematics"]) (by decide)
    (called := [("vehicle", rv), ("kinematics", ⟨d, [("yaw_angle", a), ("curvature", b)], [], []⟩)]) (by
      intro n r h
      rw [Dict.lookup_cons] at h
      split at h
      · cases h; exact ov
      · rw [Dict.lookup_cons] at h
        split at h
        · cases h; show List.Nodup ["yaw_angle", "curvature"]; decide
        · cases h)
  have hdot : ∀ n k x : String, '.' ∉ x.toList → x ≠ n ++ "." ++ k := by
    rintro n k x hx rfl
    simp [String.toList_append] at hx
  refine ⟨⟨fun hm => ?_, fun hm => ?_⟩, ?_, fun k => h1 "vehicle" (by simp) rv rfl k, ?_, ?_⟩
  · obtain ⟨n, _, r, _, k, _, e⟩ := h2 _ hm
    exact hdot n k _ (by decide) e
  · obtain ⟨n, _, r, _, k, _, e⟩ := h2 _ hm
    exact hdot n k _ (by decide) e
  · intro ns hns n hn
    rcases List.mem_append.mp hn with hn | hn
    · obtain ⟨k, hk, rfl⟩ := List.mem_map.mp hn
      rw [← Dict.lookup_isSome, h1 "vehicle" (by simp) rv rfl k, Dict.lookup_isSome]
      exact hns k hk
    · simp only [List.mem_cons, List.not_mem_nil, or_false] at hn
      rcases hn with rfl | rfl
      · rw [← Dict.lookup_isSome]
        have := h1 "kinematics" (by simp) _ rfl "yaw_angle"
        have e : "kinematics" ++ "." ++ "yaw_angle" = "kinematics.yaw_angle" := by decide
        rw [e] at this
        rw [this]
        rfl
      · rw [← Dict.lookup_isSome]
        have := h1 "kinematics" (by simp) _ rfl "curvature"
        have e : "kinematics" ++ "." ++ "curvature" = "kinematics.curvature" := by decide
        rw [e] at this
        rw [this]
        rfl
  · have e : "kinematics" ++ "." ++ "yaw_angle" = "kinematics.yaw_angle" := by decide
    rw [← e, h1 "kinematics" (by simp) _ rfl "yaw_angle"]
    rfl
  · have e : "kinematics" ++ "." ++ "curvature" = "kinematics.curvature" := by decide
    rw [← e, h1 "kinematics" (by simp) _ rfl "curvature"]
    rfl

/-- What the model on the track returns, by name: the vehicle is asked with the states and inputs, the kinematics give the time, the
lateral position and the heading error per metre. -/
theorem onTrack_returns {v : Mdl ℝ} (hv : Car v) (x u : String → ℝ) (μ : Option ℝ) : ∃ r rv,
    (vehicleOnTrack v).eval ⟨some (onTrackNames.states.map fun n => (n, x n)), some (onTrackNames.inputs.map fun n => (n, u n)), μ⟩ = .ok r ∧
    v.eval ⟨some (vehicleNames.states.map fun n => (n, x n)), some (vehicleNames.inputs.map fun n => (n, u n)), none⟩ = .ok rv := by
  obtain ⟨rv, ev, ov, on⟩ := hv.returns x u
  have hn1 : v.names.inputs = vehicleNames.inputs := hv.isVehicle.inputs
  have hn2 : v.names.states = vehicleNames.states := hv.isVehicle.states
  have ek := track_eval (states := trackNames.states.map fun n => (n, x n))
    (inputs := (["track_curvature", "track_heading"].map fun n => (n, u n)) ++ (["vx", "vy", "yaw_rate"].map fun n => (n, x n))) (mesh := μ)
    (n := x "n") (eta := x "eta") (vx := x "vx") (vy := x "vy") (r := x "yaw_rate")
    (κ := u "track_curvature") (θ := u "track_heading") rfl rfl rfl rfl rfl rfl rfl
  have ka : ∀ (ns : List String) (f : String → ℝ), Dict.keys (ns.map fun n => (n, f n)) = ns := fun ns f => keys_map ns f
  have oa : ∀ (ks ns : List String) (f : String → ℝ), (∀ k ∈ ks, k ∈ ns) → only (ns.map fun n => (n, f n)) ks = ks.map fun n => (n, f n) :=
    fun ks ns f h => only_at (x := fun n _ => f n) (s := 0) h
  unfold vehicleOnTrack
  simp only [eval, onTrack, body, bind_apply, pure_apply, arg_some]
  rw [pick_all (by rw [ka]; decide), pick_all (by rw [ka]; decide), oa _ _ _ (by decide), oa _ _ _ (by decide)]
  have hc : checkCall v.names ⟨some (vehicleNames.states.map fun n => (n, x n)), some (vehicleNames.inputs.map fun n => (n, u n)), none⟩ = .ok () := by
    have k1 : v.names.checkKeys "inputs" (vehicleNames.inputs.map fun n => (n, u n)) = .ok () := by
      unfold Names.checkKeys Names.group
      simp only [if_true, bind, Except.bind]
      rw [if_pos (by rw [ka, hn1]; exact fun n h => h)]
    have k2 : v.names.stateSpace = true → v.names.checkKeys "states" (vehicleNames.states.map fun n => (n, x n)) = .ok () := by
      intro hs
      unfold Names.checkKeys Names.group
      simp only [hs, bind, Except.bind]
      rw [if_neg (by decide), if_neg (by decide), if_neg (by decide), if_pos (by decide)]
      dsimp only
      rw [if_pos (by rw [ka, hn2]; exact fun n h => h)]
    unfold checkCall
    dsimp only
    rw [k1]
    simp only [bind, Except.bind]
    split
    · exact k2 (by assumption)
    · rfl
  rw [ev_call (snm := v.names) (f := v.eval) rfl (by decide) hc ev]
  rw [pick_all (by rw [ka]; decide), pick_all (by rw [ka]; decide), pick_all (by rw [ka]; decide), oa _ _ _ (by decide), oa _ _ _ (by decide),
    oa _ _ _ (by decide)]
  rw [ev_call (snm := trackNames) (f := (Mdl.node trackPosition2D []).eval) rfl
    (by exact (show "kinematics" ∉ ["vehicle"] by decide)) rfl ek]
  rw [get_some rfl]
  obtain ⟨c1, c2, -, -, -⟩ := collected_facts ov (a := x "eta" + u "track_heading") (b := u "track_curvature")
    (d := [("time", 1 / ((x "vx" * Real.cos (x "eta") - x "vy" * Real.sin (x "eta")) / (1 - x "n" * u "track_curvature"))),
          ("n", (x "vx" * Real.sin (x "eta") + x "vy" * Real.cos (x "eta")) / ((x "vx" * Real.cos (x "eta") - x "vy" * Real.sin (x "eta")) / (1 - x "n" * u "track_curvature"))),
          ("eta", (x "yaw_rate" - u "track_curvature" * ((x "vx" * Real.cos (x "eta") - x "vy" * Real.sin (x "eta")) / (1 - x "n" * u "track_curvature"))) /
            ((x "vx" * Real.cos (x "eta") - x "vy" * Real.sin (x "eta")) / (1 - x "n" * u "track_curvature")))])
  rw [ev_outputs (K := []) (K' := _) (C := ["vehicle", "kinematics"]) rfl rfl rfl rfl
    (by exact (show ∀ n ∈ ["vehicle", "kinematics"], _ by decide)) (by simp) (by exact ⟨by simp, by simp, c1.1, c1.2⟩) ?_]
  · exact ⟨_, rv, rfl, ev⟩
  · intro n hn
    right
    have hn : n ∈ (vehicleOnTrack v).names.outputs := hn
    rw [onTrack_names] at hn
    exact c2 v.names.outputs on n hn

theorem onTrack_values {v : Mdl ℝ} (hv : Car v) (x u : String → ℝ) (μ : Option ℝ) : ∃ r rv,
    (vehicleOnTrack v).eval ⟨some (onTrackNames.states.map fun n => (n, x n)), some (onTrackNames.inputs.map fun n => (n, u n)), μ⟩ = .ok r ∧
    v.eval ⟨some (vehicleNames.states.map fun n => (n, x n)), some (vehicleNames.inputs.map fun n => (n, u n)), none⟩ = .ok rv ∧
    r.statesDot.lookup "time" = some (1 / sdot x u) ∧
    r.statesDot.lookup "n" = some ((x "vx" * Real.sin (x "eta") + x "vy" * Real.cos (x "eta")) / sdot x u) ∧
    r.statesDot.lookup "eta" = some ((x "yaw_rate" - u "track_curvature" * sdot x u) / sdot x u) ∧
    (∀ n ∈ vehicleNames.states, r.statesDot.lookup n = some (val rv.statesDot n * (1 / sdot x u))) ∧
    (∀ k, r.outputs.lookup ("vehicle" ++ "." ++ k) = rv.outputs.lookup k) ∧
    r.outputs.lookup "kinematics.yaw_angle" = some (x "eta" + u "track_heading") ∧
    r.outputs.lookup "kinematics.curvature" = some (u "track_curvature") ∧
    Passable r.statesDot ∧ Passable r.outputs ∧ ∀ n ∈ (vehicleOnTrack v).names.outputs, n ∈ r.outputs.keys := by
  obtain ⟨rv', ev', ov, on⟩ := hv.returns x u
  obtain ⟨r, rv, er, ev⟩ := onTrack_returns hv x u μ
  rw [ev', Except.ok.injEq] at ev
  subst ev
  refine ⟨r, rv', er, ev', ?_⟩
  obtain ⟨rv, rk, e1, e2, dv, dk, -, ho⟩ := C61_composition er
  have oa : ∀ (ks ns : List String) (f : String → ℝ), (∀ k ∈ ks, k ∈ ns) → only (ns.map fun n => (n, f n)) ks = ks.map fun n => (n, f n) :=
    fun ks ns f h => only_at (x := fun n _ => f n) (s := 0) h
  rw [oa _ _ _ (by decide), oa _ _ _ (by decide), ev', Except.ok.injEq] at e1
  subst e1
  rw [oa _ _ _ (by decide), oa _ _ _ (by decide), oa _ _ _ (by decide)] at e2
  have ek := track_eval (states := trackNames.states.map fun n => (n, x n))
    (inputs := (["track_curvature", "track_heading"].map fun n => (n, u n)) ++ (["vx", "vy", "yaw_rate"].map fun n => (n, x n))) (mesh := μ)
    (n := x "n") (eta := x "eta") (vx := x "vx") (vy := x "vy") (r := x "yaw_rate")
    (κ := u "track_curvature") (θ := u "track_heading") rfl rfl rfl rfl rfl rfl rfl
  rw [ek, Except.ok.injEq] at e2
  subst e2
  have hp := hv.isVehicle.dots _ _ ev'
  have hnd : rv'.statesDot.keys.Nodup := hp.nodup_iff.mpr (by decide)
  have hnot : ∀ n, n ∉ vehicleNames.states → n ∉ rv'.statesDot.keys := fun n h => fun h' => h (hp.mem_iff.mp h')
  refine ⟨?_, ?_, ?_, ?_, ?_, ?_, ?_, ⟨?_, ?_⟩, ?_, ?_⟩
  · rw [dk hnd _ (hnot _ (by decide))]; rfl
  · rw [dk hnd _ (hnot _ (by decide))]; rfl
  · rw [dk hnd _ (hnot _ (by decide))]; rfl
  · intro n hn
    rw [dv hnd n (hp.mem_iff.mpr hn)]; rfl
  · intro k
    rw [ho]; exact (collected_facts ov).2.2.1 k
  · rw [ho]; exact (collected_facts ov).2.2.2.1
  · rw [ho]; exact (collected_facts ov).2.2.2.2
  · rw [← Dict.lookup_none, dk hnd _ (hnot _ (by decide))]; rfl
  · rw [← Dict.lookup_none, dk hnd _ (hnot _ (by decide))]; rfl
  · rw [ho]; exact (collected_facts ov).1
  · rw [ho, onTrack_names]; exact (collected_facts ov).2.1 _ on

theorem onTrack_delivers {v : Mdl ℝ} (hv : Car v) {con : List String} (hnd : con.Nodup) (hcon : ∀ n ∈ con, n ∈ (vehicleOnTrack v).names.outputs) :
    Delivers (vehicleOnTrack v) con where
  orderly := onTrack_orderly hv.orderly
  stateSpace := rfl
  states := ⟨by rw [onTrack_names]; show onTrackNames.states ≠ []; decide, by rw [onTrack_names]; show onTrackNames.states.Nodup; decide⟩
  inputs := by rw [onTrack_names]; show onTrackNames.inputs.Nodup; decide
  conNodup := hnd
  returns := by
    intro dx du μ hx hu
    rw [onTrack_names] at hx hu
    dsimp only at hx hu
    obtain ⟨r, rv, er, ev, h1, h2, h3, h4, h5, -, -, h6, h7, h8⟩ := onTrack_values hv (val dx) (val du) (some μ)
    rw [← eq_only hx (by decide), ← eq_only hu (by decide)] at er
    refine ⟨r, er, h6, h7, ?_, h8, fun n hn => h8 n (hcon n hn), ?_⟩
    · intro n hn
      rw [onTrack_names] at hn
      rw [← Dict.lookup_isSome]
      have hn : n ∈ trackNames.states ++ vehicleNames.states := hn
      rcases List.mem_append.mp hn with hn | hn
      · simp only [trackNames, List.mem_cons, List.not_mem_nil, or_false] at hn
        rcases hn with rfl | rfl | rfl
        · rw [h1]; rfl
        · rw [h2]; rfl
        · rw [h3]; rfl
      · rw [h4 n hn]; rfl
    · intro n hn
      refine h8 n ?_
      rw [onTrack_names] at hn ⊢
      obtain ⟨k, hk, rfl⟩ := List.mem_map.mp hn
      exact List.mem_append_left _ (List.mem_map.mpr ⟨k, hv.residuals k hk, rfl⟩)

theorem onTrack_suits (v : Mdl ℝ) : Suits (vehicleOnTrack v) where
  time := by rw [onTrack_names]; show "time" ∈ onTrackNames.states; decide
  lateral := by rw [onTrack_names]; show "n" ∈ onTrackNames.states; decide
  steer := by rw [onTrack_names]; show "steer" ∈ onTrackNames.inputs; decide
  curvature := by rw [onTrack_names]; show "track_curvature" ∈ onTrackNames.inputs; decide
  heading := by rw [onTrack_names]; show "track_heading" ∈ onTrackNames.inputs; decide
  dotless := by
    rw [onTrack_names]
    show (∀ n ∈ onTrackNames.states, Ocp.Dotless n) ∧ ∀ n ∈ onTrackNames.inputs, Ocp.Dotless n
    unfold Ocp.Dotless
    decide

/-- A vehicle with Perantoni tyres and constant aerodynamic coefficients is one. -/
theorem standard_car (p : Params) (q : Four TireParams) (cx cy cz : ℝ) : Car (standardVehicle p q cx cy cz) where
  isVehicle := simple_isVehicle ..
  orderly := vehicle_orderly p (tire_orderly _) (tire_orderly _) (tire_orderly _) (tire_orderly _) (aero_orderly ..)
  returns := by
    intro x u
    obtain ⟨r, h, ho⟩ := standard_outs p q cx cy cz x u none
    have hk := keys_of_blank ho
    refine ⟨r, h, by rw [hk]; decide +kernel, ?_⟩
    rw [hk]
    show ∀ n ∈ vehicleNames.outputs ++ subOuts, n ∈ vehicleOuts ++ subOuts
    decide +kernel
  residuals := by
    show ∀ n ∈ ["res_ax", "res_ay"], n ∈ vehicleNames.outputs ++ subOuts
    decide +kernel

theorem standard_residuals (p : Params) (q : Four TireParams) (cx cy cz : ℝ) : (standardVehicle p q cx cy cz).names.residuals = ["res_ax", "res_ay"] := rfl

theorem standard_con (p : Params) (q : Four TireParams) (cx cy cz : ℝ) :
    ∀ n ∈ defaultConOutputs, n ∈ (vehicleOnTrack (standardVehicle p q cx cy cz)).names.outputs := by
  rw [onTrack_names]
  show ∀ n ∈ defaultConOutputs, n ∈ addPrefix "vehicle" (vehicleNames.outputs ++ subOuts) ++ ["kinematics.yaw_angle", "kinematics.curvature"]
  decide +kernel

end Lumos.Lts
