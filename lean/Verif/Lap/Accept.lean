import Verif.Lap.Defaults
import Verif.Track.Similar
/-!
# C69, C70: which tables make acceptable tracks, and which models accept the default bounds
-/

namespace Lumos.LapSim

open Lumos DecVar DecVar.Layout Bounds Ocp Track Io NLP

/-- What a track file should contain: at least two points, consecutive ones different, and no negative distance to a side. -/
structure Road (rows : List Row) : Prop where
  two : 2 ≤ rows.length
  distinct : ∀ i (h : i + 1 < rows.length), rows[i].x ≠ rows[i + 1].x ∨ rows[i].y ≠ rows[i + 1].y
  left : ∀ r ∈ rows, 0 ≤ r.left
  right : ∀ r ∈ rows, 0 ≤ r.right

theorem road_loads {rows : List Row} (h : Road rows) : ∃ t, fromTumCsv (.ok rows) = .ok t ∧ Loaded t ∧ 0 < t.totalDistance ∧
    ∀ d, ∃ a b, t.leftDistanceAt d = .ok a ∧ t.rightDistanceAt d = .ok b ∧ 0 ≤ a ∧ 0 ≤ b := by
  have hd : Distinct (rows.map Row.x) (rows.map Row.y) := by
    intro i h1 h2
    have := h.distinct i (by simpa using h1)
    simpa using this
  obtain ⟨t, ht⟩ : ∃ t, RaceTrack.fromCartesian (rows.map Row.x) (rows.map Row.y) (some (rows.map Row.left)) (some (rows.map Row.right)) = .ok t := by
    rw [cartesian_mk (by simp) (by simpa using h.two)]
    unfold RaceTrack.mk'
    have h2 := h.two
    dsimp only [Option.getD_some]
    rw [if_neg, if_neg, if_neg]
    · exact ⟨_, rfl⟩
    · rw [length_arr, List.length_map]; omega
    · exact not_not.mpr (Or.inl (by rw [length_arr]; simp))
    · exact not_not.mpr (Or.inl (by rw [length_arr]; simp))
  have hf : fromTumCsv (.ok rows) = .ok t := by
    unfold fromTumCsv
    simp only [bind, Except.bind]
    exact ht
  obtain ⟨_, _, hload, _⟩ := fromTumCsv_inv hf
  obtain ⟨e1, e2, e3⟩ := cartesian_inv ht
  obtain ⟨d1, d2, _, d4, d5⟩ := C63_distance ht
  obtain ⟨hL, hR⟩ := (C63_lookup e3 (arcLength_inc e1 hd) (by rw [length_arr, length_arr]) (by rw [length_arr, length_arr])).2.2
  have kL := hL _ rfl (by rw [length_arr]; simp)
  have kR := hR.1 _ rfl (by rw [length_arr]; simp)
  have bnd : ∀ l : List ℝ, (∀ y ∈ l, 0 ≤ y) → ∃ b, ∀ y ∈ l, 0 ≤ y ∧ y ≤ b := by
    intro l hl
    refine ⟨l.sum, fun y hy => ⟨hl y hy, List.single_le_sum hl y hy⟩⟩
  refine ⟨t, hf, hload, ?_, ?_⟩
  · have hlen : 2 ≤ t.s.length := by rw [d1]; exact e2
    have h0 : at_ t.s 0 = 0 := by
      rw [at_eq (by omega)]
      rw [List.getElem?_eq_getElem (by omega), Option.some.injEq] at d2
      exact d2
    have := (d4 hd).lt (i := 0) (j := t.s.length - 1) (by omega) (by omega)
    rw [h0] at this
    exact this
  · intro d
    obtain ⟨bl, hbl⟩ := bnd (rows.map Row.left) (by simpa using h.left)
    obtain ⟨br, hbr⟩ := bnd (rows.map Row.right) (by simpa using h.right)
    obtain ⟨a, a1, a2, _⟩ := kL.range 0 bl hbl d
    obtain ⟨b, b1, b2, _⟩ := kR.range 0 br hbr d
    exact ⟨a, b, a1, b1, a2, b2⟩

/-- **C69**: every table with two or more different points and no negative side distance is accepted, on any mesh. -/
theorem C69_road_accepted {l : Lap} (h : Ready l) {rows : List Row} (hr : Road rows) : (l.setTrack (.ok rows)).2 = none := by
  obtain ⟨t, h1, _, _, h2⟩ := road_loads hr
  rw [C69_accepted_iff h]
  refine ⟨t, h1, fun d _ => ?_⟩
  obtain ⟨a, b, e1, e2, e3, e4⟩ := h2 (d * t.totalDistance)
  exact ⟨a, b, e1, e2, by linarith⟩

example : Road [⟨0, 0, 5, 5⟩, ⟨1, 0, 5, 4⟩, ⟨1, 1, 0, 4⟩] where
  two := by decide
  distinct := by
    intro i h
    have : i + 1 < 3 := h
    have : i < 2 := by omega
    interval_cases i
    · left; norm_num
    · right; norm_num
  left := by intro r hr; simp at hr; rcases hr with rfl | rfl | rfl <;> norm_num
  right := by intro r hr; simp at hr; rcases hr with rfl | rfl | rfl <;> norm_num

/-! ## Bounds that are accepted -/

theorem setVarBounds_scalar {L : Layout} (hL : L.Made) {g n : String} (hv : L.IsVar (.stage 0 g n)) (s : St EReal) {a b : EReal} (hab : a ≤ b) :
    (setVarBounds L s g n none (.pair (.scalar a) (.scalar b))).2 = none := by
  obtain ⟨is, h1, h2, _⟩ := C02_all_stages hL hv
  unfold setVarBounds
  rw [h1]
  simp [sizeOk, BArg.lb, BArg.ub, leAll, hab, assign]

theorem setVarBounds_first {L : Layout} (hL : L.Made) {g n : String} (hv : L.IsVar (.stage 0 g n)) (s : St EReal) (a : EReal) :
    (setVarBounds L s g n (some 0) (.single (.scalar a))).2 = none := by
  obtain ⟨i, hi, _⟩ := C01_index_in_range hL hv
  have hi : L.indexInDec g n (some (0 : Int)) = .ok (.scalar i) := hi
  unfold setVarBounds
  rw [hi]
  simp [sizeOk, BArg.lb, BArg.ub, leAll, assign]

theorem setAll_none {L : Layout} {rs : List (Req EReal)} (h : ∀ r ∈ rs, ∀ s, (setVarBounds L s r.group r.name r.stage r.arg).2 = none)
    (s : St EReal) : (setAll L s rs).2 = none := by
  induction rs generalizing s with
  | nil => rfl
  | cons r rs ih =>
    have h1 := h r (by simp) s
    unfold setAll
    rcases hr : setVarBounds L s r.group r.name r.stage r.arg with ⟨t, o⟩
    rw [hr] at h1
    dsimp only at h1
    subst h1
    exact ih (fun r' hr' => h r' (by simp [hr'])) t

/-- **C70**: for every model that has the states, inputs and constrained outputs of the vehicle on a track, the default bounds and
boundary conditions are accepted. -/
theorem C70_defaults_accepted {L : Layout} (hL : L.Made) (hs : "states" ∈ L.groups) (hi : "inputs" ∈ L.groups) (hc : "con_outputs" ∈ L.groups)
    (hsn : ∀ n ∈ ["time", "n", "eta", "vx", "vy", "yaw_rate", "wheel_speed_fl", "wheel_speed_fr", "wheel_speed_rl", "wheel_speed_rr"],
      n ∈ L.namesOf "states")
    (hin : ∀ n ∈ ["throttle", "brake", "steer"], n ∈ L.namesOf "inputs") (hcn : ∀ n ∈ defaultConOutputs, n ∈ L.namesOf "con_outputs")
    (cyc : Bool) :
    ∃ s t, Bounds.updateBounds L (Bounds.fresh L) defaultBounds = (s, none) ∧ Bounds.updateBCs L s (defaultBCs cyc) = (t, none) := by
  have N := numStages_pos L
  have vs : ∀ n, n ∈ ["time", "n", "eta", "vx", "vy", "yaw_rate", "wheel_speed_fl", "wheel_speed_fr", "wheel_speed_rl", "wheel_speed_rr"] →
      L.IsVar (.stage 0 "states" n) := fun n hn => isVar_of hs (hsn n hn) N
  have vi : ∀ n, n ∈ ["throttle", "brake", "steer"] → L.IsVar (.stage 0 "inputs" n) := fun n hn => isVar_of hi (hin n hn) N
  have vc : ∀ n, n ∈ defaultConOutputs → L.IsVar (.stage 0 "con_outputs" n) := fun n hn => isVar_of hc (hcn n hn) N
  have pi := Real.pi_pos
  have k1 : ∀ s, (setAll L s (defaultBounds.map BoundConfig.req)).2 = none := by
    refine setAll_none ?_
    intro r hr s
    obtain ⟨c, hcm, rfl⟩ := List.mem_map.mp hr
    simp only [defaultBounds, corners, List.mem_append, List.mem_map, List.mem_cons, List.not_mem_nil, or_false] at hcm
    rcases hcm with (((rfl | rfl | rfl | rfl | rfl | rfl | rfl | rfl) | ⟨c, hc', rfl⟩) | ⟨c, hc', rfl⟩) | ⟨c, hc', rfl⟩
    · exact setVarBounds_scalar hL (vs _ (by simp [BoundConfig.req])) s le_top
    all_goals refine setVarBounds_scalar hL ?_ s (EReal.coe_le_coe_iff.mpr (by linarith))
    · exact vs _ (by simp [bound, BoundConfig.req])
    · exact vs _ (by simp [bound, BoundConfig.req])
    · exact vs _ (by simp [bound, BoundConfig.req])
    · exact vs _ (by simp [bound, BoundConfig.req])
    · exact vi _ (by simp [bound, BoundConfig.req])
    · exact vi _ (by simp [bound, BoundConfig.req])
    · exact vi _ (by simp [bound, BoundConfig.req])
    · rcases hc' with rfl | rfl | rfl | rfl <;> exact vs _ (by simp [bound, BoundConfig.req])
    · rcases hc' with rfl | rfl | rfl | rfl <;> exact vc _ (by simp [bound, BoundConfig.req, defaultConOutputs])
    · rcases hc' with rfl | rfl | rfl | rfl <;> exact vc _ (by simp [bound, BoundConfig.req, defaultConOutputs])
  have k2 : ∀ s, (setAll L s ((defaultBCs cyc).map BC.req)).2 = none := by
    refine setAll_none ?_
    intro r hr s
    obtain ⟨c, hcm, rfl⟩ := List.mem_map.mp hr
    have hcm' : c ∈ defaultBCs false := by
      cases cyc with
      | false => exact hcm
      | true => simp only [defaultBCs, if_true, List.mem_singleton] at hcm; simp [defaultBCs, hcm]
    simp only [defaultBCs, Bool.false_eq_true, if_false, List.mem_cons, List.not_mem_nil, or_false] at hcm'
    rcases hcm' with rfl | rfl | rfl | rfl | rfl | rfl <;> exact setVarBounds_first hL (vs _ (by simp [fixAt, BC.req])) s _
  have hb0 := setAll_bcs L (Bounds.fresh L) (defaultBounds.map BoundConfig.req)
  refine ⟨(Bounds.updateBounds L (Bounds.fresh L) defaultBounds).1, _, Prod.ext rfl ?_, Prod.ext rfl ?_⟩
  · unfold Bounds.updateBounds
    have h1 := k1 (Bounds.fresh L)
    rcases hr : setAll L (Bounds.fresh L) (defaultBounds.map BoundConfig.req) with ⟨s', o⟩
    rw [hr] at h1 hb0
    dsimp only at h1 hb0
    subst h1
    dsimp only
    unfold applyBCs
    rw [hb0]
    rfl
  · have hb := updateBounds_bcs L (Bounds.fresh L) defaultBounds
    unfold Bounds.updateBCs applyBCs
    dsimp only
    rw [hb]
    exact k2 _

end Lumos.LapSim
