import Verif.Lts.BestLap
import Verif.Lts.Straight
/-!
# C112: a car, a road and limits for which there is a best lap
-/

namespace Lumos.Lts

open Lumos DecVar DecVar.Layout NLP Bounds Ocp OCP Track LapSim Io Io.Mdl Lumos.Trans Veh

/-- Limits that are added to the default ones: a time, at least 20 m/s, at most 1 m/s sideways and 1 rad/s, accelerations up to 20 m/s². -/
noncomputable def tighter (T : ℝ) : List (BoundConfig EReal) :=
  [bound "states" "time" 0 T, bound "states" "vx" 20 100, bound "states" "vy" (-1) 1, bound "states" "yaw_rate" (-1) 1,
   bound "inputs" "ax" (-20) 20, bound "inputs" "ay" (-20) 20]

/-- What the added limits ask of a variable. -/
def Extra (T : ℝ) (g m : String) (a : ℝ) : Prop :=
  (g = "states" → (m = "time" → a ≤ T) ∧ (m = "vx" → 20 ≤ a) ∧ (m = "vy" → |a| ≤ 1) ∧ (m = "yaw_rate" → |a| ≤ 1)) ∧
  (g = "inputs" → m = "ax" ∨ m = "ay" → |a| ≤ 20)

section
variable {tn : String} {kw : List (String × Int)} {n : Nat} {pts : Option (List ℝ)} {cyc : Bool} {nc : List String}
  {L : Layout} {tr : RaceTrack} {d a : ℝ} {s : Nat} {T : ℝ}

theorem tighter_limits (g m : String) (hg : Dotless g) : Sim.limits L (defaultBounds ++ tighter T) [] (.stage s g m) =
    if g = "states" ∧ m = "time" then (some ((0 : ℝ) : EReal), some (T : EReal))
    else if g = "states" ∧ m = "vx" then (some ((20 : ℝ) : EReal), some ((100 : ℝ) : EReal))
    else if g = "states" ∧ m = "vy" then (some ((-1 : ℝ) : EReal), some ((1 : ℝ) : EReal))
    else if g = "states" ∧ m = "yaw_rate" then (some ((-1 : ℝ) : EReal), some ((1 : ℝ) : EReal))
    else if g = "inputs" ∧ m = "ax" then (some ((-20 : ℝ) : EReal), some ((20 : ℝ) : EReal))
    else if g = "inputs" ∧ m = "ay" then (some ((-20 : ℝ) : EReal), some ((20 : ℝ) : EReal))
    else Sim.limits L defaultBounds [] (.stage s g m) := by
  have hM : ∀ (c : BoundConfig EReal), Dotless c.group → c.group ≠ "global" → (c.req.Mentions L (.stage s g m) ↔ c.group = g ∧ c.name = m) := by
    intro c hc hgl
    constructor
    · rintro ⟨-, h, -⟩
      exact fullName_cancel hc hg h
    · rintro ⟨rfl, rfl⟩
      exact ⟨hgl, rfl, Or.inl rfl⟩
  have e : lastMention L ((tighter T).map BoundConfig.req) (.stage s g m)
      = ((tighter T).reverse.find? fun c => decide (c.group = g ∧ c.name = m)).map BoundConfig.req := by
    unfold lastMention
    rw [← List.map_reverse, List.find?_map]
    congr 1
    refine List.find?_congr fun c hc => ?_
    have hc' : Dotless c.group ∧ c.group ≠ "global" := by
      rw [List.mem_reverse] at hc
      unfold Dotless
      simp [tighter, bound] at hc
      rcases hc with rfl | rfl | rfl | rfl | rfl | rfl <;> dsimp only <;> decide
    simp only [Function.comp, hM c hc'.1 hc'.2]
  unfold Sim.limits
  rw [List.map_append, lastMention_append, e]
  simp only [List.map_nil]
  have e0 : lastMention L ([] : List (Req EReal)) (.stage s g m) = none := rfl
  rw [e0]
  dsimp only
  by_cases h1 : g = "states"
  · subst h1
    by_cases hm : m ∈ ["time", "vx", "vy", "yaw_rate"]
    · simp only [List.mem_cons, List.not_mem_nil, or_false] at hm
      rcases hm with rfl | rfl | rfl | rfl <;> simp [tighter, bound, BoundConfig.req, BArg.lb, BArg.ub, BVal.at]
    · simp only [List.mem_cons, List.not_mem_nil, or_false, not_or] at hm
      obtain ⟨a1, a2, a3, a4⟩ := hm
      simp [tighter, bound, a1, a2, a3, a4, Ne.symm a1, Ne.symm a2, Ne.symm a3, Ne.symm a4]
  · by_cases h2 : g = "inputs"
    · subst h2
      by_cases hm : m ∈ ["ax", "ay"]
      · simp only [List.mem_cons, List.not_mem_nil, or_false] at hm
        rcases hm with rfl | rfl <;> simp [tighter, bound, BoundConfig.req, BArg.lb, BArg.ub, BVal.at]
      · simp only [List.mem_cons, List.not_mem_nil, or_false, not_or] at hm
        obtain ⟨a1, a2⟩ := hm
        simp [tighter, bound, a1, a2, Ne.symm a1, Ne.symm a2]
    · simp [tighter, bound, h1, h2, Ne.symm h1, Ne.symm h2]

theorem allowed_tighter (g m : String) (hg : Dotless g) (hT : 0 ≤ T) :
    Allowed L (bounded (defaultBounds ++ tighter T) tn kw n pts cyc nc true) tr d s g m a ↔
      Allowed L (defaults tn kw n pts cyc nc true) tr d s g m a ∧ Extra T g m a := by
  unfold Allowed
  show (match lastMention L ((defaultBCs true).map BC.req) (.stage s g m) with
    | some r => Sim.Inside (r.arg.lb.at (r.slot (.stage s g m)), r.arg.ub.at (r.slot (.stage s g m))) a
    | none =>
      if g = "inputs" ∧ m = "track_curvature" then tr.curvatureAt d = .ok a
      else if g = "inputs" ∧ m = "track_heading" then tr.headingAt d = .ok a
      else if g = "states" ∧ m = "n" then ∃ left right, tr.leftDistanceAt d = .ok left ∧ tr.rightDistanceAt d = .ok right ∧ -right ≤ a ∧ a ≤ left
      else Sim.Inside (Sim.limits L (defaultBounds ++ tighter T) [] (.stage s g m)) a) ↔
    (match lastMention L ((defaultBCs true).map BC.req) (.stage s g m) with
    | some r => Sim.Inside (r.arg.lb.at (r.slot (.stage s g m)), r.arg.ub.at (r.slot (.stage s g m))) a
    | none =>
      if g = "inputs" ∧ m = "track_curvature" then tr.curvatureAt d = .ok a
      else if g = "inputs" ∧ m = "track_heading" then tr.headingAt d = .ok a
      else if g = "states" ∧ m = "n" then ∃ left right, tr.leftDistanceAt d = .ok left ∧ tr.rightDistanceAt d = .ok right ∧ -right ≤ a ∧ a ≤ left
      else Sim.Inside (Sim.limits L defaultBounds [] (.stage s g m)) a) ∧ Extra T g m a
  cases h : lastMention L ((defaultBCs true).map BC.req) (.stage s g m) with
  | some r =>
    dsimp only
    refine ⟨fun hin => ⟨hin, ?_⟩, fun hin => hin.1⟩
    obtain ⟨hr, -, hn, -⟩ := lastMention_mem h
    simp only [defaultBCs, if_true, List.map_cons, List.map_nil, List.mem_singleton] at hr
    subst hr
    obtain ⟨rfl, rfl⟩ := fullName_cancel (show Dotless "states" by unfold Dotless; decide) hg hn
    have ha : a ≤ 0 := by
      obtain ⟨lo, hi, e, -, h2⟩ := hin
      simp [fixAt, BC.req, BArg.lb, BArg.ub, BVal.at] at e
      rw [← e.2] at h2
      exact_mod_cast h2
    exact ⟨fun _ => ⟨fun _ => ha.trans hT, fun e => absurd e (by decide), fun e => absurd e (by decide), fun e => absurd e (by decide)⟩, fun e => absurd e (by decide)⟩
  | none =>
    dsimp only
    split_ifs with c1 c2 c3
    · obtain ⟨rfl, rfl⟩ := c1
      exact ⟨fun h => ⟨h, by unfold Extra; simp⟩, fun h => h.1⟩
    · obtain ⟨rfl, rfl⟩ := c2
      exact ⟨fun h => ⟨h, by unfold Extra; simp⟩, fun h => h.1⟩
    · obtain ⟨rfl, rfl⟩ := c3
      exact ⟨fun h => ⟨h, by unfold Extra; simp⟩, fun h => h.1⟩
    · rw [tighter_limits _ _ hg]
      have hpi := Real.pi_gt_three
      split_ifs with d1 d2 d3 d4 d5 d6
      · obtain ⟨rfl, rfl⟩ := d1
        rw [Sim.inside_coe, default_limits _ _ hg]
        simp only [if_true, inside_top, Extra, String.reduceEq]
        simp
      · obtain ⟨rfl, rfl⟩ := d2
        rw [Sim.inside_coe, default_limits _ _ hg]
        simp only [if_true, Sim.inside_coe, Extra, String.reduceEq, if_false]
        simp
        constructor
        · rintro ⟨h1, h2⟩; exact ⟨⟨by linarith, h2⟩, h1⟩
        · rintro ⟨⟨-, h2⟩, h1⟩; exact ⟨h1, h2⟩
      · obtain ⟨rfl, rfl⟩ := d3
        rw [Sim.inside_coe, default_limits _ _ hg]
        simp only [if_true, Sim.inside_coe, Extra, String.reduceEq, if_false, abs_le]
        simp
        intro h1 h2
        constructor <;> linarith
      · obtain ⟨rfl, rfl⟩ := d4
        rw [Sim.inside_coe, default_limits _ _ hg]
        simp only [if_true, Sim.inside_coe, Extra, String.reduceEq, if_false, abs_le]
        simp
        intro h1 h2
        constructor <;> linarith
      · obtain ⟨rfl, rfl⟩ := d5
        rw [Sim.inside_coe, default_limits _ _ hg]
        simp only [Extra, String.reduceEq, if_false, if_true, or_self, abs_le]
        simp [Sim.Inside]
      · obtain ⟨rfl, rfl⟩ := d6
        rw [Sim.inside_coe, default_limits _ _ hg]
        simp only [Extra, String.reduceEq, if_false, if_true, or_self, abs_le]
        simp [Sim.Inside]
      · have : Extra T g m a := by
          refine ⟨fun e => ⟨fun e' => absurd ⟨e, e'⟩ d1, fun e' => absurd ⟨e, e'⟩ d2, fun e' => absurd ⟨e, e'⟩ d3, fun e' => absurd ⟨e, e'⟩ d4⟩, ?_⟩
          rintro e (e' | e')
          · exact absurd ⟨e, e'⟩ d5
          · exact absurd ⟨e, e'⟩ d6
        exact ⟨fun h => ⟨h, this⟩, fun h => h.1⟩
end

/-- Bounds that keep a variable of the points within them from growing are finite. -/
theorem finite_bounds {lb ub : List EReal} {x0 : List ℝ} (h0 : Within lb ub x0) {i : Nat} (hi : i < x0.length) {K : ℝ}
    (h : ∀ x : List ℝ, x.length = x0.length → Within lb ub x → |x.getD i 0| ≤ K) : lb.getD i 0 ≠ ⊥ ∧ ub.getD i 0 ≠ ⊤ := by
  have hw : ∀ a : ℝ, lb.getD i 0 ≤ (a : EReal) → (a : EReal) ≤ ub.getD i 0 → |a| ≤ K := by
    intro a h1 h2
    have e : (x0.set i a).getD i 0 = a := by simp [List.getD_eq_getElem?_getD, hi]
    have := h (x0.set i a) (by simp) (by
      intro j hj
      by_cases hij : i = j
      · subst hij
        rw [e]
        exact ⟨h1, h2⟩
      · have e2 : (x0.set i a).getD j 0 = x0.getD j 0 := by simp [List.getD_eq_getElem?_getD, hij]
        rw [e2]
        exact h0 j (by simpa using hj))
    rwa [e] at this
  obtain ⟨k1, k2⟩ := h0 i hi
  constructor
  · intro e
    have := hw (min (x0.getD i 0) (-(|K| + 1))) (by rw [e]; exact bot_le) ((EReal.coe_le_coe_iff.mpr (min_le_left _ _)).trans k2)
    have h3 := (abs_le.mp this).1
    have h4 := min_le_right (x0.getD i 0) (-(|K| + 1))
    have := le_abs_self K
    linarith
  · intro e
    have := hw (max (x0.getD i 0) (|K| + 1)) (k1.trans (EReal.coe_le_coe_iff.mpr (le_max_left _ _))) (by rw [e]; exact le_top)
    have h3 := (abs_le.mp this).2
    have h4 := le_max_right (x0.getD i 0) (|K| + 1)
    have := le_abs_self K
    linarith

section
variable {tn : String} {kw : List (String × Int)} {n : Nat} {pts : Option (List ℝ)} {cyc : Bool} {nc : List String} {T : ℝ}

/-- The configuration suits every vehicle that the default one suits. -/
theorem tighter_usable {v : Mdl ℝ} (hcon : ∀ n ∈ defaultConOutputs, n ∈ (vehicleOnTrack v).names.outputs) (hv : Car v) (hn : 1 ≤ n) (hnd : nc.Nodup)
    (hnc : ∀ w ∈ nc, (∃ n ∈ onTrackNames.states, w = "states." ++ n) ∨ ∃ n ∈ onTrackNames.inputs, w = "inputs." ++ n)
    (hst : cyc = true → "inputs.steer" ∉ nc) (hT : 0 ≤ T) : Usable v (bounded (defaultBounds ++ tighter T) tn kw n pts cyc nc true) := by
  have h := defaults_usable (tn := tn) (kw := kw) (pts := pts) (closed := true) hcon hv hn hnd hnc hst
  refine ⟨h.intervals, h.distinct, h.known, h.steer, h.outputs, h.scales, fun k hk => ?_⟩
  have hd := onTrack_delivers hv (con := defaultConOutputs) (by decide) hcon
  have hL := layoutOf_made (explicit_good hd) n (k := k) (by omega)
  show ∃ s s', Bounds.updateBounds (layoutOf ((vehicleOnTrack v).explicit defaultConOutputs) n k)
      (Bounds.fresh (layoutOf ((vehicleOnTrack v).explicit defaultConOutputs) n k)) (defaultBounds ++ tighter T) = (s, none) ∧
    Bounds.updateBCs (layoutOf ((vehicleOnTrack v).explicit defaultConOutputs) n k) s (defaultBCs true) = (s', none)
  obtain ⟨s, s', h1, h2⟩ := h.bounds k hk
  change Bounds.updateBounds (layoutOf ((vehicleOnTrack v).explicit defaultConOutputs) n k)
      (Bounds.fresh (layoutOf ((vehicleOnTrack v).explicit defaultConOutputs) n k)) defaultBounds = (s, none) at h1
  change Bounds.updateBCs (layoutOf ((vehicleOnTrack v).explicit defaultConOutputs) n k) s (defaultBCs true) = (s', none) at h2
  have e1 : (vehicleOnTrack v).names.states = onTrackNames.states := by rw [onTrack_names]
  have e2 : (vehicleOnTrack v).names.inputs = onTrackNames.inputs := by rw [onTrack_names]
  set L := layoutOf ((vehicleOnTrack v).explicit defaultConOutputs) n k with hLd
  have N := numStages_pos L
  have vs : ∀ m ∈ onTrackNames.states, L.IsVar (.stage 0 "states" m) := fun m hm => by
    rw [hLd, isVar_iff, ← hLd]
    exact ⟨N, Or.inl ⟨rfl, by show m ∈ (vehicleOnTrack v).names.states; rw [e1]; exact hm⟩⟩
  have vi : ∀ m ∈ onTrackNames.inputs, L.IsVar (.stage 0 "inputs" m) := fun m hm => by
    rw [hLd, isVar_iff, ← hLd]
    exact ⟨N, Or.inr (Or.inl ⟨rfl, by show m ∈ (vehicleOnTrack v).names.inputs; rw [e2]; exact hm⟩)⟩
  have vc : ∀ m ∈ defaultConOutputs, L.IsVar (.stage 0 "con_outputs" m) := fun m hm => by
    rw [hLd, isVar_iff, ← hLd]
    exact ⟨N, Or.inr (Or.inr (Or.inr ⟨rfl, hm⟩))⟩
  have hpi := Real.pi_pos
  have k1 : ∀ s, (setAll L s ((defaultBounds ++ tighter T).map BoundConfig.req)).2 = none := by
    refine setAll_none ?_
    intro r hr s
    obtain ⟨c, hcm, rfl⟩ := List.mem_map.mp hr
    simp only [defaultBounds, LapSim.corners, tighter, List.mem_append, List.mem_map, List.mem_cons, List.not_mem_nil, or_false] at hcm
    rcases hcm with ((((rfl | rfl | rfl | rfl | rfl | rfl | rfl | rfl) | ⟨c, hc', rfl⟩) | ⟨c, hc', rfl⟩) | ⟨c, hc', rfl⟩) | (rfl | rfl | rfl | rfl | rfl | rfl)
    · exact setVarBounds_scalar hL (vs _ (by decide)) s le_top
    all_goals refine setVarBounds_scalar hL ?_ s (EReal.coe_le_coe_iff.mpr (by linarith))
    · exact vs "eta" (by decide)
    · exact vs "vx" (by decide)
    · exact vs "vy" (by decide)
    · exact vs "yaw_rate" (by decide)
    · exact vi "throttle" (by decide)
    · exact vi "brake" (by decide)
    · exact vi "steer" (by decide)
    · refine vs ("wheel_speed_" ++ c) ?_
      rcases hc' with rfl | rfl | rfl | rfl <;> decide
    · refine vc ("vehicle.slip_ratio_" ++ c) ?_
      rcases hc' with rfl | rfl | rfl | rfl <;> decide
    · refine vc ("vehicle.slip_angle_" ++ c) ?_
      rcases hc' with rfl | rfl | rfl | rfl <;> decide
    · exact vs "time" (by decide)
    · exact vs "vx" (by decide)
    · exact vs "vy" (by decide)
    · exact vs "yaw_rate" (by decide)
    · exact vi "ax" (by decide)
    · exact vi "ay" (by decide)
  have hb0 := setAll_bcs L (Bounds.fresh L) ((defaultBounds ++ tighter T).map BoundConfig.req)
  refine ⟨(Bounds.updateBounds L (Bounds.fresh L) (defaultBounds ++ tighter T)).1, _, Prod.ext rfl ?_, Prod.ext rfl ?_⟩
  · unfold Bounds.updateBounds
    have h1 := k1 (Bounds.fresh L)
    rcases hr : setAll L (Bounds.fresh L) ((defaultBounds ++ tighter T).map BoundConfig.req) with ⟨s', o⟩
    rw [hr] at h1 hb0
    dsimp only at h1 hb0
    subst h1
    dsimp only
    unfold applyBCs
    rw [hb0]
    rfl
  · have hb := updateBounds_bcs L (Bounds.fresh L) (defaultBounds ++ tighter T)
    unfold Bounds.updateBCs applyBCs
    dsimp only
    rw [hb]
    refine setAll_none ?_ _
    intro r hr s
    have hr : r ∈ (defaultBCs true).map BC.req := hr
    simp only [defaultBCs, if_true, List.map_cons, List.map_nil, List.mem_singleton] at hr
    subst hr
    exact setVarBounds_first hL (vs "time" (by decide)) s _

/-- The bounds of the simulation, written out. -/
theorem tighter_within {v : Mdl ℝ} {u : UnitProblem} {D : List ℝ → ℝ → Prop} (hv : Car v) (hT : 0 ≤ T)
    (hc : Usable v (bounded (defaultBounds ++ tighter T) tn kw n pts cyc nc true))
    (hu : Backed v (bounded (defaultBounds ++ tighter T) tn kw n pts cyc nc true) u D) {file : Py (List Row)} {l : Lap}
    (hl : laptime v u (bounded (defaultBounds ++ tighter T) tn kw n pts cyc nc true) file = .ok l) {tr : RaceTrack} (htr : l.track = some tr)
    {x : List ℝ} (hx : x.length = l.S.c.o.L.numDec) :
    Within l.st.lb l.st.ub x ↔ InDefaults true tr l.S.c.o.L.numStages (fun s => l.S.c.mesh.getD s 0 * tr.totalDistance)
        (fun g m s => readAt l.S.c.o.L x g m s) ∧ ∀ s, s < l.S.c.o.L.numStages →
      (∀ m ∈ onTrackNames.states, Extra T "states" m (readAt l.S.c.o.L x "states" m s)) ∧
      ∀ m ∈ onTrackNames.inputs, Extra T "inputs" m (readAt l.S.c.o.L x "inputs" m s) := by
  obtain ⟨tr', h1, h2⟩ := C95_bounds hv hc hu hl
  rw [htr, Option.some.injEq] at h1
  subst h1
  obtain ⟨t, S, b, tr', ht, hm, hg, hb, hrd, hs, f1, f2, f3⟩ := laptime_inv hv hc hu hl
  rw [h2 x hx]
  have eL : l.S.c.o.L = layoutOf ((vehicleOnTrack v).explicit defaultConOutputs) n t.stages := by rw [f3]; exact hm.layout
  have hS : ((vehicleOnTrack v).explicit defaultConOutputs).states = onTrackNames.states := by
    show (vehicleOnTrack v).names.states = _
    rw [onTrack_names]
  have hI : ((vehicleOnTrack v).explicit defaultConOutputs).inputs = onTrackNames.inputs := by
    show (vehicleOnTrack v).names.inputs = _
    rw [onTrack_names]
  rw [eL]
  have hdot : ∀ s g m, (layoutOf ((vehicleOnTrack v).explicit defaultConOutputs) n t.stages).IsVar (.stage s g m) → Dotless g := by
    intro s g m h
    rw [isVar_iff] at h
    obtain ⟨-, ⟨rfl, -⟩ | ⟨rfl, -⟩ | ⟨rfl, -⟩ | ⟨rfl, -⟩⟩ := h <;> · unfold Dotless; decide
  rw [← allowed_all (tn := tn) (kw := kw) (pts := pts) (cyc := cyc) (nc := nc) hS hI rfl (fun s => l.S.c.mesh.getD s 0 * tr.totalDistance)
    fun g m s => readAt (layoutOf ((vehicleOnTrack v).explicit defaultConOutputs) n t.stages) x g m s]
  constructor
  · intro H
    refine ⟨fun s g m hvar => ((allowed_tighter g m (hdot s g m hvar) hT).mp (H s g m hvar)).1, fun s hs => ⟨fun m hm => ?_, fun m hm => ?_⟩⟩
    · have hvar : (layoutOf ((vehicleOnTrack v).explicit defaultConOutputs) n t.stages).IsVar (.stage s "states" m) := by
        rw [isVar_iff]; exact ⟨hs, Or.inl ⟨rfl, by rw [hS]; exact hm⟩⟩
      exact ((allowed_tighter "states" m (hdot _ _ _ hvar) hT).mp (H s _ m hvar)).2
    · have hvar : (layoutOf ((vehicleOnTrack v).explicit defaultConOutputs) n t.stages).IsVar (.stage s "inputs" m) := by
        rw [isVar_iff]; exact ⟨hs, Or.inr (Or.inl ⟨rfl, by rw [hI]; exact hm⟩)⟩
      exact ((allowed_tighter "inputs" m (hdot _ _ _ hvar) hT).mp (H s _ m hvar)).2
  · rintro ⟨H1, H2⟩ s g m hvar
    refine (allowed_tighter g m (hdot s g m hvar) hT).mpr ⟨H1 s g m hvar, ?_⟩
    have hvar' := hvar
    rw [isVar_iff] at hvar'
    obtain ⟨hs, ⟨rfl, hm⟩ | ⟨rfl, hm⟩ | ⟨rfl, hm⟩ | ⟨rfl, hm⟩⟩ := hvar'
    · exact (H2 s hs).1 m (by rw [hS] at hm; exact hm)
    · exact (H2 s hs).2 m (by rw [hI] at hm; exact hm)
    · unfold Extra; simp
    · unfold Extra; simp
end

/-- The default car on a straight runs within the added limits. -/
theorem tighter_regular {x u : String → ℝ} {cx cy cz : ℝ} (hcz : |cz| ≤ 3) (hvx : 20 ≤ x "vx" ∧ x "vx" ≤ 100) (hvy : |x "vy"| ≤ 1) (hyaw : |x "yaw_rate"| ≤ 1)
    (heta : |x "eta"| ≤ Real.pi / 4) (hrl : 0.1 ≤ x "wheel_speed_rl") (hrr : 0.1 ≤ x "wheel_speed_rr") (hsteer : |u "steer"| ≤ 1)
    (hax : |u "ax"| ≤ 20) (hay : |u "ay"| ≤ 20) (hcurv : u "track_curvature" = 0) :
    Regular carParams ⟨tyreParams, tyreParams, tyreParams, tyreParams⟩ cx cy cz x u := by
  have hpi := Real.pi_pos
  have hp4 := Real.pi_lt_d2
  obtain ⟨y1, y2⟩ := abs_le.mp hyaw
  obtain ⟨v1, v2⟩ := abs_le.mp hvy
  obtain ⟨c1, c2⟩ := abs_le.mp hcz
  obtain ⟨a1, a2⟩ := abs_le.mp hax
  obtain ⟨b1, b2⟩ := abs_le.mp hay
  refine ⟨by linarith [hvx.1], ?_, ?_, ?_, ?_, by rw [hcurv]; norm_num, ?_⟩
  · refine ne_of_gt ?_
    have : (0 : ℝ) < 0.1 := by norm_num
    linarith
  · intro side hside
    have es : carParams.max_steer_angle = 10 * Real.pi / 180 := rfl
    have et : carParams.track_front = 1.46 := rfl
    have ec : carParams.cog_to_fa = 1.8 := rfl
    rw [es, et, ec]
    set θ := u "steer" * (10 * Real.pi / 180) with hθ
    have hθ1 : |θ| ≤ 0.2 := by
      rw [hθ, abs_mul, abs_of_pos (by positivity : (0 : ℝ) < 10 * Real.pi / 180)]
      calc |u "steer"| * (10 * Real.pi / 180) ≤ 1 * (10 * Real.pi / 180) := mul_le_mul_of_nonneg_right hsteer (by positivity)
        _ ≤ 0.2 := by norm_num at hp4 ⊢; linarith
    have hcos : 0.98 ≤ Real.cos θ := by
      have h1 := Real.one_sub_sq_div_two_le_cos (x := θ)
      have h2 : θ ^ 2 ≤ 0.2 ^ 2 := sq_le_sq' (by linarith [(abs_le.mp hθ1).1]) (abs_le.mp hθ1).2
      norm_num at h2 ⊢
      linarith
    have hsin := abs_le.mp (Real.abs_sin_le_one θ)
    have hA : 19 ≤ x "vx" - side * x "yaw_rate" * (1.46 / 2) := by
      rcases hside with rfl | rfl <;> norm_num <;> linarith [hvx.1]
    have hB : |Real.sin θ * (x "vy" + x "yaw_rate" * 1.8)| ≤ 2.8 := by
      rw [abs_mul]
      have h1 : |x "vy" + x "yaw_rate" * 1.8| ≤ 2.8 := by
        rw [abs_le]
        constructor <;> norm_num <;> linarith
      calc _ ≤ 1 * 2.8 := mul_le_mul (Real.abs_sin_le_one θ) h1 (abs_nonneg _) (by norm_num)
        _ = 2.8 := one_mul _
    have hC : 0.98 * 19 ≤ Real.cos θ * (x "vx" - side * x "yaw_rate" * (1.46 / 2)) := mul_le_mul hcos hA (by norm_num) (by linarith)
    refine ne_of_gt ?_
    have := (abs_le.mp hB).1
    norm_num at *
    linarith
  · intro side hside
    have et : carParams.track_rear = 1.46 := rfl
    rw [et]
    refine ne_of_gt ?_
    rcases hside with rfl | rfl <;> norm_num <;> linarith [hvx.1]
  · intro r hr F
    obtain ⟨r', e, h1, h2, h3, h4⟩ := reported carParams ⟨tyreParams, tyreParams, tyreParams, tyreParams⟩ cx cy cz x u
    rw [hr, Except.ok.injEq] at e
    subst e
    have good : ∀ F : ℝ, F < 38000 → tyreParams.kappaMax F ≠ 0 ∧ tyreParams.alphaMax F ≠ 0 := by
      intro F hF
      have ek : tyreParams.kappaMax F = 0.11 + (0.1 - 0.11) * ((F - 2000) / (6000 - 2000)) := rfl
      have ea : tyreParams.alphaMax F = 9 * Real.pi / 180 + (8 * Real.pi / 180 - 9 * Real.pi / 180) * ((F - 2000) / (6000 - 2000)) := rfl
      rw [ek, ea]
      constructor
      · refine ne_of_gt ?_
        norm_num
        linarith
      · refine ne_of_gt ?_
        have e : 9 * Real.pi / 180 + (8 * Real.pi / 180 - 9 * Real.pi / 180) * ((F - 2000) / (6000 - 2000)) = Real.pi / 180 * ((38000 - F) / 4000) := by ring
        rw [e]
        exact mul_pos (by positivity) (div_pos (by linarith) (by norm_num))
    have hq : x "vx" ^ 2 + x "vy" ^ 2 ≤ 10001 := by nlinarith [hvx.1, hvx.2]
    have hq0 : 0 ≤ x "vx" ^ 2 + x "vy" ^ 2 := by positivity
    have hz : cz * (0.5 * 1.2 * (x "vx" ^ 2 + x "vy" ^ 2)) ≤ 3 * (0.5 * 1.2 * 10001) := by
      have h5 : (0 : ℝ) ≤ 0.5 * 1.2 * (x "vx" ^ 2 + x "vy" ^ 2) := by positivity
      calc cz * (0.5 * 1.2 * (x "vx" ^ 2 + x "vy" ^ 2)) ≤ 3 * (0.5 * 1.2 * (x "vx" ^ 2 + x "vy" ^ 2)) := mul_le_mul_of_nonneg_right c2 h5
        _ ≤ _ := by norm_num; linarith
    have l : ((rawNums cx cz x u).load carParams).fl < 38000 ∧ ((rawNums cx cz x u).load carParams).fr < 38000 ∧
        ((rawNums cx cz x u).load carParams).rl < 38000 ∧ ((rawNums cx cz x u).load carParams).rr < 38000 := by
      simp only [Nums.load, Nums.fzTotal, Nums.dynPressure, Nums.latF, Nums.latR, Nums.long, Nums.wdf, rawNums, carParams]
      norm_num at hz ⊢
      refine ⟨?_, ?_, ?_, ?_⟩ <;> linarith
    obtain ⟨l1, l2, l3, l4⟩ := l
    refine ⟨fun hF => good F ?_, fun hF => good F ?_, fun hF => good F ?_, fun hF => good F ?_⟩
    · rw [h1, Option.some.injEq] at hF; exact hF ▸ l1
    · rw [h2, Option.some.injEq] at hF; exact hF ▸ l2
    · rw [h3, Option.some.injEq] at hF; exact hF ▸ l3
    · rw [h4, Option.some.injEq] at hF; exact hF ▸ l4
  · have hcos : Real.sqrt 2 / 2 ≤ Real.cos (x "eta") := by
      rw [← Real.cos_pi_div_four, ← Real.cos_abs (x "eta")]
      exact Real.cos_le_cos_of_nonneg_of_le_pi (abs_nonneg _) (by linarith) heta
    have h2 : 1.4 ≤ Real.sqrt 2 := Real.le_sqrt_of_sq_le (by norm_num)
    have hs : |x "vy" * Real.sin (x "eta")| ≤ 1 := by
      rw [abs_mul]
      calc _ ≤ 1 * 1 := mul_le_mul hvy (Real.abs_sin_le_one _) (abs_nonneg _) (by norm_num)
        _ = 1 := one_mul _
    have hc : 20 * 0.7 ≤ x "vx" * Real.cos (x "eta") := mul_le_mul hvx.1 (by norm_num at h2 ⊢; linarith) (by norm_num) (by linarith [hvx.1])
    refine ne_of_gt ?_
    have := (abs_le.mp hs).2
    norm_num at hc
    linarith

/-- **C112 (a best lap, from the start).** For the default car without drag (and any downforce coefficient up to 3), every scheme, every accepted mesh, a cyclic or an open lap, the
table of a straight road, limits that are the default ones with a time limit, at least 20 m/s, at most 1 m/s sideways and 1 rad/s, and accelerations up to 20 m/s², and every backend that
is right: the simulation can be made, and if the time limit leaves time for a lap at 50 m/s, one of the laps within the limits is best. It takes no longer than that. -/
theorem C112_straight_best {cy cz : ℝ} (hcz : |cz| ≤ 3) {tn : String} {kw : List (String × Int)} {t : Transcription} (ht : makeTranscription tn kw = .ok t) {n : Nat} (hn : 1 ≤ n)
    {pts : Option (List ℝ)} {mesh : List (List ℝ)} (hm : setMesh t.interp n pts = .ok mesh) (cyc : Bool) {nc : List String} (hnd : nc.Nodup)
    (hnc : ∀ w ∈ nc, (∃ n ∈ onTrackNames.states, w = "states." ++ n) ∨ ∃ n ∈ onTrackNames.inputs, w = "inputs." ++ n)
    (hst : cyc = true → "inputs.steer" ∉ nc) {rows : List Row} {d : List ℝ} {a b φ : ℝ} (hr : StraightRoad rows d a b φ) {T : ℝ} (hT0 : 0 ≤ T)
    (hT : (at_ d (d.length - 1) - at_ d 0) * ((pointsOf n pts).getD n 0 - (pointsOf n pts).getD 0 0) / 50 ≤ T)
    {u : UnitProblem} {D : List ℝ → ℝ → Prop}
    (hu : Backed (standardVehicle carParams ⟨tyreParams, tyreParams, tyreParams, tyreParams⟩ 0 cy cz) (bounded (defaultBounds ++ tighter T) tn kw n pts cyc nc true) u D) :
    ∃ l bb x, laptime (standardVehicle carParams ⟨tyreParams, tyreParams, tyreParams, tyreParams⟩ 0 cy cz) u (bounded (defaultBounds ++ tighter T) tn kw n pts cyc nc true) (.ok rows) = .ok l ∧
      l.problem = .ok bb ∧ x.length = l.S.c.o.L.numDec ∧ bb.Feasible (vdiv x bb.prob.scales) ∧ Within bb.bounds.lb bb.bounds.ub x ∧
      (∀ y : List ℝ, y.length = l.S.c.o.L.numDec → bb.Feasible (vdiv y bb.prob.scales) → Within bb.bounds.lb bb.bounds.ub y →
        ∀ f g, bb.prob.objective (vdiv x bb.prob.scales) = .ok f → bb.prob.objective (vdiv y bb.prob.scales) = .ok g → f ≤ g) ∧
      lapTime l x ≤ (at_ d (d.length - 1) - at_ d 0) * ((pointsOf n pts).getD n 0 - (pointsOf n pts).getD 0 0) / 50 := by
  have hv := standard_car carParams ⟨tyreParams, tyreParams, tyreParams, tyreParams⟩ 0 cy cz
  have hc : Usable (standardVehicle carParams ⟨tyreParams, tyreParams, tyreParams, tyreParams⟩ 0 cy cz) (bounded (defaultBounds ++ tighter T) tn kw n pts cyc nc true) :=
    tighter_usable (standard_con _ _ _ _ _) hv hn hnd hnc hst hT0
  obtain ⟨l, tr, h1, h2, h3, h4⟩ := C95_construct hv hc hu ht hm hr.road
  obtain ⟨_, _, bb, _, _, _, hb, hbst, _, ho⟩ := C95_feasible hv hc hu h1
  obtain ⟨tr', g1, g2, g3, g4⟩ := hr.loads
  rw [h2, Except.ok.injEq] at g1
  subst g1
  obtain ⟨x0, time, heading, hx0, feas, hlt, hobj, hb0, ht0, hhead, rS, rI, rY⟩ := coast_point hc hu (by show (0.33 : ℝ) ≠ 0; norm_num) h1 h3
    (fun d _ => (g4 _).2.1) g3.le hb
  rw [g2] at hlt
  obtain ⟨t', S, b0, tr', ht', hmd, hg, hb0', hrd, hs, f1, f2, f3⟩ := laptime_inv hv hc hu h1
  have hN := numStages_pos l.S.c.o.L
  have hW := fun {x : List ℝ} (hx : x.length = l.S.c.o.L.numDec) => tighter_within hv hT0 hc hu h1 h3 hx
  have hpi := Real.pi_pos
  -- the coasting lap is within the bounds
  have hw0 : Within bb.bounds.lb bb.bounds.ub x0 := by
    rw [hbst]
    refine (hW hx0).mpr ⟨⟨?_, ?_, ?_, ?_, ?_, ?_, ?_, ?_, ?_, ?_, ?_, ?_, ?_, ?_, ?_, ?_⟩, fun s hs => ⟨fun m hm => ?_, fun m hm => ?_⟩⟩
    · intro s hs
      rw [rS s hs _ (by decide), if_pos rfl]
      exact (hb0 s hs).1
    · intro s hs
      rw [rS s hs _ (by decide)]
      simp [rolling]
      positivity
    · intro s hs
      rw [rS s hs _ (by decide)]
      simp [rolling]
      norm_num
    · intro s hs
      rw [rS s hs _ (by decide)]
      simp [rolling]
    · intro s hs
      rw [rS s hs _ (by decide)]
      simp [rolling]
      positivity
    · intro s hs c hcn
      have hw : ("wheel_speed_" ++ c) ∈ onTrackNames.states ∧ rolling 50 carParams.rolling_radius ("wheel_speed_" ++ c) = 50 / 0.33 ∧
          "wheel_speed_" ++ c ≠ "time" := by
        simp only [LapSim.corners, List.mem_cons, List.not_mem_nil, or_false] at hcn
        rcases hcn with rfl | rfl | rfl | rfl <;> exact ⟨by decide, by unfold rolling; rw [if_neg (by decide), if_neg (by decide)]; rfl, by decide⟩
      rw [rS s hs _ hw.1, if_neg hw.2.2, hw.2.1]
      norm_num
    · intro s hs
      rw [rI s hs _ (by decide)]
      simp
    · intro s hs
      rw [rI s hs _ (by decide)]
      simp
    · intro s hs
      rw [rI s hs _ (by decide)]
      simp
    · intro s hs c hcn
      rw [rY s hs _ (by
        simp only [LapSim.corners, List.mem_cons, List.not_mem_nil, or_false] at hcn
        rcases hcn with rfl | rfl | rfl | rfl <;> decide)]
      norm_num
    · intro s hs c hcn
      rw [rY s hs _ (by
        simp only [LapSim.corners, List.mem_cons, List.not_mem_nil, or_false] at hcn
        rcases hcn with rfl | rfl | rfl | rfl <;> decide)]
      simp
      positivity
    · intro s hs
      rw [rI s hs _ (by decide)]
      exact (g4 _).1
    · intro s hs
      rw [rI s hs _ (by decide)]
      exact hhead s hs
    · intro s hs _
      obtain ⟨-, -, a, b', q1, q2, q3, q4⟩ := g4 (l.S.c.mesh.getD s 0 * tr.totalDistance)
      refine ⟨a, b', q1, q2, ?_⟩
      rw [rS s hs _ (by decide)]
      simp [rolling, q3, q4]
    · rw [rS 0 hN _ (by decide), if_pos rfl, ht0]
    · intro h
      cases h
    · rw [rS s hs m hm]
      refine ⟨fun _ => ⟨?_, ?_, ?_, ?_⟩, fun e => absurd e (by decide)⟩
      · rintro rfl
        rw [if_pos rfl]
        exact (hb0 s hs).2.trans (hlt ▸ hT)
      all_goals
        rintro rfl
        simp [rolling]
      norm_num
    · rw [rI s hs m hm]
      refine ⟨fun e => absurd e (by decide), fun _ => ?_⟩
      rintro (rfl | rfl) <;> simp
  -- the bounds are finite
  have hlim : Kkt.Limited l.S bb := by
    intro v i hvar hq hne
    have hi : i < x0.length := by
      rw [hx0]
      have hL : l.S.c.o.L.Made := by rw [f3]; exact hg.cond.ocp.made
      obtain ⟨j, e, hj⟩ := C01_index_in_range hL hvar
      rw [hq, Except.ok.injEq] at e
      cases e
      exact hj
    have key : ∀ s g m, v = .stage s g m → ∀ K : ℝ, (∀ x : List ℝ, x.length = l.S.c.o.L.numDec → Within bb.bounds.lb bb.bounds.ub x → |readAt l.S.c.o.L x g m s| ≤ K) →
        bb.bounds.lb.getD i 0 ≠ ⊥ ∧ bb.bounds.ub.getD i 0 ≠ ⊤ := by
      rintro s g m rfl K hK
      refine finite_bounds hw0 hi (K := K) fun x hx hw => ?_
      have := hK x (hx.trans hx0) hw
      rwa [Kkt.readAt_of_query hq] at this
    have eL : l.S.c.o.L = layoutOf ((vehicleOnTrack (standardVehicle carParams ⟨tyreParams, tyreParams, tyreParams, tyreParams⟩ 0 cy cz)).explicit defaultConOutputs) n t'.stages := by
      rw [f3]; exact hmd.layout
    cases v with
    | glob m =>
      rw [eL] at hvar
      cases hvar
    | stage s g m =>
      have hvar' := hvar
      rw [eL, isVar_iff, ← eL] at hvar'
      obtain ⟨hs, h⟩ := hvar'
      have hst1 : ((vehicleOnTrack (standardVehicle carParams ⟨tyreParams, tyreParams, tyreParams, tyreParams⟩ 0 cy cz)).explicit defaultConOutputs).states = onTrackNames.states := by
        show (vehicleOnTrack (standardVehicle carParams ⟨tyreParams, tyreParams, tyreParams, tyreParams⟩ 0 cy cz)).names.states = _
        rw [onTrack_names]
      have hin1 : ((vehicleOnTrack (standardVehicle carParams ⟨tyreParams, tyreParams, tyreParams, tyreParams⟩ 0 cy cz)).explicit defaultConOutputs).inputs = onTrackNames.inputs := by
        show (vehicleOnTrack (standardVehicle carParams ⟨tyreParams, tyreParams, tyreParams, tyreParams⟩ 0 cy cz)).names.inputs = _
        rw [onTrack_names]
      rw [hst1, hin1] at h
      obtain ⟨-, ⟨θ, hθ⟩, wl, wr, q1, q2, -, -⟩ := g4 (l.S.c.mesh.getD s 0 * tr.totalDistance)
      rcases h with ⟨rfl, hm⟩ | ⟨rfl, hm⟩ | ⟨rfl, -⟩ | ⟨rfl, -⟩
      · have hm : m ∈ ["time", "n", "eta", "vx", "vy", "yaw_rate", "wheel_speed_fl", "wheel_speed_fr", "wheel_speed_rl", "wheel_speed_rr"] := hm
        refine key s "states" m rfl (T + |wl| + |wr| + Real.pi + 300) fun x hx hw => ?_
        rw [hbst] at hw
        obtain ⟨H, E⟩ := (hW hx).mp hw
        have E1 := (E s hs).1
        have e1 := abs_nonneg wl
        have e2 := abs_nonneg wr
        have wheel : ∀ c ∈ LapSim.corners, |readAt l.S.c.o.L x "states" ("wheel_speed_" ++ c) s| ≤ T + |wl| + |wr| + Real.pi + 300 := by
          intro c hcn
          obtain ⟨q3, q4⟩ := H.wheels s hs c hcn
          have : (0 : ℝ) < 0.1 := by norm_num
          rw [abs_le]
          constructor <;> linarith
        simp only [List.mem_cons, List.not_mem_nil, or_false] at hm
        rcases hm with rfl | rfl | rfl | rfl | rfl | rfl | rfl | rfl | rfl | rfl
        · have q3 := H.time s hs
          have q4 := ((E1 "time" (by decide)).1 rfl).1 rfl
          rw [abs_le]
          constructor <;> linarith
        · obtain ⟨wl', wr', q3, q4, q5, q6⟩ := H.lateral s hs (fun h => by cases h)
          rw [q1, Except.ok.injEq] at q3
          rw [q2, Except.ok.injEq] at q4
          subst q3 q4
          have := le_abs_self wl
          have := le_abs_self wr
          rw [abs_le]
          constructor <;> linarith
        · have q3 := abs_le.mp (H.eta s hs)
          rw [abs_le]
          constructor <;> linarith [q3.1, q3.2]
        · obtain ⟨q3, q4⟩ := H.vx s hs
          rw [abs_le]
          constructor <;> linarith
        · have q3 := abs_le.mp (H.vy s hs)
          rw [abs_le]
          constructor <;> linarith [q3.1, q3.2]
        · have q3 := abs_le.mp (((E1 "yaw_rate" (by decide)).1 rfl).2.2.2 rfl)
          rw [abs_le]
          constructor <;> linarith [q3.1, q3.2]
        · exact wheel "fl" (by decide)
        · exact wheel "fr" (by decide)
        · exact wheel "rl" (by decide)
        · exact wheel "rr" (by decide)
      · have hm : m ∈ ["throttle", "brake", "steer", "ax", "ay", "track_curvature", "track_heading"] := hm
        refine key s "inputs" m rfl (20 + |θ|) fun x hx hw => ?_
        rw [hbst] at hw
        obtain ⟨H, E⟩ := (hW hx).mp hw
        have E1 := (E s hs).2
        have e1 := abs_nonneg θ
        simp only [List.mem_cons, List.not_mem_nil, or_false] at hm
        rcases hm with rfl | rfl | rfl | rfl | rfl | rfl | rfl
        · obtain ⟨q3, q4⟩ := H.throttle s hs
          rw [abs_le]
          constructor <;> linarith
        · obtain ⟨q3, q4⟩ := H.brake s hs
          rw [abs_le]
          constructor <;> linarith
        · have q3 := H.steer s hs
          linarith
        · have q3 := (E1 "ax" (by decide)).2 rfl (Or.inl rfl)
          linarith
        · have q3 := (E1 "ay" (by decide)).2 rfl (Or.inr rfl)
          linarith
        · have q3 := H.curvature s hs
          rw [(g4 _).1, Except.ok.injEq] at q3
          rw [← q3, abs_zero]
          linarith
        · have q3 := H.heading s hs
          rw [hθ, Except.ok.injEq] at q3
          rw [← q3]
          linarith
      · exact absurd rfl (hne s m).1
      · exact absurd rfl (hne s m).2
  -- and keep the car running
  have hR : ∀ x : List ℝ, x.length = l.S.c.o.L.numDec → Within bb.bounds.lb bb.bounds.ub x → ∀ s < l.S.c.o.L.numStages,
      Regular carParams ⟨tyreParams, tyreParams, tyreParams, tyreParams⟩ 0 cy cz (fun n => readAt l.S.c.o.L x "states" n s) (fun n => readAt l.S.c.o.L x "inputs" n s) := by
    intro x hx hw s hs
    rw [hbst] at hw
    obtain ⟨H, E⟩ := (hW hx).mp hw
    obtain ⟨E1, E2⟩ := E s hs
    refine tighter_regular hcz ⟨((E1 "vx" (by decide)).1 rfl).2.1 rfl, (H.vx s hs).2⟩ (((E1 "vy" (by decide)).1 rfl).2.2.1 rfl) (((E1 "yaw_rate" (by decide)).1 rfl).2.2.2 rfl)
      (H.eta s hs) (H.wheels s hs "rl" (by decide)).1 (H.wheels s hs "rr" (by decide)).1 (H.steer s hs) ((E2 "ax" (by decide)).2 rfl (Or.inl rfl))
      ((E2 "ay" (by decide)).2 rfl (Or.inr rfl)) ?_
    have q3 := H.curvature s hs
    rw [(g4 _).1, Except.ok.injEq] at q3
    exact q3.symm
  obtain ⟨x, e1, e2, e3, e4⟩ := C112_best_lap hc hu h1 hb hlim hR hx0 feas hw0
  refine ⟨l, bb, x, h1, hb, e1, e2, e3, e4, ?_⟩
  have h5 := e4 x0 hx0 feas hw0 _ _ (ho x e1).2 hobj
  have h6 : 0 ≤ (∑ s ∈ Finset.range l.S.c.o.L.numStages, readAt l.S.c.o.L x "inputs" "steer" s ^ 2) / (l.S.c.o.L.numStages : ℝ) :=
    div_nonneg (Finset.sum_nonneg fun _ _ => sq_nonneg _) (Nat.cast_nonneg _)
  rw [← hlt]
  refine le_trans ?_ h5
  unfold lapTime
  linarith

/-- 1 km of road, 5 m wide on either side, with LGR of three stages on ten intervals and 20 s at most: there is a best lap. -/
example : ∃ u l b x, laptime (standardVehicle carParams ⟨tyreParams, tyreParams, tyreParams, tyreParams⟩ 0 0 1.9) u
      (bounded (defaultBounds ++ tighter 20) "LGR" [("num_stages", 3)] 10 none false [] true) (.ok [⟨0, 0, 5, 5⟩, ⟨500, 0, 5, 5⟩, ⟨1000, 0, 5, 5⟩]) = .ok l ∧
    l.problem = .ok b ∧ b.Feasible (vdiv x b.prob.scales) ∧ Within b.bounds.lb b.bounds.ub x ∧ lapTime l x ≤ 20 ∧
    ∀ y : List ℝ, y.length = l.S.c.o.L.numDec → b.Feasible (vdiv y b.prob.scales) → Within b.bounds.lb b.bounds.ub y →
      ∀ f g, b.prob.objective (vdiv x b.prob.scales) = .ok f → b.prob.objective (vdiv y b.prob.scales) = .ok g → f ≤ g := by
  obtain ⟨t, ht, -⟩ := (C38_lgr "LGR" (by simp)).2.1 3 (by norm_num)
  have e : (at_ [0, 500, 1000] ([0, 500, 1000].length - 1) - at_ [0, 500, 1000] 0) * ((pointsOf 10 none).getD 10 0 - (pointsOf 10 none).getD 0 0) / 50 = 20 := by
    simp [Track.at_, pointsOf, linspace01]
    norm_num
  obtain ⟨l, b, x, h1, h2, -, h3, h4, h5, h6⟩ := C112_straight_best (cy := 0) (cz := 1.9) (by rw [abs_le]; norm_num) ht (n := 10) (by norm_num)
    (pts := none) rfl false (nc := []) (by simp) (by simp) (by simp) (rows := [⟨0, 0, 5, 5⟩, ⟨500, 0, 5, 5⟩, ⟨1000, 0, 5, 5⟩]) (d := [0, 500, 1000])
    (a := 0) (b := 0) (φ := 0) ⟨by unfold Inc; norm_num, by decide, by simp, by simp, by simp, by simp⟩ (T := 20) (by norm_num) e.le
    (backed_auto (standard_car _ _ _ _ _) (tighter_usable (standard_con _ _ _ _ _) (standard_car _ _ _ _ _) (by norm_num) (by simp) (by simp) (by simp) (by norm_num)))
  exact ⟨_, l, b, x, h1, h2, h3, h4, e ▸ h6, h5⟩

end Lumos.Lts
