import Verif.Lts.Coast
import Verif.Lts.Auto
/-!
# Straight roads, and the hypotheses of C95 met
-/

namespace Lumos.Lts

open Lumos DecVar DecVar.Layout Bounds Ocp Lumos.Trans NLP Io Io.Mdl LapSim Track Veh

/-- The widths of a track do not change its distance, curvature and heading. -/
theorem widths_free {x y : List ℝ} (hl : x.length = y.length) (hn : 2 ≤ x.length) {l r l' r' : Option (List ℝ)} {t t' : RaceTrack}
    (h : RaceTrack.fromCartesian x y l r = .ok t) (h' : RaceTrack.fromCartesian x y l' r' = .ok t') :
    t.s = t'.s ∧ t.curvature = t'.curvature ∧ t.heading = t'.heading := by
  rw [cartesian_mk hl hn] at h h'
  unfold RaceTrack.mk' at h h'
  dsimp only at h h'
  split_ifs at h with a1 a2 a3
  split_ifs at h' with b1 b2
  cases h
  cases h'
  exact ⟨rfl, rfl, rfl⟩

/-- The table of a straight road: points in order along a line, sides that are not negative. -/
structure StraightRoad (rows : List Row) (d : List ℝ) (a b φ : ℝ) : Prop where
  inc : Inc d
  two : 2 ≤ d.length
  x : rows.map Row.x = d.map fun v => a + v * Real.cos φ
  y : rows.map Row.y = d.map fun v => b + v * Real.sin φ
  left : ∀ r ∈ rows, 0 ≤ r.left
  right : ∀ r ∈ rows, 0 ≤ r.right

theorem StraightRoad.road {rows : List Row} {d : List ℝ} {a b φ : ℝ} (h : StraightRoad rows d a b φ) : Road rows where
  two := by
    have := congrArg List.length h.x
    simp at this
    rw [this]; exact h.two
  distinct := by
    intro i hi
    have hlen : rows.length = d.length := by simpa using congrArg List.length h.x
    have ex : ∀ k (hk : k < rows.length), rows[k].x = a + d[k] * Real.cos φ := fun k hk => by
      have := congrArg (fun l => l[k]?) h.x
      simpa [hk, hlen ▸ hk] using this
    have ey : ∀ k (hk : k < rows.length), rows[k].y = b + d[k] * Real.sin φ := fun k hk => by
      have := congrArg (fun l => l[k]?) h.y
      simpa [hk, hlen ▸ hk] using this
    have hlt : d[i] < d[i + 1] := List.pairwise_iff_getElem.mp h.inc i (i + 1) (by omega) (by omega) (by omega)
    by_contra hne
    push Not at hne
    obtain ⟨h1, h2⟩ := hne
    rw [ex i (by omega), ex (i + 1) hi] at h1
    rw [ey i (by omega), ey (i + 1) hi] at h2
    have h3 := Real.sin_sq_add_cos_sq φ
    have h4 : (d[i + 1] - d[i]) * Real.cos φ = 0 := by linarith
    have h5 : (d[i + 1] - d[i]) * Real.sin φ = 0 := by linarith
    have h6 : d[i + 1] - d[i] ≠ 0 := by linarith
    rw [(mul_eq_zero.mp h4).resolve_left h6, (mul_eq_zero.mp h5).resolve_left h6] at h3
    norm_num at h3
  left := h.left
  right := h.right

theorem StraightRoad.loads {rows : List Row} {d : List ℝ} {a b φ : ℝ} (h : StraightRoad rows d a b φ) : ∃ t, fromTumCsv (.ok rows) = .ok t ∧
    t.totalDistance = at_ d (d.length - 1) - at_ d 0 ∧ 0 < t.totalDistance ∧ ∀ s, t.curvatureAt s = .ok 0 ∧ (∃ θ, t.headingAt s = .ok θ) ∧
      ∃ l r, t.leftDistanceAt s = .ok l ∧ t.rightDistanceAt s = .ok r ∧ 0 ≤ l ∧ 0 ≤ r := by
  obtain ⟨t, h1, h2, h3, h4⟩ := road_loads h.road
  refine ⟨t, h1, ?_, h3, fun s => ?_⟩
  all_goals
    have h1' : RaceTrack.fromCartesian (rows.map Row.x) (rows.map Row.y) (some (rows.map Row.left)) (some (rows.map Row.right)) = .ok t := by
      have := h1
      unfold fromTumCsv at this
      simpa only [bind, Except.bind] using this
    rw [h.x, h.y] at h1'
    obtain ⟨t', g1, g2, g3, turns, g4⟩ := C65_straight h.inc h.two a b φ
    obtain ⟨e1, e2, e3⟩ := widths_free (by simp) (by simpa using h.two) h1' g1
  · have hd := h.two
    unfold RaceTrack.totalDistance
    rw [e1, g2, List.length_map, at_eq (by rw [List.length_map]; omega)]
    simp [at_eq (show d.length - 1 < d.length by omega)]
  · refine ⟨?_, ⟨φ + 2 * Real.pi * turns, ?_⟩, h4 s⟩
    · have := g3 s
      unfold RaceTrack.curvatureAt at this ⊢
      rw [e1, e2]; exact this
    · have := g4 s
      unfold RaceTrack.headingAt at this ⊢
      rw [e1, e3]; exact this

/-- Exact derivatives back every car. -/
theorem backed_auto {v : Mdl ℝ} (hv : Car v) {cf : Conf} (hc : Usable v cf) :
    Backed v cf ((vehicleOnTrack v).explicit cf.conOutputs).autoUnit ((vehicleOnTrack v).explicit cf.conOutputs).Smooth := by
  have hM : ((vehicleOnTrack v).explicit cf.conOutputs).Good :=
    explicit_good (onTrack_delivers hv hc.outputs.1 hc.outputs.2)
  exact ⟨Sim.fits_unitOf _ _ _, ExplicitModel.autoUnit_jac hM, ExplicitModel.autoUnit_hess hM⟩

/-- **C95 (a lap that is known, from the start).** For a car without drag whose wheels turn between 0.1 and 300 rad/s at 50 m/s, every scheme,
every accepted mesh, a cyclic or open lap and the table of a straight road, the simulation can be made, and its problem has a feasible point
within the default bounds with the lap time of 50 m/s. -/
theorem C95_straight (p : Params) (q : Four TireParams) (cy cz : ℝ) (hR1 : 0.1 ≤ 50 / p.rolling_radius) (hR2 : 50 / p.rolling_radius ≤ 300)
    {tn : String} {kw : List (String × Int)} {t : Transcription} (ht : makeTranscription tn kw = .ok t) {n : Nat} (hn : 1 ≤ n) {pts : Option (List ℝ)}
    {mesh : List (List ℝ)} (hm : setMesh t.interp n pts = .ok mesh) (cyc closed : Bool) {nc : List String} (hnd : nc.Nodup)
    (hnc : ∀ w ∈ nc, (∃ n ∈ onTrackNames.states, w = "states." ++ n) ∨ ∃ n ∈ onTrackNames.inputs, w = "inputs." ++ n)
    (hst : cyc = true → "inputs.steer" ∉ nc) {rows : List Row} {d : List ℝ} {a b φ : ℝ} (hr : StraightRoad rows d a b φ) :
    ∃ u D l bb x, Backed (standardVehicle p q 0 cy cz) (defaults tn kw n pts cyc nc closed) u D ∧
      laptime (standardVehicle p q 0 cy cz) u (defaults tn kw n pts cyc nc closed) (.ok rows) = .ok l ∧ l.problem = .ok bb ∧
      x.length = l.S.c.o.L.numDec ∧ bb.Feasible (vdiv x bb.prob.scales) ∧ Within bb.bounds.lb bb.bounds.ub x ∧
      bb.prob.objective (vdiv x bb.prob.scales) = .ok (lapTime l x) ∧
      lapTime l x = (at_ d (d.length - 1) - at_ d 0) * ((pointsOf n pts).getD n 0 - (pointsOf n pts).getD 0 0) / 50 := by
  have hv := standard_car p q 0 cy cz
  have hc : Usable (standardVehicle p q 0 cy cz) (defaults tn kw n pts cyc nc closed) :=
    defaults_usable (standard_con p q 0 cy cz) hv hn hnd hnc hst
  have hu := backed_auto hv hc
  obtain ⟨l, tr, h1, h2, h3, h4⟩ := C95_construct hv hc hu ht hm hr.road
  obtain ⟨_, _, bb, _, _, _, hb, _⟩ := C95_feasible hv hc hu h1
  obtain ⟨tr', g1, g2, g3, g4⟩ := hr.loads
  rw [h2, Except.ok.injEq] at g1
  subst g1
  obtain ⟨x, x1, x2, x3, x4, x5⟩ := C95_coast hc hu hR1 hR2 h1 h3 (fun d _ => g4 _) g3.le hb
  exact ⟨_, _, l, bb, x, hu, h1, hb, x1, x2, x3, x5, by rw [x4, g2]⟩

/-- **C95 (backwards).** The default bounds on speeds and heading error allow a point at which the car moves backwards along the road, even on a
straight: 5 m/s ahead and 10 m/s to the left, heading 45 degrees to the left. -/
theorem C95_backwards : ∃ x u : String → ℝ, (5 ≤ x "vx" ∧ x "vx" ≤ 100) ∧ |x "vy"| ≤ 10 ∧ |x "eta"| ≤ Real.pi / 4 ∧ x "n" = 0 ∧ u "track_curvature" = 0 ∧
    sdot x u < 0 := by
  refine ⟨fun m => if m = "vx" then 5 else if m = "vy" then 10 else if m = "eta" then Real.pi / 4 else 0, fun _ => 0, ?_⟩
  have hpi := Real.pi_pos
  have h2 : 0 < Real.sqrt 2 := by positivity
  unfold sdot
  simp only [String.reduceEq, if_true, if_false, Real.cos_pi_div_four, Real.sin_pi_div_four]
  refine ⟨by norm_num, by norm_num, by rw [abs_of_pos (by positivity)], trivial, trivial, ?_⟩
  norm_num

/-- **C95 (what is minimised).** The objective is not the lap time but the lap time plus the mean square of the steering: a best point within the
default bounds may be slower than another by at most the other's mean square of steering, which is at most 1 s. -/
theorem C95_regularised {v : Mdl ℝ} {u : UnitProblem} {D : List ℝ → ℝ → Prop} {tn : String} {kw : List (String × Int)} {n : Nat}
    {pts : Option (List ℝ)} {cyc closed : Bool} {nc : List String} (hv : Car v) (hc : Usable v (defaults tn kw n pts cyc nc closed))
    (hu : Backed v (defaults tn kw n pts cyc nc closed) u D) {file : Py (List Row)} {l : Lap}
    (hl : laptime v u (defaults tn kw n pts cyc nc closed) file = .ok l) {b : Built} (hb : l.problem = .ok b) {x : List ℝ}
    (hx : x.length = l.S.c.o.L.numDec)
    (best : ∀ y : List ℝ, y.length = l.S.c.o.L.numDec → b.Feasible (vdiv y b.prob.scales) → Within b.bounds.lb b.bounds.ub y →
      ∀ f g, b.prob.objective (vdiv x b.prob.scales) = .ok f → b.prob.objective (vdiv y b.prob.scales) = .ok g → f ≤ g)
    {y : List ℝ} (hy : y.length = l.S.c.o.L.numDec) (hf : b.Feasible (vdiv y b.prob.scales)) (hw : Within b.bounds.lb b.bounds.ub y) :
    lapTime l x ≤ lapTime l y + (∑ s ∈ Finset.range l.S.c.o.L.numStages, readAt l.S.c.o.L y "inputs" "steer" s ^ 2) / (l.S.c.o.L.numStages : ℝ)
      ∧ lapTime l x ≤ lapTime l y + 1 := by
  obtain ⟨_, _, b', _, _, _, hb', hst, _, ho⟩ := C95_feasible hv hc hu hl
  rw [hb, Except.ok.injEq] at hb'
  subst hb'
  obtain ⟨tr, _, hB⟩ := C95_default_bounds hv hc hu hl
  rw [hst] at hw
  have H := (hB y hy).mp hw
  rw [← hst] at hw
  have key := best y hy hf hw _ _ (ho x hx).2 (ho y hy).2
  have hN : (0 : ℝ) < (l.S.c.o.L.numStages : ℝ) := Nat.cast_pos.mpr (numStages_pos _)
  have h0 : 0 ≤ (∑ s ∈ Finset.range l.S.c.o.L.numStages, readAt l.S.c.o.L x "inputs" "steer" s ^ 2) / (l.S.c.o.L.numStages : ℝ) :=
    div_nonneg (Finset.sum_nonneg fun _ _ => sq_nonneg _) hN.le
  have h1 : lapTime l x ≤ lapTime l y + (∑ s ∈ Finset.range l.S.c.o.L.numStages, readAt l.S.c.o.L y "inputs" "steer" s ^ 2) / (l.S.c.o.L.numStages : ℝ) := by
    unfold lapTime
    linarith
  refine ⟨h1, h1.trans ?_⟩
  have h2 : ∑ s ∈ Finset.range l.S.c.o.L.numStages, readAt l.S.c.o.L y "inputs" "steer" s ^ 2 ≤ (l.S.c.o.L.numStages : ℝ) := by
    calc _ ≤ ∑ _s ∈ Finset.range l.S.c.o.L.numStages, (1 : ℝ) := Finset.sum_le_sum fun s hs => by
          have := H.steer s (Finset.mem_range.mp hs)
          exact (sq_le_one_iff_abs_le_one _).mpr this
      _ = _ := by simp
  have h3 := (div_le_one hN).mpr h2
  linarith

/-- 1 km of road, 5 m wide on either side, with LGR of three stages on ten intervals, open: the lap of 20 s. -/
example (q : Four TireParams) (p : Params) (hp : p.rolling_radius = 0.33) : ∃ u l b x, laptime (standardVehicle p q 0 0 1) u
      (defaults "LGR" [("num_stages", 3)] 10 none false [] false) (.ok [⟨0, 0, 5, 5⟩, ⟨500, 0, 5, 5⟩, ⟨1000, 0, 5, 5⟩]) = .ok l ∧
    l.problem = .ok b ∧ b.Feasible (vdiv x b.prob.scales) ∧ Within b.bounds.lb b.bounds.ub x ∧ lapTime l x = 20 := by
  obtain ⟨t, ht, -⟩ := (C38_lgr "LGR" (by simp)).2.1 3 (by norm_num)
  obtain ⟨u, D, l, b, x, -, h1, h2, -, h3, h4, -, h5⟩ := C95_straight p q 0 1 (by rw [hp]; norm_num) (by rw [hp]; norm_num) ht (n := 10) (by norm_num)
    (pts := none) rfl false false (nc := []) (by simp) (by simp) (by simp) (rows := [⟨0, 0, 5, 5⟩, ⟨500, 0, 5, 5⟩, ⟨1000, 0, 5, 5⟩]) (d := [0, 500, 1000])
    (a := 0) (b := 0) (φ := 0) ⟨by unfold Inc; norm_num, by decide, by simp, by simp, by simp, by simp⟩
  refine ⟨u, l, b, x, h1, h2, h3, h4, ?_⟩
  rw [h5]
  simp [Track.at_, pointsOf, linspace01]
  norm_num

end Lumos.Lts
