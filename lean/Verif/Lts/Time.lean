import Verif.Lts.Defaults
import Verif.Trans.RuleOcp
/-!
# The lap time that a feasible point reports
-/

namespace Lumos.Lts

open Lumos DecVar DecVar.Layout Bounds Ocp Lumos.Trans NLP Io Io.Mdl LapSim Track Veh

section
variable {v : Mdl ℝ} {cf : Conf} {u : UnitProblem} {D : List ℝ → ℝ → Prop}

/-- The speed along the centre line at stage `s` of a point. -/
noncomputable def speedAt (l : Lap) (x : List ℝ) (s : Nat) : ℝ := sdot (readAt l.S.c.o.L x "states" · s) (readAt l.S.c.o.L x "inputs" · s)

/-- The lap time of a point. -/
noncomputable def lapTime (l : Lap) (x : List ℝ) : ℝ :=
  readAt l.S.c.o.L x "states" "time" (l.S.c.o.L.numStages - 1) - readAt l.S.c.o.L x "states" "time" 0

/-- What holds at a feasible point of a lap time simulation. -/
theorem feasible_facts (hv : Car v) (hc : Usable v cf) (hu : Backed v cf u D) {file : Py (List Row)} {l : Lap} (hl : laptime v u cf file = .ok l)
    {b : Built} (hb : l.problem = .ok b) {x : List ℝ} (hx : x.length = l.S.c.o.L.numDec) (hf : b.Feasible (vdiv x b.prob.scales)) :
    ∃ t S tr, makeTranscription cf.transcription cf.kwargs = .ok t ∧ Made (vehicleOnTrack v) u t cf S ∧ l.track = some tr ∧
      fromTumCsv file = .ok tr ∧ l.S = rescale S tr.totalDistance ∧ IsSolution l.S x ∧ readScale l.S.c.o x = tr.totalDistance ∧
      ∀ s, s < l.S.c.o.L.numStages → readAt l.S.c.o.L x "states_dot" "time" s = 1 / speedAt l x s := by
  obtain ⟨t, S, b0, tr, ht, hm, hg, hb0, hrd, hs, f1, f2, f3⟩ := laptime_inv hv hc hu hl
  obtain ⟨p1, p2, p3, p4, p5⟩ := hm.plain
  obtain ⟨tr', b', g1, g2, g3, g4, g5⟩ := C69_problem (l := ⟨S, b0.bounds, none⟩) hg p2 p4 hrd hs
  rw [f2, Option.some.injEq] at g1
  subst g1
  rw [hb, Except.ok.injEq] at g2
  subst g2
  have hsol := (g5 x hx).1.mp hf
  obtain ⟨_, tr2, b2, _, _, _, k2, _, _, k3⟩ := C95_feasible hv hc hu hl
  rw [hb, Except.ok.injEq] at k2
  subst k2
  have hst := ((k3 x hx).1.mp hf).1
  refine ⟨t, S, tr, ht, hm, f2, f1, f3, hsol, by unfold readScale; rw [g4], fun s hs' => ?_⟩
  obtain ⟨rv, -, h, -⟩ := hst s hs'
  exact h

/-- The lap time of a feasible point is the length of the track times a weighted mean, over the mesh, of one over the speed along the centre line:
the weights are those of the quadrature rule of the transcription, none is negative, and those of an interval add up to its length. -/
theorem C95_time (hv : Car v) (hc : Usable v cf) (hu : Backed v cf u D) {file : Py (List Row)} {l : Lap} (hl : laptime v u cf file = .ok l)
    {t : Transcription} (ht : makeTranscription cf.transcription cf.kwargs = .ok t) :
    ∃ (tr : RaceTrack) (b : Built) (w : Nat → ℝ), l.track = some tr ∧ l.problem = .ok b ∧ (∀ j, j < t.stages → 0 ≤ w j) ∧
      ∑ j ∈ Finset.range t.stages, w j = 1 ∧
      ∀ x : List ℝ, x.length = l.S.c.o.L.numDec → b.Feasible (vdiv x b.prob.scales) →
        lapTime l x = tr.totalDistance * ∑ i ∈ Finset.range cf.numIntervals,
          ((pointsOf cf.numIntervals cf.intervalPoints).getD (i + 1) 0 - (pointsOf cf.numIntervals cf.intervalPoints).getD i 0) *
            ∑ j ∈ Finset.range t.stages, w j * (1 / speedAt l x (i * (t.stages - 1) + j)) := by
  obtain ⟨t', tr, b, h1, h2, h3, h4, h5, h6, h7⟩ := C95_feasible hv hc hu hl
  rw [ht, Except.ok.injEq] at h1
  subst h1
  obtain ⟨w, hw, hr⟩ := C76_problem ht
  refine ⟨tr, b, w, h3, h4, hw.nonneg, hw.total, fun x hx hf => ?_⟩
  obtain ⟨t', S, tr', ht', hm, e1, e2, e3, hsol, hsc, hdot⟩ := feasible_facts hv hc hu hl h4 hx hf
  rw [ht, Except.ok.injEq] at ht'
  subst ht'
  rw [h3, Option.some.injEq] at e1
  subst e1
  have hU : Trans.Uses l.S.c.o t := by
    rw [e3]
    exact ⟨hm.uses.stages, hm.uses.matA, hm.uses.matB⟩
  obtain ⟨n1, -, n3, -⟩ := hm.names
  have eL : l.S.c.o.L = S.c.o.L := by rw [e3]; rfl
  have eN : l.S.c.o.L.numIntervals = cf.numIntervals := by rw [eL, hm.layout]; rfl
  have := hr l.S hU x hsol 0 "time" "time" (by rw [eL, n1]; rfl) (by rw [eL, n3]; rfl)
  unfold lapTime
  rw [this, hsc, eN]
  congr 1
  refine Finset.sum_congr rfl fun i hi => ?_
  have hi := Finset.mem_range.mp hi
  have elen : l.S.c.o.normLen.getD i 0 = S.c.o.normLen.getD i 0 := by rw [e3]; rfl
  rw [elen, hm.len i hi]
  congr 1
  refine Finset.sum_congr rfl fun j hj => ?_
  have hj := Finset.mem_range.mp hj
  rw [hdot]
  rw [h6]
  obtain ⟨h2', _⟩ := C38_shapes ht
  have : i * (t.stages - 1) + (t.stages - 1) ≤ cf.numIntervals * (t.stages - 1) := by
    calc i * (t.stages - 1) + (t.stages - 1) = (i + 1) * (t.stages - 1) := by ring
      _ ≤ _ := Nat.mul_le_mul_right _ hi
  omega

/-- If the speed along the centre line lies between two positive bounds at every stage, the lap time lies between the length of the (meshed part of the)
track divided by them. -/
theorem C95_time_between (hv : Car v) (hc : Usable v cf) (hu : Backed v cf u D) {file : Py (List Row)} {l : Lap} (hl : laptime v u cf file = .ok l)
    {tr : RaceTrack} (htr : l.track = some tr) {b : Built} (hb : l.problem = .ok b) {x : List ℝ} (hx : x.length = l.S.c.o.L.numDec)
    (hf : b.Feasible (vdiv x b.prob.scales)) {lo hi : ℝ} (hlo : 0 < lo) (h : ∀ s, s < l.S.c.o.L.numStages → lo ≤ speedAt l x s ∧ speedAt l x s ≤ hi) :
    tr.totalDistance * ((pointsOf cf.numIntervals cf.intervalPoints).getD cf.numIntervals 0 - (pointsOf cf.numIntervals cf.intervalPoints).getD 0 0) / hi
      ≤ lapTime l x ∧
    lapTime l x ≤ tr.totalDistance * ((pointsOf cf.numIntervals cf.intervalPoints).getD cf.numIntervals 0
      - (pointsOf cf.numIntervals cf.intervalPoints).getD 0 0) / lo := by
  obtain ⟨t, S, tr', ht, hm, e1, e2, e3, hsol, hsc, hdot⟩ := feasible_facts hv hc hu hl hb hx hf
  rw [htr, Option.some.injEq] at e1
  subst e1
  have hU : Trans.Uses l.S.c.o t := by
    rw [e3]
    exact ⟨hm.uses.stages, hm.uses.matA, hm.uses.matB⟩
  obtain ⟨n1, -, n3, -⟩ := hm.names
  have eL : l.S.c.o.L = S.c.o.L := by rw [e3]; rfl
  have eN : l.S.c.o.L.numIntervals = cf.numIntervals := by rw [eL, hm.layout]; rfl
  have eNl : l.S.c.o.normLen = S.c.o.normLen := by rw [e3]; rfl
  have hD : 0 ≤ tr.totalDistance := by
    obtain ⟨rows, _, _, hcc⟩ := fromTumCsv_inv e2
    exact totalDistance_nonneg hcc
  have := C76_problem_rate ht hU (by rw [eNl, eN, hm.lens]) (by rw [eNl]; exact fun a ha => (hm.pos a ha).le) hsol (by rw [hsc]; exact hD) (k := 0)
    (n := "time") (nd := "time") (by rw [eL, n1]; rfl) (by rw [eL, n3]; rfl) (lo := 1 / hi) (hi := 1 / lo) (by
      intro s hs
      rw [hdot s hs]
      obtain ⟨h1, h2⟩ := h s hs
      exact ⟨one_div_le_one_div_of_le (by linarith) h2, one_div_le_one_div_of_le hlo h1⟩)
  rw [hsc, eNl, hm.total] at this
  unfold lapTime
  constructor
  · have h1 := this.1
    rw [mul_one_div] at h1
    exact h1
  · have h2 := this.2
    rw [mul_one_div] at h2
    exact h2

/-- With the default configuration, on a track whose sides stay on the near side of the centres of curvature (`κ·left` and `-κ·right` at most
`1 - c` at the mesh points) every feasible point within the bounds at which the car moves more forwards than sideways goes forwards along the track at every stage, and its
lap time is at least that at the top speed `√10100` (100 m/s forwards and 10 m/s sideways) on a line shorter by the factor `c`. -/
theorem C95_default_time {tn : String} {kw : List (String × Int)} {n : Nat} {pts : Option (List ℝ)} {cyc : Bool} {nc : List String} {closed : Bool}
    (hv : Car v) (hc : Usable v (defaults tn kw n pts cyc nc closed)) (hu : Backed v (defaults tn kw n pts cyc nc closed) u D)
    {file : Py (List Row)} {l : Lap} (hl : laptime v u (defaults tn kw n pts cyc nc closed) file = .ok l)
    {tr : RaceTrack} (htr : l.track = some tr) {c : ℝ} (hc0 : 0 < c) (hc1 : c ≤ 1)
    (hk : ∀ d ∈ l.S.c.mesh, ∀ κ a b, tr.curvatureAt (d * tr.totalDistance) = .ok κ → tr.leftDistanceAt (d * tr.totalDistance) = .ok a →
      tr.rightDistanceAt (d * tr.totalDistance) = .ok b → κ * a ≤ 1 - c ∧ -(κ * b) ≤ 1 - c)
    {b : Built} (hb : l.problem = .ok b) {x : List ℝ} (hx : x.length = l.S.c.o.L.numDec)
    (hf : b.Feasible (vdiv x b.prob.scales)) (hw : Within b.bounds.lb b.bounds.ub x)
    (hfw : ∀ s, s < l.S.c.o.L.numStages → |readAt l.S.c.o.L x "states" "vy" s| < readAt l.S.c.o.L x "states" "vx" s) :
    (∀ s, s < l.S.c.o.L.numStages → 0 < speedAt l x s ∧ speedAt l x s ≤ Real.sqrt 10100 / c) ∧
    tr.totalDistance * ((pointsOf n pts).getD n 0 - (pointsOf n pts).getD 0 0) * c / Real.sqrt 10100 ≤ lapTime l x := by
  obtain ⟨_, _, b', _, _, _, k2, k4, _, _⟩ := C95_feasible hv hc hu hl
  rw [hb, Except.ok.injEq] at k2
  subst k2
  rw [k4] at hw
  obtain ⟨t, S, tr', ht, hm, e1, e2, e3, hsol, hsc, hdot⟩ := feasible_facts hv hc hu hl hb hx hf
  obtain ⟨tr2, w1, w2⟩ := C95_default_bounds hv hc hu hl
  rw [htr, Option.some.injEq] at w1
  subst w1
  have H := (w2 x hx).mp hw
  have hpts : l.S.c.mesh.length = l.S.c.o.L.numStages := by rw [e3]; exact hm.points
  have hsp : ∀ s, s < l.S.c.o.L.numStages → 0 < speedAt l x s ∧ speedAt l x s ≤ Real.sqrt 10100 / c := by
    intro s hs
    have hden : c ≤ 1 - readAt l.S.c.o.L x "states" "n" s * readAt l.S.c.o.L x "inputs" "track_curvature" s := by
      have hcv := H.curvature s hs
      by_cases h0 : closed = false ∧ s = 0
      · obtain ⟨h1, rfl⟩ := h0
        have : readAt l.S.c.o.L x "states" "n" 0 = 0 := (H.rest h1).1
        rw [this, zero_mul, sub_zero]
        exact hc1
      · obtain ⟨a, b', q1, q2, q3, q4⟩ := H.lateral s hs (fun h1 h2 => h0 ⟨h1, h2⟩)
        have hd : l.S.c.mesh.getD s 0 ∈ l.S.c.mesh := by
          have h : s < l.S.c.mesh.length := by omega
          rw [List.getD_eq_getElem?_getD, List.getElem?_eq_getElem h]
          exact List.getElem_mem h
        obtain ⟨r1, r2⟩ := hk _ hd _ _ _ hcv q1 q2
        generalize readAt l.S.c.o.L x "states" "n" s = y at *
        generalize readAt l.S.c.o.L x "inputs" "track_curvature" s = κ at *
        rcases le_total 0 κ with hκ | hκ <;> nlinarith
    have hcos : |Real.sin (readAt l.S.c.o.L x "states" "eta" s)| ≤ Real.cos (readAt l.S.c.o.L x "states" "eta" s) ∧
        0 < Real.cos (readAt l.S.c.o.L x "states" "eta" s) := by
      have he := H.eta s hs
      generalize readAt l.S.c.o.L x "states" "eta" s = η at *
      have hpi := Real.pi_pos
      obtain ⟨h1, h2⟩ := abs_le.mp he
      have hcp : 0 < Real.cos η := Real.cos_pos_of_mem_Ioo ⟨by linarith, by linarith⟩
      refine ⟨?_, hcp⟩
      have h3 : 0 ≤ Real.cos (2 * η) := Real.cos_nonneg_of_mem_Icc ⟨by linarith, by linarith⟩
      rw [Real.cos_two_mul'] at h3
      exact abs_le_of_sq_le_sq (by linarith) hcp.le
    obtain ⟨v1, v2⟩ := H.vx s hs
    have v3 := H.vy s hs
    have v4 := hfw s hs
    unfold speedAt sdot
    dsimp only
    generalize readAt l.S.c.o.L x "states" "vx" s = vx at *
    generalize readAt l.S.c.o.L x "states" "vy" s = vy at *
    generalize readAt l.S.c.o.L x "states" "eta" s = η at *
    generalize 1 - readAt l.S.c.o.L x "states" "n" s * readAt l.S.c.o.L x "inputs" "track_curvature" s = den at *
    obtain ⟨c1, c2⟩ := hcos
    have hden0 : 0 < den := by linarith
    have hnum : 0 < vx * Real.cos η - vy * Real.sin η := by
      have : vy * Real.sin η ≤ |vy| * |Real.sin η| := by rw [← abs_mul]; exact le_abs_self _
      have h2 : |vy| * |Real.sin η| ≤ |vy| * Real.cos η := mul_le_mul_of_nonneg_left c1 (abs_nonneg _)
      nlinarith
    refine ⟨div_pos hnum hden0, ?_⟩
    have hsq : vx * Real.cos η - vy * Real.sin η ≤ Real.sqrt 10100 := by
      refine Real.le_sqrt_of_sq_le ?_
      have h1 := Real.sin_sq_add_cos_sq η
      have h2 : vy ^ 2 ≤ 100 := by
        have := sq_le_sq' (abs_le.mp v3).1 (abs_le.mp v3).2
        linarith
      have h3 : vx ^ 2 ≤ 10000 := by nlinarith
      have h4 : (vx * Real.cos η - vy * Real.sin η) ^ 2 + (vx * Real.sin η + vy * Real.cos η) ^ 2 = vx ^ 2 + vy ^ 2 := by
        have : (vx * Real.cos η - vy * Real.sin η) ^ 2 + (vx * Real.sin η + vy * Real.cos η) ^ 2
          = (vx ^ 2 + vy ^ 2) * (Real.sin η ^ 2 + Real.cos η ^ 2) := by ring
        rw [this, h1, mul_one]
      nlinarith [sq_nonneg (vx * Real.sin η + vy * Real.cos η)]
    calc (vx * Real.cos η - vy * Real.sin η) / den ≤ Real.sqrt 10100 / den := div_le_div_of_nonneg_right hsq hden0.le
      _ ≤ Real.sqrt 10100 / c := div_le_div_of_nonneg_left (Real.sqrt_nonneg _) hc0 hden
  refine ⟨hsp, ?_⟩
  obtain ⟨s0, hs0, hmin⟩ := Finset.exists_min_image (Finset.range l.S.c.o.L.numStages) (speedAt l x) ⟨0, Finset.mem_range.mpr (numStages_pos _)⟩
  have := (C95_time_between hv hc hu hl htr hb hx hf (hsp s0 (Finset.mem_range.mp hs0)).1 (hi := Real.sqrt 10100 / c)
    fun s hs => ⟨hmin s (Finset.mem_range.mpr hs), (hsp s hs).2⟩).1
  rw [div_div_eq_mul_div] at this
  exact this

end

end Lumos.Lts
