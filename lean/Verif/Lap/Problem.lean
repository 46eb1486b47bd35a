import Verif.Lap.SetTrack
import Verif.Ocp.MeshScale
/-!
# C69: constructing a lap time simulation, and the problem it presents to the solver
-/

namespace Lumos.LapSim

open Lumos DecVar DecVar.Layout Bounds Ocp Track Io NLP

/-- The setup with which the problem is built, before the track is set. -/
noncomputable def start (S : Setup) : Setup := rescale { S with builtScale := some 1, laptime := true } 1

theorem Good.rescale {S : Setup} {D : List ℝ → ℝ → Prop} (h : S.Good D) (hf : S.c.o.fixedScale ≠ none) (hc : S.isCondensed = false) (ms : ℝ) :
    (LapSim.rescale S ms).Good D := by
  obtain ⟨h1, h2, h3, h4, h5, h6, h7, h8, h9, h10, h11, h12, h13, h14, h15⟩ := h
  obtain ⟨st, c2, c3, c4, c5, c6, c7, c8, c9⟩ := h1
  obtain ⟨⟨g1, g2, g3, g4, g5, g6, g7, g8, g9, g10⟩, w, q⟩ := st
  refine ⟨⟨⟨⟨g1, g2, g3, g4, g5, g6, g7, g8, g9, ?_⟩, w, q⟩, c2, c3, c4, c5, c6, c7, c8, c9⟩, h2, h3, ?_, ?_, ?_, ?_, fun _ => h8 hf, h9, h10,
    h11, ?_, h13, h14, h15⟩
  · exact g10.trans (by simp [LapSim.rescale, hf])
  · exact Or.inl (by simp [LapSim.rescale])
  · exact h5.trans (by simp [LapSim.rescale, hf])
  · intro hl
    exact ⟨by simp [LapSim.rescale], (h6 hl).2⟩
  · intro hn
    simp [LapSim.rescale] at hn
  · intro hcd
    have : S.isCondensed = true := hcd
    rw [hc] at this
    exact absurd this (by simp)

/-- A built problem of a vehicle on a track is ready for a track. -/
theorem ready_of_build {S : Setup} {D : List ℝ → ℝ → Prop} (h : S.Good D) (hcv : "track_curvature" ∈ S.c.o.L.namesOf "inputs")
    (hh : "track_heading" ∈ S.c.o.L.namesOf "inputs") (hn : "n" ∈ S.c.o.L.namesOf "states") {b : Built} (hb : S.build = .ok b) :
    Ready ⟨S, b.bounds, none⟩ := by
  obtain ⟨b', o, s, hb', _, _, _, _, _, _, _, hu, hbc, _⟩ := build_ok h
  rw [hb, Except.ok.injEq] at hb'
  subst hb'
  have hl := updateBounds_length (by simp [Bounds.fresh]) (by simp [Bounds.fresh]) hu
  have hl2 := run_length S.c.o.L s hl.1 hl.2 (.updateBCs S.bcs)
  simp only [Call.run, hbc] at hl2
  have hbcs := run_bcs S.c.o.L s (.updateBCs S.bcs)
  simp only [Call.run, hbc, givenBCs, List.append_nil] at hbcs
  refine ⟨h.cond.ocp.made, h.cond.stage.points, hl2.1, hl2.2, group_mem h (by simp), group_mem h (by simp), hcv, hh, hn, ?_⟩
  show (applyBCs S.c.o.L b.bounds).2 = none
  have : (Bounds.updateBCs S.c.o.L s S.bcs).2 = none := by rw [hbc]
  unfold Bounds.updateBCs applyBCs at this
  dsimp only at this
  unfold applyBCs
  rw [hbcs, setAll_err _ _ _ { s with bcs := s.bcs ++ S.bcs }]
  exact this

/-- **C69**: constructing a lap time simulation builds the problem (C47, C48) and then sets the track; it raises what that raises. -/
theorem C69_construct {S : Setup} {D : List ℝ → ℝ → Prop} (h : (start S).Good D) (hcv : "track_curvature" ∈ S.c.o.L.namesOf "inputs")
    (hh : "track_heading" ∈ S.c.o.L.namesOf "inputs") (hn : "n" ∈ S.c.o.L.namesOf "states") (file : Py (List Row)) :
    ∃ b, (start S).build = .ok b ∧ Ready ⟨start S, b.bounds, none⟩ ∧
      ∀ l' o, Lap.setTrack ⟨start S, b.bounds, none⟩ file = (l', o) →
        (o = none → Lap.make S file = .ok l') ∧ ∀ e, o = some e → Lap.make S file = .error e := by
  obtain ⟨b, hb, _⟩ := C47_build h
  refine ⟨b, hb, ready_of_build h hcv hh hn hb, ?_⟩
  intro l' o ho
  have e : Lap.make S file = orRaise (Lap.setTrack ⟨start S, b.bounds, none⟩ file) := by
    unfold Lap.make
    have hb' : (LapSim.rescale { S with builtScale := some 1, laptime := true } 1).build = .ok b := hb
    simp only [bind, Except.bind, hb']
    rfl
  rw [e, ho]
  exact ⟨fun h => by rw [h]; rfl, fun e h => by rw [h]; rfl⟩

/-- **C69**: the problem that is solved after setting a track (not condensed; see C68 for condensed ones): its bounds are the current
ones, its constraints hold exactly at the solutions of the discretised problem on the mesh of the new track, and its objective is
the lap time plus the mean square of the steer. -/
theorem C69_problem {l l' : Lap} {D : List ℝ → ℝ → Prop} (hg : l.S.Good D) (hlap : l.S.laptime = true) (hcd : l.S.isCondensed = false) (h : Ready l)
    {file : Py (List Row)} (hr : l.setTrack file = (l', none)) :
    ∃ t b, l'.track = some t ∧ l'.problem = .ok b ∧ b.bounds = l'.st ∧ l'.S.c.o.fixedScale = some t.totalDistance ∧
      ∀ x : List ℝ, x.length = l'.S.c.o.L.numDec →
        (b.Feasible (vdiv x b.prob.scales) ↔ IsSolution l'.S x) ∧
        b.prob.objective (vdiv x b.prob.scales) = .ok (readAt l'.S.c.o.L x "states" "time" (l'.S.c.o.L.numStages - 1)
          - readAt l'.S.c.o.L x "states" "time" 0
          + (∑ s ∈ Finset.range l'.S.c.o.L.numStages, readAt l'.S.c.o.L x "inputs" "steer" s ^ 2) / (l'.S.c.o.L.numStages : ℝ)) := by
  obtain ⟨t, _, ht, hS, _⟩ := C69_bounds h hr
  have hf := (hg.lap hlap).1
  have hg' : l'.S.Good D := hS ▸ Good.rescale hg hf hcd _
  have hcd' : l'.S.isCondensed = false := by rw [hS]; exact hcd
  have hlap' : l'.S.laptime = true := by rw [hS]; exact hlap
  have hfix : l'.S.c.o.fixedScale = some t.totalDistance := by rw [hS]; rfl
  obtain ⟨b, hb, _⟩ := C47_build hg'
  refine ⟨t, { b with bounds := l'.st }, ht, ?_, rfl, hfix, ?_⟩
  · unfold Lap.problem
    simp only [bind, Except.bind, hb]
    rfl
  · intro x hx
    refine ⟨C47_lifted hg' hcd' hb hx, ?_⟩
    have := C47_objective hg' hb hx
    rw [hfix, if_pos hlap'] at this
    exact this

theorem within_at {lb ub : List EReal} {x : List ℝ} (h : Within lb ub x) {i : Nat} (hi : i < x.length) {a b : EReal} (ha : lb[i]? = some a)
    (hb : ub[i]? = some b) : a ≤ ((x.getD i 0 : ℝ) : EReal) ∧ ((x.getD i 0 : ℝ) : EReal) ≤ b := by
  have := h i hi
  rwa [List.getD_eq_getElem?_getD, ha, List.getD_eq_getElem?_getD (l := ub), hb] at this

/-- At a point within the bounds, the track curvature and heading variables have the values of the track, and the car is between
its sides. -/
theorem C69_point {l l' : Lap} (h : Ready l) {file : Py (List Row)} (hr : l.setTrack file = (l', none)) {t : RaceTrack}
    (ht : l'.track = some t) (hbc : ∀ c ∈ l.st.bcs, fullName c.group c.name ≠ "inputs.track_curvature" ∧
      fullName c.group c.name ≠ "inputs.track_heading" ∧ fullName c.group c.name ≠ "states.n")
    {x : List ℝ} (hx : x.length = l.S.c.o.L.numDec) (hw : Within l'.st.lb l'.st.ub x) {s : Nat} {d : ℝ} (hd : l.S.c.mesh[s]? = some d) :
    t.curvatureAt (d * t.totalDistance) = .ok (readAt l.S.c.o.L x "inputs" "track_curvature" s) ∧
    t.headingAt (d * t.totalDistance) = .ok (readAt l.S.c.o.L x "inputs" "track_heading" s) ∧
    ∃ a b, t.leftDistanceAt (d * t.totalDistance) = .ok a ∧ t.rightDistanceAt (d * t.totalDistance) = .ok b ∧
      -b ≤ readAt l.S.c.o.L x "states" "n" s ∧ readAt l.S.c.o.L x "states" "n" s ≤ a := by
  obtain ⟨t', _, ht', _, _, hv⟩ := C69_bounds h hr
  rw [ht, Option.some.injEq] at ht'
  subst ht'
  have hs : s < l.S.c.o.L.numStages := by
    rw [← h.points]
    exact (List.getElem?_eq_some_iff.mp hd).1
  have hmd : (l.S.c.mesh.map (· * t.totalDistance))[s]? = some (d * t.totalDistance) := by simp [hd]
  have no : ∀ g n, (∀ c ∈ l.st.bcs, fullName c.group c.name ≠ fullName g n) →
      lastMention l.S.c.o.L (l.st.bcs.map BC.req) (.stage s g n) = none := by
    intro g n hne
    unfold lastMention
    rw [List.find?_eq_none]
    intro r hr
    rw [List.mem_reverse, List.mem_map] at hr
    obtain ⟨c, hc, rfl⟩ := hr
    simp only [decide_eq_true_eq]
    rintro ⟨_, e, _⟩
    exact hne c hc e
  have val : ∀ g n, g ∈ l.S.c.o.L.groups → n ∈ l.S.c.o.L.namesOf g → ∃ i, l.S.c.o.L.query (.stage s g n) = .ok (.scalar i) ∧
      i < x.length ∧ readAt l.S.c.o.L x g n s = x.getD i 0 := by
    intro g n hgm hn
    obtain ⟨i, hi, hlt⟩ := C01_index_in_range h.made (isVar_of hgm hn hs)
    refine ⟨i, hi, by omega, ?_⟩
    have : l.S.c.o.L.indexInDec g n (some (s : Int)) = .ok (.scalar i) := hi
    unfold readAt getVar
    simp only [this, bind, Except.bind, getIdx, getAt]
    rw [List.getElem?_eq_getElem (by omega)]
    simp [hx, hlt, pure, Except.pure]
  refine ⟨?_, ?_, ?_⟩
  · obtain ⟨i, hi, hlt, hread⟩ := val _ _ h.inputs h.curvature
    obtain ⟨lo, hi', hl, e1, e2⟩ := ((hv _ i (h.var_curvature hs) hi).2 (no _ _ fun c hc => (hbc c hc).1)).1 (Or.inl ⟨rfl, Or.inl rfl⟩)
    obtain ⟨k1, k2⟩ := within_at hw hlt e1 e2
    rw [hread]
    obtain ⟨d', c, g1, g2, rfl, rfl⟩ := hl.at_curvature
    rw [hmd, Option.some.injEq] at g1
    subst g1
    rw [EReal.coe_le_coe_iff] at k1 k2
    rw [g2, le_antisymm k1 k2]
  · obtain ⟨i, hi, hlt, hread⟩ := val _ _ h.inputs h.heading
    obtain ⟨lo, hi', hl, e1, e2⟩ := ((hv _ i (h.var_heading hs) hi).2 (no _ _ fun c hc => (hbc c hc).2.1)).1 (Or.inl ⟨rfl, Or.inr rfl⟩)
    obtain ⟨k1, k2⟩ := within_at hw hlt e1 e2
    rw [hread]
    obtain ⟨d', c, g1, g2, rfl, rfl⟩ := hl.at_heading
    rw [hmd, Option.some.injEq] at g1
    subst g1
    rw [EReal.coe_le_coe_iff] at k1 k2
    rw [g2, le_antisymm k1 k2]
  · obtain ⟨i, hi, hlt, hread⟩ := val _ _ h.states h.lateral
    obtain ⟨lo, hi', hl, e1, e2⟩ := ((hv _ i (h.var_lateral hs) hi).2 (no _ _ fun c hc => (hbc c hc).2.2)).1 (Or.inr ⟨rfl, rfl⟩)
    obtain ⟨k1, k2⟩ := within_at hw hlt e1 e2
    rw [hread]
    obtain ⟨d', a, b, g1, g2, g3, rfl, rfl⟩ := hl.at_lateral
    rw [hmd, Option.some.injEq] at g1
    subst g1
    rw [EReal.coe_le_coe_iff] at k1 k2
    exact ⟨_, _, g2, g3, k1, k2⟩

/-- **C69, finding**: the track curvature stays cyclic (only the time and the track heading are excluded, laptime_simulation.py:131).
So a cyclic problem on a track whose curvature at the first and the last mesh point differs, be it by the finite differences alone,
has no point that satisfies the bounds and the constraints. -/
theorem C69_cyclic_infeasible {l l' : Lap} (h : Ready l) {file : Py (List Row)} (hr : l.setTrack file = (l', none))
    {t : RaceTrack} (ht : l'.track = some t) (hbc : ∀ c ∈ l.st.bcs, fullName c.group c.name ≠ "inputs.track_curvature" ∧
      fullName c.group c.name ≠ "inputs.track_heading" ∧ fullName c.group c.name ≠ "states.n")
    (hcyc : l.S.isCyclic = true) (hnc : "inputs.track_curvature" ∉ l.S.nonCyclic) {d0 d1 : ℝ} (h0 : l.S.c.mesh.head? = some d0)
    (h1 : l.S.c.mesh.getLast? = some d1) (hne : t.curvatureAt (d0 * t.totalDistance) ≠ t.curvatureAt (d1 * t.totalDistance)) :
    ¬ ∃ x : List ℝ, x.length = l.S.c.o.L.numDec ∧ Within l'.st.lb l'.st.ub x ∧ IsSolution l'.S x := by
  rintro ⟨x, hx, hw, hsol⟩
  obtain ⟨t', _, ht', hS, _⟩ := C69_bounds h hr
  have hp := hsol.periodic (by rw [hS]; exact hcyc) "inputs" "track_curvature" (Or.inr rfl) (by rw [hS]; exact h.curvature)
    (by rw [hS]; exact hnc)
  rw [hS] at hp
  have hp : readAt l.S.c.o.L x "inputs" "track_curvature" 0 = readAt l.S.c.o.L x "inputs" "track_curvature" (l.S.c.o.L.numStages - 1) := hp
  have g0 : l.S.c.mesh[0]? = some d0 := by rw [← h0]; exact List.head?_eq_getElem?.symm
  have g1 : l.S.c.mesh[l.S.c.o.L.numStages - 1]? = some d1 := by rw [← h1, List.getLast?_eq_getElem?, h.points]
  have c0 := (C69_point h hr ht hbc hx hw g0).1
  have c1 := (C69_point h hr ht hbc hx hw g1).1
  exact hne (by rw [c0, c1, hp])

end Lumos.LapSim
