import Verif.Sym.Spec
/-!
# A lap in terms of what is read by name
-/

namespace Lumos.Sym

open Lumos DecVar DecVar.Layout NLP Bounds Ocp OCP Track LapSim Lts Io Io.Mdl Lumos.Trans Veh

variable {v : Mdl ℝ} {cf : Conf} {u : UnitProblem} {D : List ℝ → ℝ → Prop}

/-- `StageHolds`, in terms of the values read. -/
def StageOf (v : Mdl ℝ) (con : List String) (X : String → String → Nat → ℝ) (s : Nat) : Prop :=
  ∃ rv, v.eval ⟨some (vehicleNames.states.map fun n => (n, X "states" n s)),
      some (vehicleNames.inputs.map fun n => (n, X "inputs" n s)), none⟩ = .ok rv ∧
    X "states_dot" "time" s = 1 / sdot (X "states" · s) (X "inputs" · s) ∧
    X "states_dot" "n" s = (X "states" "vx" s * Real.sin (X "states" "eta" s)
      + X "states" "vy" s * Real.cos (X "states" "eta" s)) / sdot (X "states" · s) (X "inputs" · s) ∧
    X "states_dot" "eta" s = (X "states" "yaw_rate" s - X "inputs" "track_curvature" s *
      sdot (X "states" · s) (X "inputs" · s)) / sdot (X "states" · s) (X "inputs" · s) ∧
    (∀ n ∈ vehicleNames.states, X "states_dot" n s = val rv.statesDot n / sdot (X "states" · s) (X "inputs" · s)) ∧
    (∀ k, ("vehicle" ++ "." ++ k) ∈ con → rv.outputs.lookup k = some (X "con_outputs" ("vehicle" ++ "." ++ k) s)) ∧
    ("kinematics.yaw_angle" ∈ con → X "con_outputs" "kinematics.yaw_angle" s
      = X "states" "eta" s + X "inputs" "track_heading" s) ∧
    ("kinematics.curvature" ∈ con → X "con_outputs" "kinematics.curvature" s = X "inputs" "track_curvature" s) ∧
    ∀ n ∈ v.names.residuals, rv.outputs.lookup n = some 0

theorem stageOf_iff (v : Mdl ℝ) (con : List String) (L : Layout) (x : List ℝ) (s : Nat) :
    StageHolds v con L x s ↔ StageOf v con (readAt L x) s := Iff.rfl

/-- The constraints of C95, in terms of the values read. -/
structure Runs (v : Mdl ℝ) (cf : Conf) (t : Transcription) (N : Nat) (length : ℝ) (X : String → String → Nat → ℝ) : Prop where
  stages : ∀ s, s < N → StageOf v cf.conOutputs X s
  steps : ∀ i, i < cf.numIntervals → ∀ n ∈ onTrackNames.states, Steps t
    (fun j => X "states" n (i * (t.stages - 1) + j)) (fun j => X "states_dot" n (i * (t.stages - 1) + j))
    (((pointsOf cf.numIntervals cf.intervalPoints).getD (i + 1) 0 - (pointsOf cf.numIntervals cf.intervalPoints).getD i 0) * length)
  closes : cf.isCyclic = true →
    (∀ n ∈ onTrackNames.states, n ≠ "time" → ("states." ++ n) ∉ cf.nonCyclic → X "states" n 0 = X "states" n (N - 1)) ∧
    ∀ n ∈ onTrackNames.inputs, n ≠ "track_heading" → ("inputs." ++ n) ∉ cf.nonCyclic → X "inputs" n 0 = X "inputs" n (N - 1)

/-- The objective of C95. -/
noncomputable def costOf (N : Nat) (X : String → String → Nat → ℝ) : ℝ :=
  X "states" "time" (N - 1) - X "states" "time" 0 + (∑ s ∈ Finset.range N, X "inputs" "steer" s ^ 2) / (N : ℝ)

/-- Everything that is known of a lap time simulation. -/
structure Facts (v : Mdl ℝ) (u : UnitProblem) (cf : Conf) (file : Py (List Row)) (l : Lap) (t : Transcription) (tr : RaceTrack) (mesh : List ℝ) : Prop where
  transcription : makeTranscription cf.transcription cf.kwargs = .ok t
  file : fromTumCsv file = .ok tr
  track : l.track = some tr
  layout : l.S.c.o.L = layoutOf ((vehicleOnTrack v).explicit cf.conOutputs) cf.numIntervals t.stages
  layoutMade : l.S.c.o.L.Made
  stages : l.S.c.o.L.numStages = cf.numIntervals * (t.stages - 1) + 1
  grid : l.S.c.mesh = mesh
  isVar : ∀ s g n, l.S.c.o.L.IsVar (.stage s g n) ↔ s < l.S.c.o.L.numStages ∧ ((g = "states" ∧ n ∈ onTrackNames.states) ∨
    (g = "inputs" ∧ n ∈ onTrackNames.inputs) ∨ (g = "states_dot" ∧ n ∈ onTrackNames.states) ∨ (g = "con_outputs" ∧ n ∈ cf.conOutputs))
  lap : ∀ x, IsLap l x ↔ x.length = l.S.c.o.L.numDec ∧ Runs v cf t l.S.c.o.L.numStages tr.totalDistance (readAt l.S.c.o.L x) ∧
    ∀ s g n, l.S.c.o.L.IsVar (.stage s g n) → Allowed l.S.c.o.L cf tr (mesh.getD s 0 * tr.totalDistance) s g n (readAt l.S.c.o.L x g n s)
  cost : ∀ x T, x.length = l.S.c.o.L.numDec → (Costs l x T ↔ T = costOf l.S.c.o.L.numStages (readAt l.S.c.o.L x))

/-- The mesh is determined by the transcription and the interval points. -/
theorem mesh_unique {m m' : Mdl ℝ} {u u' : UnitProblem} {t : Transcription} {cf cf' : Conf} {S S' : Setup}
    (ht : makeTranscription cf.transcription cf.kwargs = .ok t) (h : Made m u t cf S) (h' : Made m' u' t cf' S')
    (hn : cf'.numIntervals = cf.numIntervals) (hp : cf'.intervalPoints = cf.intervalPoints) (h1 : 1 ≤ cf.numIntervals) :
    S'.c.mesh = S.c.mesh := by
  have hk := (C38_shapes ht).1
  have e : S.c.o.L.numStages = cf.numIntervals * (t.stages - 1) + 1 := by rw [h.layout]; rfl
  have e' : S'.c.o.L.numStages = cf.numIntervals * (t.stages - 1) + 1 := by rw [h'.layout, ← hn]; rfl
  apply List.ext_getElem?
  intro s
  by_cases hs : s < cf.numIntervals * (t.stages - 1) + 1
  · obtain ⟨i, j, hi, hj, rfl⟩ : ∃ i j, i < cf.numIntervals ∧ j < t.stages ∧ s = i * (t.stages - 1) + j := by
      obtain ⟨k, hk'⟩ : ∃ k, t.stages - 1 = k + 1 := ⟨t.stages - 2, by omega⟩
      rw [hk'] at hs ⊢
      by_cases hs' : s < cf.numIntervals * (k + 1)
      · refine ⟨s / (k + 1), s % (k + 1), Nat.div_lt_of_lt_mul (by rwa [Nat.mul_comm]), ?_, ?_⟩
        · have := Nat.mod_lt s (show 0 < k + 1 by omega)
          omega
        · rw [Nat.mul_comm]
          exact (Nat.div_add_mod s (k + 1)).symm
      · refine ⟨cf.numIntervals - 1, k + 1, by omega, by omega, ?_⟩
        have : cf.numIntervals * (k + 1) = (cf.numIntervals - 1) * (k + 1) + (k + 1) := by
          obtain ⟨n, hn⟩ : ∃ n, cf.numIntervals = n + 1 := ⟨cf.numIntervals - 1, by omega⟩
          rw [hn, Nat.add_sub_cancel, Nat.add_mul, Nat.one_mul]
        omega
    have a := h.stage i j hi hj
    have b := h'.stage i j (by omega) hj
    rw [hn, hp] at b
    rw [a, b]
  · rw [List.getElem?_eq_none (by rw [h'.points, e']; omega), List.getElem?_eq_none (by rw [h.points, e]; omega)]

theorem facts_made (hv : Car v) (hc : Usable v cf) (hu : Backed v cf u D) {file : Py (List Row)} {l : Lap} (hl : laptime v u cf file = .ok l) :
    ∃ t S tr, Made (vehicleOnTrack v) u t cf S ∧ Facts v u cf file l t tr S.c.mesh := by
  obtain ⟨t, S, b0, tr, ht, hm, hg, hb0, hrd, hs, f1, f2, f3⟩ := laptime_inv hv hc hu hl
  obtain ⟨t', tr', b, g1, g2, g3, g4, g5, g6, g7⟩ := C95_feasible hv hc hu hl
  obtain ⟨tr'', k1, k2⟩ := C95_bounds hv hc hu hl
  rw [ht, Except.ok.injEq] at g1
  subst g1
  rw [f1, Except.ok.injEq] at g2
  subst g2
  rw [f2, Option.some.injEq] at k1
  subst k1
  have eL : l.S.c.o.L = S.c.o.L := by rw [f3]; rfl
  have eM : l.S.c.mesh = S.c.mesh := by rw [f3]; rfl
  have eLay : l.S.c.o.L = layoutOf ((vehicleOnTrack v).explicit cf.conOutputs) cf.numIntervals t.stages := eL.trans hm.layout
  refine ⟨t, S, tr, hm, ht, f1, f2, eLay, ?_, g6, eM, ?_, ?_, ?_⟩
  · rw [eL]; exact hg.cond.ocp.made
  · intro s g n
    have := isVar_iff ((vehicleOnTrack v).explicit cf.conOutputs) cf.numIntervals t.stages s g n
    rw [← eLay] at this
    rw [this]
    have e1 : ((vehicleOnTrack v).explicit cf.conOutputs).states = onTrackNames.states := by
      unfold Io.Mdl.explicit; dsimp only; rw [onTrack_names]; rfl
    have e2 : ((vehicleOnTrack v).explicit cf.conOutputs).inputs = onTrackNames.inputs := by
      unfold Io.Mdl.explicit; dsimp only; rw [onTrack_names]; rfl
    have e3 : ((vehicleOnTrack v).explicit cf.conOutputs).conOutputs = cf.conOutputs := rfl
    rw [e1, e2, e3]
  · intro x
    constructor
    · rintro ⟨hx, b', hb', h1, h2⟩
      rw [g4, Except.ok.injEq] at hb'
      subst hb'
      obtain ⟨p1, p2, p3⟩ := (g7 x hx).1.mp h1
      rw [g5] at h2
      refine ⟨hx, ⟨p1, p2, p3⟩, ?_⟩
      have := (k2 x hx).mp h2
      rwa [eM] at this
    · rintro ⟨hx, ⟨p1, p2, p3⟩, h2⟩
      refine ⟨hx, b, g4, (g7 x hx).1.mpr ⟨p1, p2, p3⟩, ?_⟩
      rw [g5]
      refine (k2 x hx).mpr ?_
      rwa [eM]
  · intro x T hx
    constructor
    · rintro ⟨b', hb', h⟩
      rw [g4, Except.ok.injEq] at hb'
      subst hb'
      rw [(g7 x hx).2, Except.ok.injEq] at h
      exact h.symm
    · rintro rfl
      exact ⟨b, g4, (g7 x hx).2⟩

/-- Two simulations whose laps correspond, at equal cost. -/
structure Same (l l' : Lap) (R : List ℝ → List ℝ → Prop) : Prop where
  total : ∀ x, x.length = l.S.c.o.L.numDec → ∃ x', x'.length = l'.S.c.o.L.numDec ∧ R x x'
  onto : ∀ x', x'.length = l'.S.c.o.L.numDec → ∃ x, x.length = l.S.c.o.L.numDec ∧ R x x'
  lap : ∀ x x', x.length = l.S.c.o.L.numDec → x'.length = l'.S.c.o.L.numDec → R x x' → (IsLap l x ↔ IsLap l' x')
  cost : ∀ x x' T, x.length = l.S.c.o.L.numDec → x'.length = l'.S.c.o.L.numDec → R x x' → (Costs l x T ↔ Costs l' x' T)

theorem Same.costs {l l' : Lap} {R : List ℝ → List ℝ → Prop} (h : Same l l' R) : costs l = costs l' := by
  ext T
  constructor
  · rintro ⟨x, h1, h2⟩
    obtain ⟨x', hx', hR⟩ := h.total x h1.1
    exact ⟨x', (h.lap x x' h1.1 hx' hR).mp h1, (h.cost x x' T h1.1 hx' hR).mp h2⟩
  · rintro ⟨x', h1, h2⟩
    obtain ⟨x, hx, hR⟩ := h.onto x' h1.1
    exact ⟨x, (h.lap x x' hx h1.1 hR).mpr h1, (h.cost x x' T hx h1.1 hR).mpr h2⟩

theorem Same.best {l l' : Lap} {R : List ℝ → List ℝ → Prop} (h : Same l l' R) {x x' : List ℝ} (hx : x.length = l.S.c.o.L.numDec)
    (hx' : x'.length = l'.S.c.o.L.numDec) (hR : R x x') : IsBest l x ↔ IsBest l' x' := by
  unfold IsBest
  rw [h.lap x x' hx hx' hR, h.costs]
  constructor
  · rintro ⟨h1, T, h2, h3⟩
    exact ⟨h1, T, (h.cost x x' T hx hx' hR).mp h2, h3⟩
  · rintro ⟨h1, T, h2, h3⟩
    exact ⟨h1, T, (h.cost x x' T hx hx' hR).mpr h2, h3⟩

/-- A correspondence of the values read that can be undone. -/
theorem same_of {v' : Mdl ℝ} {cf' : Conf} {u' : UnitProblem} {file file' : Py (List Row)} {l l' : Lap} {t t' : Transcription} {tr tr' : RaceTrack}
    {mesh mesh' : List ℝ} (f : Facts v u cf file l t tr mesh) (f' : Facts v' u' cf' file' l' t' tr' mesh') (eL : l'.S.c.o.L = l.S.c.o.L)
    (F G : (String → String → Nat → ℝ) → String → String → Nat → ℝ) (hGF : ∀ X g n s, F (G X) g n s = X g n s)
    (hF : ∀ X Y g n s, (∀ g n, l.S.c.o.L.IsVar (.stage s g n) → X g n s = Y g n s) → l.S.c.o.L.IsVar (.stage s g n) → F X g n s = F Y g n s)
    (hlap : ∀ x x', x.length = l.S.c.o.L.numDec → x'.length = l.S.c.o.L.numDec →
      (∀ s g n, l.S.c.o.L.IsVar (.stage s g n) → readAt l.S.c.o.L x' g n s = F (readAt l.S.c.o.L x) g n s) → (IsLap l x ↔ IsLap l' x'))
    (hcost : ∀ x x', (∀ s g n, l.S.c.o.L.IsVar (.stage s g n) → readAt l.S.c.o.L x' g n s = F (readAt l.S.c.o.L x) g n s) →
      costOf l.S.c.o.L.numStages (readAt l.S.c.o.L x') = costOf l.S.c.o.L.numStages (readAt l.S.c.o.L x)) :
    Same l l' (fun x x' => ∀ s g n, l.S.c.o.L.IsVar (.stage s g n) → readAt l.S.c.o.L x' g n s = F (readAt l.S.c.o.L x) g n s) where
  total := fun x hx => by
    obtain ⟨x', h1, h2⟩ := exists_point f.layoutMade (F (readAt l.S.c.o.L x))
    exact ⟨x', by rw [eL]; exact h1, h2⟩
  onto := fun x' hx' => by
    obtain ⟨x, h1, h2⟩ := exists_point f.layoutMade (G (readAt l.S.c.o.L x'))
    refine ⟨x, h1, fun s g n hv => ?_⟩
    rw [hF _ _ g n s (fun g n h => h2 s g n h) hv, hGF]
  lap := fun x x' hx hx' hR => hlap x x' hx (by rw [← eL]; exact hx') hR
  cost := fun x x' T hx hx' hR => by
    rw [f.cost x T hx, f'.cost x' T hx', eL, hcost x x' hR]

end Lumos.Sym
