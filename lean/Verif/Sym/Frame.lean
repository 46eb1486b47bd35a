import Verif.Sym.Turn
/-!
# C99: a lap does not depend on where the road lies and where north is: the theorems
-/

namespace Lumos.Sym

open Lumos DecVar DecVar.Layout NLP Bounds Ocp OCP Track LapSim Lts Io Io.Mdl Lumos.Trans Veh

variable {v : Mdl ℝ} {cf : Conf} {u : UnitProblem} {D : List ℝ → ℝ → Prop}

/-- A simulation that exists has a mesh. -/
theorem mesh_of {file : Py (List Row)} {l : Lap} (hl : laptime v u cf file = .ok l) :
    ∃ t mesh, makeTranscription cf.transcription cf.kwargs = .ok t ∧ setMesh t.interp cf.numIntervals cf.intervalPoints = .ok mesh := by
  unfold laptime at hl
  obtain ⟨S, hS, hl⟩ := Config.bind_ok hl
  unfold front at hS
  obtain ⟨t, ht, hS⟩ := Config.bind_ok hS
  obtain ⟨L, hL, hS⟩ := Config.bind_ok hS
  obtain ⟨mesh, hm, hS⟩ := Config.bind_ok hS
  exact ⟨t, mesh, ht, hm⟩

/-- Any other road can be driven with the same car and configuration. -/
theorem other_road (hv : Car v) (hc : Usable v cf) (hu : Backed v cf u D) {file : Py (List Row)} {l : Lap} (hl : laptime v u cf file = .ok l)
    {rows : List Row} (hr : Road rows) : ∃ l', laptime v u cf (.ok rows) = .ok l' := by
  obtain ⟨t, mesh, ht, hm⟩ := mesh_of hl
  obtain ⟨l', tr, h, -⟩ := C95_construct hv hc hu ht hm hr
  exact ⟨l', h⟩

/-- The laps on the road and on the road turned and shifted are the same but for the heading, and cost the same. -/
theorem C99_frame (hv : Car v) (hc : Usable v cf) (hu : Backed v cf u D) (hn : NoHeading cf) {rows : List Row} (hr : Road rows) {l : Lap}
    (hl : laptime v u cf (.ok rows) = .ok l) (φ a b : ℝ) :
    ∃ (turns : ℤ) (l' : Lap), laptime v u cf (.ok (rows.map (Row.turned φ a b))) = .ok l' ∧ l'.S.c.o.L = l.S.c.o.L ∧
      Same l l' (TurnedBy (φ + 2 * Real.pi * turns) l.S.c.o.L) := by
  obtain ⟨l', hl'⟩ := other_road hv hc hu hl (Road.turned hr φ a b)
  obtain ⟨t, S, tr, hm, f⟩ := facts_made hv hc hu hl
  obtain ⟨t', S', tr', hm', f'⟩ := facts_made hv hc hu hl'
  have et : t' = t := by
    have := f'.transcription
    rw [f.transcription, Except.ok.injEq] at this
    exact this.symm
  subst et
  obtain ⟨turns, ha⟩ := turned_alike hr φ a b
  have ha := ha tr tr' f.file f'.file
  set c := φ + 2 * Real.pi * turns with hcdef
  have eL : l'.S.c.o.L = l.S.c.o.L := by rw [f'.layout, f.layout]
  have eM : S'.c.mesh = S.c.mesh := mesh_unique f.transcription hm hm' rfl rfl hc.intervals
  have hk := (C38_shapes f.transcription).1
  have hN : ∀ s g n, l.S.c.o.L.IsVar (.stage s g n) ↔ s < cf.numIntervals * (t'.stages - 1) + 1 ∧ Named cf.conOutputs g n := fun s g n => by
    rw [f.isVar, f.stages]; rfl
  refine ⟨turns, l', hl', eL, same_of f f' eL (turn c) (turn (-c)) ?_ ?_ ?_ ?_⟩
  · intro X g n s
    unfold turn
    split_ifs <;> ring
  · intro X Y g n s h hv
    unfold turn
    rw [h g n hv]
  · intro x x' hx hx' h
    have h' : ∀ s g n, l.S.c.o.L.IsVar (.stage s g n) → readAt l.S.c.o.L x g n s = turn (-c) (readAt l.S.c.o.L x') g n s := fun s g n hv => by
      unfold turn
      rw [h s g n hv]
      unfold turn
      split_ifs <;> ring
    rw [f.lap x, f'.lap x', eL, f.stages, ha.length, eM]
    constructor
    · rintro ⟨-, h2, h3⟩
      refine ⟨hx', runs_turned hk (fun s g n hs hn => h s g n ((hN s g n).mpr ⟨hs, hn⟩)) h2, fun s g n hv => ?_⟩
      rw [h s g n hv]
      exact allowed_turned hn ha (h3 s g n hv)
    · rintro ⟨-, h2, h3⟩
      refine ⟨hx, runs_turned hk (fun s g n hs hn => h' s g n ((hN s g n).mpr ⟨hs, hn⟩)) h2, fun s g n hv => ?_⟩
      rw [h' s g n hv]
      exact allowed_turned hn ha.symm_one (h3 s g n hv)
  · intro x x' h
    have hpos : 0 < l.S.c.o.L.numStages := by rw [f.stages]; omega
    refine cost_congr hpos (fun s hs => ?_) fun s hs => ?_
    · rw [h s "states" "time" ((f.isVar s _ _).mpr ⟨hs, Or.inl ⟨rfl, by decide⟩⟩)]
      simp [turn]
    · rw [h s "inputs" "steer" ((f.isVar s _ _).mpr ⟨hs, Or.inr (Or.inl ⟨rfl, by decide⟩)⟩)]
      simp [turn]

/-- The costs of all laps are the same numbers, and a lap that cannot be beaten is one on the other road as well. -/
theorem C99_best (hv : Car v) (hc : Usable v cf) (hu : Backed v cf u D) (hn : NoHeading cf) {rows : List Row} (hr : Road rows) {l l' : Lap}
    (hl : laptime v u cf (.ok rows) = .ok l) {φ a b : ℝ} (hl' : laptime v u cf (.ok (rows.map (Row.turned φ a b))) = .ok l') :
    costs l' = costs l ∧ ∀ x, IsBest l x → ∃ x', IsBest l' x' ∧ ∀ s n, s < l.S.c.o.L.numStages →
      (n ∈ onTrackNames.states → readAt l'.S.c.o.L x' "states" n s = readAt l.S.c.o.L x "states" n s) ∧
      (n ∈ vehicleNames.inputs → readAt l'.S.c.o.L x' "inputs" n s = readAt l.S.c.o.L x "inputs" n s) := by
  obtain ⟨turns, l'', h1, h2, h3⟩ := C99_frame hv hc hu hn hr hl φ a b
  rw [hl', Except.ok.injEq] at h1
  subst h1
  obtain ⟨t, S, tr, hm, f⟩ := facts_made hv hc hu hl
  refine ⟨h3.costs.symm, fun x hx => ?_⟩
  obtain ⟨x', e1, e2⟩ := h3.total x hx.1.1
  refine ⟨x', (h3.best hx.1.1 e1 e2).mp hx, fun s n hs => ⟨fun hn => ?_, fun hn => ?_⟩⟩
  · rw [h2, e2 s "states" n ((f.isVar s _ _).mpr ⟨hs, Or.inl ⟨rfl, hn⟩⟩)]
    simp
  · rw [h2, e2 s "inputs" n ((f.isVar s _ _).mpr ⟨hs, Or.inr (Or.inl ⟨rfl, vehicle_input hn⟩)⟩)]
    have : n ≠ "track_heading" := by rintro rfl; exact absurd hn (by decide)
    simp [this]

end Lumos.Sym
