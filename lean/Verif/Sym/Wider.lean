import Verif.Sym.MirrorLap
/-!
# C101: more room never costs time
-/

namespace Lumos.Sym

open Lumos DecVar DecVar.Layout NLP Bounds Ocp OCP Track LapSim Lts Io Io.Mdl Lumos.Trans Veh

variable {v : Mdl ℝ} {cf cf' : Conf} {u u' : UnitProblem} {D D' : List ℝ → ℝ → Prop}

/-- Bounds of the same variable that are not tighter. -/
structure NotTighter (b b' : BoundConfig EReal) : Prop where
  group : b'.group = b.group
  name : b'.name = b.name
  lower : ∀ i a, b.lb.at i = some a → ∃ a', b'.lb.at i = some a' ∧ a' ≤ a
  upper : ∀ i a, b.ub.at i = some a → ∃ a', b'.ub.at i = some a' ∧ a ≤ a'

/-- A configuration that asks for less: the lap need not close if it need not before, more variables may differ between start and end, the bounds
are not tighter. The scales may differ. -/
structure Looser (cf cf' : Conf) : Prop where
  transcription : cf'.transcription = cf.transcription
  kwargs : cf'.kwargs = cf.kwargs
  intervals : cf'.numIntervals = cf.numIntervals
  points : cf'.intervalPoints = cf.intervalPoints
  outputs : cf'.conOutputs = cf.conOutputs
  bcs : cf'.bcs = cf.bcs
  cyclic : cf'.isCyclic = true → cf.isCyclic = true
  open' : ∀ w ∈ cf.nonCyclic, w ∈ cf'.nonCyclic
  bounds : List.Forall₂ NotTighter cf.bounds cf'.bounds

theorem Looser.refl (cf : Conf) : Looser cf cf :=
  ⟨rfl, rfl, rfl, rfl, rfl, rfl, id, fun _ h => h, List.forall₂_same.mpr fun _ _ => ⟨rfl, rfl, fun _ a h => ⟨a, h, le_rfl⟩, fun _ a h => ⟨a, h, le_rfl⟩⟩⟩

theorem mentions_wider {b b' : BoundConfig EReal} (h : NotTighter b b') (L : Layout) (w : Var) : b'.req.Mentions L w ↔ b.req.Mentions L w := by
  unfold Req.Mentions BoundConfig.req
  cases w <;> simp [h.group, h.name]

theorem find_wider {L : Layout} {w : Var} {bs bs' : List (BoundConfig EReal)} (h : List.Forall₂ NotTighter bs bs') :
    ((bs.map BoundConfig.req).find? (fun r => decide (r.Mentions L w)) = none ∧ (bs'.map BoundConfig.req).find? (fun r => decide (r.Mentions L w)) = none) ∨
    ∃ b b', NotTighter b b' ∧ (bs.map BoundConfig.req).find? (fun r => decide (r.Mentions L w)) = some b.req ∧
      (bs'.map BoundConfig.req).find? (fun r => decide (r.Mentions L w)) = some b'.req := by
  induction h with
  | nil => exact Or.inl ⟨rfl, rfl⟩
  | @cons b b' bs bs' hb _ ih =>
    by_cases hm : b.req.Mentions L w
    · refine Or.inr ⟨b, b', hb, ?_, ?_⟩
      · simp [hm]
      · simp [(mentions_wider hb L w).mpr hm]
    · have hm' : ¬ b'.req.Mentions L w := fun h => hm ((mentions_wider hb L w).mp h)
      simpa [hm, hm'] using ih

theorem inside_wider {L : Layout} {bs bs' : List (BoundConfig EReal)} (h : List.Forall₂ NotTighter bs bs') {s : Nat} {g n : String} {a : ℝ}
    (H : Sim.Inside (Sim.limits L bs [] (.stage s g n)) a) : Sim.Inside (Sim.limits L bs' [] (.stage s g n)) a := by
  have hr : List.Forall₂ NotTighter bs.reverse bs'.reverse := by
    rw [List.forall₂_reverse_iff]; exact h
  unfold Sim.limits at H ⊢
  have e0 : lastMention L (([] : List (BC EReal)).map BC.req) (.stage s g n) = none := rfl
  rw [e0] at H ⊢
  dsimp only at H ⊢
  unfold lastMention at H ⊢
  rw [← List.map_reverse] at H ⊢
  rcases find_wider (L := L) (w := .stage s g n) hr with ⟨h1, h2⟩ | ⟨b, b', hb, h1, h2⟩
  · rw [h1] at H
    rw [h2]
    exact H
  · rw [h1] at H
    rw [h2]
    dsimp only at H ⊢
    obtain ⟨lo, hi, e, k1, k2⟩ := H
    simp only [Prod.mk.injEq] at e
    obtain ⟨lo', e1, k3⟩ := hb.lower _ lo e.1
    obtain ⟨hi', e2, k4⟩ := hb.upper _ hi e.2
    exact ⟨lo', hi', by simp only [Prod.mk.injEq]; exact ⟨e1, e2⟩, k3.trans k1, k2.trans k4⟩

theorem allowed_wider {L : Layout} (hb : cf'.bcs = cf.bcs) (hw : List.Forall₂ NotTighter cf.bounds cf'.bounds) {tr tr' : RaceTrack} {d : ℝ}
    (hcu : tr'.curvatureAt = tr.curvatureAt) (hhe : tr'.headingAt = tr.headingAt)
    (hl : ∀ d a, tr.leftDistanceAt d = .ok a → ∃ a', tr'.leftDistanceAt d = .ok a' ∧ a ≤ a')
    (hr : ∀ d a, tr.rightDistanceAt d = .ok a → ∃ a', tr'.rightDistanceAt d = .ok a' ∧ a ≤ a') {s : Nat} {g n : String} {a : ℝ}
    (H : Allowed L cf tr d s g n a) : Allowed L cf' tr' d s g n a := by
  unfold Allowed at H ⊢
  rw [hb]
  cases hm : lastMention L (cf.bcs.map BC.req) (.stage s g n) with
  | some r => rw [hm] at H; exact H
  | none =>
    rw [hm] at H
    dsimp only at H ⊢
    rw [hcu, hhe]
    split_ifs at H ⊢ with h1 h2 h3
    · exact H
    · exact H
    · obtain ⟨left, right, k1, k2, k3, k4⟩ := H
      obtain ⟨left', k5, k6⟩ := hl d left k1
      obtain ⟨right', k7, k8⟩ := hr d right k2
      exact ⟨left', right', k5, k7, by linarith, by linarith⟩
    · exact inside_wider hw H

theorem runs_looser (h : Looser cf cf') {t : Transcription} {N : Nat} {len : ℝ} {X : String → String → Nat → ℝ} (H : Runs v cf t N len X) :
    Runs v cf' t N len X where
  stages := by rw [h.outputs]; exact H.stages
  steps := by rw [h.intervals, h.points]; exact H.steps
  closes := fun hc => by
    obtain ⟨c1, c2⟩ := H.closes (h.cyclic hc)
    exact ⟨fun n hn h1 h2 => c1 n hn h1 fun hin => h2 (h.open' _ hin), fun n hn h1 h2 => c2 n hn h1 fun hin => h2 (h.open' _ hin)⟩

/-- On a road that is not narrower, with a configuration that asks for less, every lap is still one, at the same cost. -/
theorem C101_more_room (hv : Car v) (hc : Usable v cf) (hu : Backed v cf u D) (hc' : Usable v cf') (hu' : Backed v cf' u' D') (hlo : Looser cf cf')
    {rows rows' : List Row} (hr : Road rows) (hw : List.Forall₂ Row.NotWider rows rows') {l : Lap} (hl : laptime v u cf (.ok rows) = .ok l) :
    ∃ l', laptime v u' cf' (.ok rows') = .ok l' ∧ l'.S.c.o.L = l.S.c.o.L ∧ (∀ x, IsLap l x → IsLap l' x) ∧
      (∀ x T, x.length = l.S.c.o.L.numDec → (Costs l x T ↔ Costs l' x T)) ∧ costs l ⊆ costs l' ∧
      ∀ x x' T T', IsBest l x → Costs l x T → IsBest l' x' → Costs l' x' T' → T' ≤ T := by
  obtain ⟨l', hl'⟩ : ∃ l', laptime v u' cf' (.ok rows') = .ok l' := by
    obtain ⟨t, mesh, ht, hm⟩ := mesh_of hl
    rw [← hlo.transcription, ← hlo.kwargs] at ht
    rw [← hlo.intervals, ← hlo.points] at hm
    obtain ⟨l', tr, h, -⟩ := C95_construct hv hc' hu' ht hm (Road.wider hr hw)
    exact ⟨l', h⟩
  obtain ⟨t, S, tr, hm, f⟩ := facts_made hv hc hu hl
  obtain ⟨t', S', tr', hm', f'⟩ := facts_made hv hc' hu' hl'
  have et : t' = t := by
    have := f'.transcription
    rw [hlo.transcription, hlo.kwargs, f.transcription, Except.ok.injEq] at this
    exact this.symm
  subst et
  have eL : l'.S.c.o.L = l.S.c.o.L := by rw [f'.layout, f.layout, hlo.outputs, hlo.intervals]
  have eM : S'.c.mesh = S.c.mesh := mesh_unique f.transcription hm hm' hlo.intervals hlo.points hc.intervals
  obtain ⟨w1, w2, w3, w4, w5⟩ := wider_track hr hw f.file f'.file
  obtain ⟨-, -, k3, k4⟩ := totals f'.file
  have hlap : ∀ x, IsLap l x → IsLap l' x := by
    intro x hx
    rw [f.lap] at hx
    obtain ⟨hx, h2, h3⟩ := hx
    rw [f'.lap, eL, w1, eM]
    refine ⟨hx, runs_looser hlo h2, fun s g n hv => ?_⟩
    refine allowed_wider hlo.bcs hlo.bounds w2 w3 (fun d a ha => ?_) (fun d a ha => ?_) (h3 s g n hv)
    · obtain ⟨a', ha'⟩ := k3 d
      exact ⟨a', ha', w4 d a a' ha ha'⟩
    · obtain ⟨a', ha'⟩ := k4 d
      exact ⟨a', ha', w5 d a a' ha ha'⟩
  have hcost : ∀ x T, x.length = l.S.c.o.L.numDec → (Costs l x T ↔ Costs l' x T) := by
    intro x T hx
    rw [f.cost x T hx, f'.cost x T (by rw [eL]; exact hx), eL]
  refine ⟨l', hl', eL, hlap, hcost, ?_, ?_⟩
  · rintro T ⟨x, h1, h2⟩
    exact ⟨x, hlap x h1, (hcost x T h1.1).mp h2⟩
  · intro x x' T T' hx hT hx' hT'
    obtain ⟨h1, T0, h2, h3⟩ := hx'
    have e : T' = T0 := by
      have a := (f'.cost x' T' h1.1).mp hT'
      have b := (f'.cost x' T0 h1.1).mp h2
      rw [a, b]
    rw [e]
    exact h3 T ⟨x, hlap x hx.1, (hcost x T hx.1.1).mp hT⟩

end Lumos.Sym
