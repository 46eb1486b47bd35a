import Verif.Drive.Spec
import Verif.Use.Errors
import Verif.Lap.Guess
/-!
# C98: every history of a lap time simulation is a history of calls (proofs)
-/

namespace Lumos.Drive

open Lumos DecVar DecVar.Layout NLP Bounds Ocp OCP Track LapSim Lts Io Use Lumos.Trans Veh

variable {P : Type} {E : Entry P} {V : P → Prop} {D : P → List ℝ → ℝ → Prop} {p q : P} {S : Setup} {t : Transcription}

/-- The settings for which the kind is right. -/
abbrev OK (V : P → Prop) (ms : Option ℝ) (p : P) : Prop := ms ≠ none ∧ V p

/-- The problem of another set of parameters is the one that the constructor makes for them. -/
theorem made_at (q : P) (h : Made (vehicleOnTrack (E.car p)) (E.unit p) t E.conf S) :
    Made (vehicleOnTrack (E.car q)) (E.unit q) t E.conf ((E.kind S).at (some 1) q S.isCyclic) := by
  have e : layoutOf ((vehicleOnTrack (E.car p)).explicit E.conf.conOutputs) E.conf.numIntervals t.stages
      = layoutOf ((vehicleOnTrack (E.car q)).explicit E.conf.conOutputs) E.conf.numIntervals t.stages := by
    unfold layoutOf Lumos.Sim.groupsOf Io.Mdl.explicit
    rw [onTrack_names, onTrack_names]
    rfl
  exact ⟨h.layout.trans e, ⟨h.uses.1, h.uses.2, h.uses.3⟩, rfl, rfl, rfl, h.lens, h.len, h.pos, h.total, h.points, h.ends, h.sorted, h.stage, h.plain, h.config⟩

theorem good_at (hE : E.Good V D) (hq : V q) (ht : makeTranscription E.conf.transcription E.conf.kwargs = .ok t)
    (h : Made (vehicleOnTrack (E.car p)) (E.unit p) t E.conf S) (ms : ℝ) : ((E.kind S).at (some ms) q S.isCyclic).Good (D q) := by
  have hm := made_at q h
  have := hm.suited (hE.car q hq) (hE.usable q hq) (hE.backed q hq) ht
  exact Good.rescale this (by rw [hm.scale]; simp) hm.plain.2.2.2.1 ms

theorem kind_good (hE : E.Good V D) (ht : makeTranscription E.conf.transcription E.conf.kwargs = .ok t)
    (h : Made (vehicleOnTrack (E.car p)) (E.unit p) t E.conf S) : (E.kind S).Good (OK V) D := by
  refine ⟨?_, ?_⟩
  · rintro (_ | ms) q ⟨h1, hq⟩
    · exact absurd rfl h1
    · exact good_at hE hq ht h ms
  · rintro ms ms' q q' ⟨_, hq⟩ ⟨_, hq'⟩
    show ((vehicleOnTrack (E.car q)).explicit E.conf.conOutputs).nr = ((vehicleOnTrack (E.car q')).explicit E.conf.conOutputs).nr
    unfold ExplicitModel.nr Io.Mdl.explicit
    rw [onTrack_names, onTrack_names, hE.names q q' hq hq']

/-- The object `s` is what the calls `cs` make of `u`, and the diary says so. -/
structure Follows (J : Kind P) (V : P → Prop) (p : P) (u : Use P) (s : Sim P) (d : Diary P) : Prop where
  calls : ∃ cs, GoodCalls J (OK V) (Book.init J p) cs ∧ s.use = u.run cs ∧ d.book = book J p cs
  road : s.track = d.road
  loaded : ∀ tr, d.road = some tr → Loaded tr

theorem Follows.append {J : Kind P} {u : Use P} {s : Sim P} {d : Diary P} (h : Follows J V p u s d) {c : Use.Call P}
    (hc : GoodCall J (OK V) d.book c) : Follows J V p u ⟨(s.use.step c).1, s.track⟩ ⟨d.book.note J c, d.road⟩ := by
  obtain ⟨⟨cs, h1, h2, h3⟩, h4, h5⟩ := h
  refine ⟨⟨cs ++ [c], h1.append (by rw [h3] at hc; exact hc), ?_, ?_⟩, h4, h5⟩
  · rw [run_append, h2]
  · rw [book_append, h3]

section

variable {J : Kind P} {u : Use P} {s : Sim P} {d : Diary P}

/-- What is known of the object. -/
theorem Follows.inv (hJ : J.Good (OK V) D) (hv : OK V J.S.builtScale p) (hu : construct J p = .ok u) (h : Follows J V p u s d) :
    Inv J (OK V) D u.bounds s.use d.book := by
  obtain ⟨⟨cs, h1, h2, h3⟩, _⟩ := h
  obtain ⟨b0, _, e, h⟩ := used hJ hv hu h1
  rw [e] at h
  rw [h2, h3]
  exact h

theorem Follows.setTrack (hJ : J.Good (OK V) D) (hv : OK V J.S.builtScale p) (hu : construct J p = .ok u) (h : Follows J V p u s d)
    (file : Py (List Row)) : Follows J V p u (s.setTrack file).1 (d.note J (.setTrack file)) := by
  have hi := h.inv hJ hv hu
  unfold Sim.setTrack
  rw [Diary.note.eq_def]
  dsimp only
  cases hf : fromTumCsv file with
  | error e => exact h
  | ok tr =>
    obtain ⟨_, _, hl, _⟩ := fromTumCsv_inv hf
    dsimp only
    have hb : J.S.builtScale ≠ none := hv.1
    have hb' : s.use.J.S.builtScale ≠ none := by rw [hi.kind]; exact hb
    have e1 : s.use.step (.setMeshScale tr.totalDistance) = ({ s.use with scale := some tr.totalDistance }, none) := by
      simp only [Use.step, if_neg hb']
    have e2 : d.book.note J (.setMeshScale tr.totalDistance) = { d.book with scale := some tr.totalDistance } := by
      simp only [Book.note, if_neg hb]
    have hgood : GoodCall J (OK V) d.book (.setMeshScale tr.totalDistance) := ⟨by simp, hi.sane.valid.2⟩
    have h1 := h.append hgood
    rw [e1, e2] at h1
    have h2 : Follows J V p u ⟨{ s.use with scale := some tr.totalDistance }, some tr⟩
        ⟨{ d.book with scale := some tr.totalDistance }, some tr⟩ := by
      refine ⟨h1.calls, rfl, fun t' e => ?_⟩
      cases e
      exact hl
    rw [e1]
    dsimp only
    rw [show s.use.J.S = J.S by rw [hi.kind]]
    by_cases hw : Wide (distanceMesh J.S tr) tr
    · rw [(trackBounds_eq hl).1 hw]
      have e3 : roadCalls (distanceMesh J.S tr) tr = [.updateBounds (threeBounds (distanceMesh J.S tr) tr)] := if_pos hw
      rw [e3]
      exact h2.append (c := .bounds (.updateBounds (threeBounds (distanceMesh J.S tr) tr))) trivial
    · rw [(trackBounds_eq hl).2 hw]
      have e3 : roadCalls (distanceMesh J.S tr) tr = [] := if_neg hw
      rw [e3, List.append_nil]
      exact h2

end

section

variable {u : Use P} {s : Sim P} {d : Diary P}

/-- The object is one on which the initial guess can be computed. -/
theorem Follows.guessable (hE : E.Good V D) (hp : V p) (ht : makeTranscription E.conf.transcription E.conf.kwargs = .ok t)
    (hm : Made (vehicleOnTrack (E.car p)) (E.unit p) t E.conf S) (hu : construct (E.kind S) p = .ok u)
    (h : Follows (E.kind S) V p u s d) {tr : RaceTrack} (hr : d.road = some tr) : Guessable s.lap tr := by
  have hb : (E.kind S).S.builtScale = some 1 := hm.plain.1
  have hi := h.inv (kind_good hE ht hm) ⟨by rw [hb]; simp, hp⟩ hu
  have hq := hi.sane.valid.2
  obtain ⟨ms, hms⟩ := Option.ne_none_iff_exists'.mp hi.sane.valid.1
  have eS : s.lap.S = (E.kind S).at (some ms) d.book.params S.isCyclic := by
    unfold Sim.lap
    rw [hi.kind, hi.scale, hi.params, hms]
    rfl
  have hg := good_at hE hq ht hm ms
  have hmq := made_at d.book.params hm
  obtain ⟨n1, n2, -, -⟩ := hmq.names
  have m1 : ((vehicleOnTrack (E.car d.book.params)).explicit E.conf.conOutputs).states = onTrackNames.states := by
    unfold Io.Mdl.explicit; rw [onTrack_names]; rfl
  have m2 : ((vehicleOnTrack (E.car d.book.params)).explicit E.conf.conOutputs).inputs = onTrackNames.inputs := by
    unfold Io.Mdl.explicit; rw [onTrack_names]; rfl
  constructor
  · rw [eS]; exact hg.cond
  · rw [eS]; exact n1.trans m1.symm
  · rw [eS]; exact n2.trans m2.symm
  · rw [eS]; show S.c.o.L.globals = []; rw [hm.layout]; rfl
  · rw [eS]; show "time" ∈ ((vehicleOnTrack (E.car d.book.params)).explicit E.conf.conOutputs).states; rw [m1]; decide
  · rw [eS]; show ∀ n ∈ ((vehicleOnTrack (E.car d.book.params)).explicit E.conf.conOutputs).states, _; rw [m1]; decide
  · rw [eS]; show "track_curvature" ∈ ((vehicleOnTrack (E.car d.book.params)).explicit E.conf.conOutputs).inputs; rw [m2]; decide
  · rw [eS]; show "track_heading" ∈ ((vehicleOnTrack (E.car d.book.params)).explicit E.conf.conOutputs).inputs; rw [m2]; decide
  · rw [eS]; show ∀ n ∈ ((vehicleOnTrack (E.car d.book.params)).explicit E.conf.conOutputs).inputs, _; rw [m2]; decide
  · exact h.road.trans hr
  · exact h.loaded tr hr

theorem Follows.step (hE : E.Good V D) (hp : V p) (ht : makeTranscription E.conf.transcription E.conf.kwargs = .ok t)
    (hm : Made (vehicleOnTrack (E.car p)) (E.unit p) t E.conf S) (hu : construct (E.kind S) p = .ok u)
    (h : Follows (E.kind S) V p u s d) (hr : d.road ≠ none) {o : Op P} (ho : GoodOp (E.kind S) V d o) :
    Follows (E.kind S) V p u (s.step o).1 (d.note (E.kind S) o) ∧ (d.note (E.kind S) o).road ≠ none := by
  have hb : (E.kind S).S.builtScale = some 1 := hm.plain.1
  cases o with
  | setTrack file =>
    refine ⟨h.setTrack (kind_good hE ht hm) ⟨by rw [hb]; simp, hp⟩ hu file, ?_⟩
    rw [Diary.note.eq_def]
    dsimp only
    split
    · exact hr
    · simp
  | call c =>
    refine ⟨?_, hr⟩
    cases c with
    | solve a =>
      obtain ⟨tr, htr⟩ := Option.ne_none_iff_exists'.mp hr
      obtain ⟨x0, e0, l0, _⟩ := C70_guess (h.guessable hE hp ht hm hu htr)
      have hi := h.inv (kind_good hE ht hm) ⟨by rw [hb]; simp, hp⟩ hu
      have l0' : x0.length = S.c.o.L.numDec := by
        rw [l0]; unfold Sim.lap; rw [hi.kind]; rfl
      have e0' : s.initGuess = .ok x0 := e0
      unfold Sim.step
      rw [e0']
      exact h.append (c := .solve ⟨a.guess, x0, x0, a.solver⟩) fun hj => ⟨(ho hj).1, l0', (ho hj).2⟩
    | bounds c => exact h.append ho
    | setScales c => exact h.append ho
    | setMeshScale c => exact h.append ho
    | setParams c => exact h.append ho
    | addObjective n c => exact h.append ho
    | deleteObjective c => exact h.append ho
    | addConstraints n c => exact h.append ho
    | deleteConstraints c => exact h.append ho
    | setCons => exact h.append ho
    | hessianstructure => exact h.append ho
    | hessian x l c => exact h.append ho

theorem Follows.run (hE : E.Good V D) (hp : V p) (ht : makeTranscription E.conf.transcription E.conf.kwargs = .ok t)
    (hm : Made (vehicleOnTrack (E.car p)) (E.unit p) t E.conf S) (hu : construct (E.kind S) p = .ok u) {ops : List (Op P)} :
    ∀ {s : Sim P} {d : Diary P}, Follows (E.kind S) V p u s d → d.road ≠ none → GoodOps (E.kind S) V d ops →
      Follows (E.kind S) V p u (s.run ops) (ops.foldl (Diary.note (E.kind S)) d) ∧ (ops.foldl (Diary.note (E.kind S)) d).road ≠ none := by
  induction ops with
  | nil => exact fun h hr _ => ⟨h, hr⟩
  | cons o ops ih =>
    intro s d h hr ho
    obtain ⟨h1, h2⟩ := h.step hE hp ht hm hu hr ho.1
    exact ih h1 h2 ho.2

/-- The constructor, taken apart. -/
theorem simulate_inv (hE : E.Good V D) (hp : V p) {file : Py (List Row)} {s : Sim P} (hs : simulate E p file = .ok s) :
    ∃ (t : Transcription) (S : Setup) (u : Use P) (tr : RaceTrack), makeTranscription E.conf.transcription E.conf.kwargs = .ok t ∧
      front (vehicleOnTrack (E.car p)) (E.unit p) E.conf = .ok S ∧ Made (vehicleOnTrack (E.car p)) (E.unit p) t E.conf S ∧
      construct (E.kind S) p = .ok u ∧ fromTumCsv file = .ok tr ∧ Sim.setTrack ⟨u, none⟩ file = (s, none) ∧
      Follows (E.kind S) V p u s (diary (E.kind S) p file []) ∧ (diary (E.kind S) p file []).road = some tr := by
  have hd := onTrack_delivers (hE.car p hp) (hE.usable p hp).outputs.1 (hE.usable p hp).outputs.2
  unfold simulate at hs
  obtain ⟨S, hS, hs⟩ := Config.bind_ok hs
  obtain ⟨t, ht, hm⟩ := front_inv (Io.Mdl.explicit_good hd) (hE.usable p hp).intervals hS
  obtain ⟨u, hu, hs⟩ := Config.bind_ok hs
  have hb : (E.kind S).S.builtScale = some 1 := hm.plain.1
  have h0 : Follows (E.kind S) V p u ⟨u, none⟩ ⟨Book.init (E.kind S) p, none⟩ := ⟨⟨[], trivial, rfl, rfl⟩, rfl, fun _ e => (nomatch e)⟩
  have h1 := h0.setTrack (kind_good hE ht hm) ⟨by rw [hb]; simp, hp⟩ hu file
  rcases hst : Sim.setTrack ⟨u, none⟩ file with ⟨s', o⟩
  rw [hst] at hs h1
  cases o with
  | some e => cases hs
  | none =>
    simp only [Except.ok.injEq] at hs
    subst hs
    cases hf : fromTumCsv file with
    | error e =>
      unfold Sim.setTrack at hst
      rw [hf] at hst
      cases hst
    | ok tr =>
      refine ⟨t, S, u, tr, ht, hS, hm, hu, rfl, hst, h1, ?_⟩
      unfold diary
      rw [List.foldl_cons, Diary.note.eq_def]
      dsimp only
      rw [hf]
      rfl

end

end Lumos.Drive
