import Verif.Drive.Solve
/-!
# C98: the bounds in force
-/

namespace Lumos.Drive

open Lumos DecVar DecVar.Layout NLP Bounds Ocp OCP Track LapSim Lts Io Io.Mdl Use Lumos.Trans Veh

variable {P : Type} {E : Entry P} {V : P → Prop} {D : P → List ℝ → ℝ → Prop} {p : P} {S : Setup} {file file' : Py (List Row)} {s s' : Sim P}
  {ops rest : List (Op P)}

/-- `set_track` on the object is that of `Verif/Lap/Model`. -/
theorem setTrack_lap {s : Sim P} (hb : s.use.J.S.builtScale ≠ none) (file : Py (List Row)) :
    s.lap.setTrack file = ((s.setTrack file).1.lap, (s.setTrack file).2) ∧ (s.setTrack file).1.use.J = s.use.J := by
  unfold Sim.setTrack Lap.setTrack
  cases hf : fromTumCsv file with
  | error e => exact ⟨rfl, rfl⟩
  | ok tr =>
    dsimp only
    have e1 : s.use.step (.setMeshScale tr.totalDistance) = ({ s.use with scale := some tr.totalDistance }, none) := by
      simp only [Use.step, if_neg hb]
    rw [e1]
    dsimp only
    rw [show trackBounds (rescale s.lap.S tr.totalDistance) tr = trackBounds s.use.J.S tr from rfl]
    cases trackBounds s.use.J.S tr with
    | error e => exact ⟨rfl, rfl⟩
    | ok bs => exact ⟨rfl, rfl⟩

/-- A boundary condition can be applied or not whatever the bounds are; so the bounds can be updated only if they all can. -/
theorem applied_of_update {L : Layout} {st st' : St EReal} {cs : List (BoundConfig EReal)} (h : Bounds.updateBounds L st cs = (st', none)) :
    (applyBCs L st).2 = none := by
  unfold Bounds.updateBounds at h
  rcases hr : setAll L st (cs.map BoundConfig.req) with ⟨s1, o⟩
  have hb := setAll_bcs L st (cs.map BoundConfig.req)
  rw [hr] at h hb
  cases o with
  | some e => cases h
  | none =>
    dsimp only at h hb
    unfold applyBCs at h ⊢
    rw [hb] at h
    rw [setAll_err _ _ _ s1, h]

/-- What is known of an object after a history, as the object of `Verif/Lap/Model`, when the boundary conditions can be applied. -/
theorem ready_of {t : Transcription} {u : Use P} {d : Diary P} (hE : E.Good V D) (hp : V p)
    (ht : makeTranscription E.conf.transcription E.conf.kwargs = .ok t)
    (hm : Made (vehicleOnTrack (E.car p)) (E.unit p) t E.conf S) (hu : construct (E.kind S) p = .ok u)
    (h : Follows (E.kind S) V p u s d) (hbc : (applyBCs S.c.o.L s.use.bounds).2 = none) : Ready s.lap := by
  have hb : (E.kind S).S.builtScale = some 1 := hm.plain.1
  have hok : OK V (E.kind S).S.builtScale p := ⟨by rw [hb]; simp, hp⟩
  have hi := h.inv (kind_good hE ht hm) hok hu
  obtain ⟨n1, n2, -, -⟩ := hm.names
  have hg := good_at hE hp ht hm 1
  obtain ⟨b0, hb0, eb, _⟩ := used (cs := []) (kind_good hE ht hm) hok hu trivial
  rw [hb] at hb0
  have hready := ready_of_build hg (b := b0) (by show _ ∈ S.c.o.L.namesOf _; rw [n2]; decide) (by show _ ∈ S.c.o.L.namesOf _; rw [n2]; decide)
    (by show _ ∈ S.c.o.L.namesOf _; rw [n1]; decide) hb0
  obtain ⟨cs, c1, c2, c3⟩ := h.calls
  have eL : s.lap.S.c.o.L = S.c.o.L := by show s.use.J.S.c.o.L = _; rw [hi.kind]; rfl
  have eM : s.lap.S.c.mesh = S.c.mesh := by show s.use.J.S.c.mesh = _; rw [hi.kind]; rfl
  have hbl := hready.lb
  have hub := hready.ub
  have hlen := runAll_length S.c.o.L (cs.filterMap boundsCall) u.bounds (by rw [← eb]; exact hbl) (by rw [← eb]; exact hub)
  have est : s.lap.st = Bounds.runAll S.c.o.L u.bounds (cs.filterMap boundsCall) := by
    show s.use.bounds = _
    rw [c2]
    exact C97_bounds hu cs
  refine ⟨?_, ?_, ?_, ?_, ?_, ?_, ?_, ?_, ?_, ?_⟩
  · rw [eL]; exact hready.made
  · rw [eL, eM]; exact hready.points
  · rw [eL, est]; exact hlen.1
  · rw [eL, est]; exact hlen.2
  · rw [eL]; exact hready.states
  · rw [eL]; exact hready.inputs
  · rw [eL]; exact hready.curvature
  · rw [eL]; exact hready.heading
  · rw [eL]; exact hready.lateral
  · rw [eL]; exact hbc

/-- The mesh points and the stages are those of the constructor. -/
theorem lap_eq {t : Transcription} {u : Use P} {d : Diary P} (hE : E.Good V D) (hp : V p)
    (ht : makeTranscription E.conf.transcription E.conf.kwargs = .ok t)
    (hm : Made (vehicleOnTrack (E.car p)) (E.unit p) t E.conf S) (hu : construct (E.kind S) p = .ok u)
    (h : Follows (E.kind S) V p u s d) : s.lap.S.c.o.L = S.c.o.L ∧ s.lap.S.c.mesh = S.c.mesh ∧ s.use.J = E.kind S ∧ s.use.J.S.builtScale ≠ none := by
  have hb : (E.kind S).S.builtScale = some 1 := hm.plain.1
  have hi := h.inv (kind_good hE ht hm) ⟨by rw [hb]; simp, hp⟩ hu
  refine ⟨?_, ?_, hi.kind, ?_⟩
  · show s.use.J.S.c.o.L = _; rw [hi.kind]; rfl
  · show s.use.J.S.c.mesh = _; rw [hi.kind]; rfl
  · rw [hi.kind, hb]; simp

/-- **C98 (which track is accepted).** After any history `set_track` raises nothing exactly if the file can be read, the road is
nowhere narrower than nothing at the mesh points, and all boundary conditions given so far can be applied. -/
theorem C98_accepts (hE : E.Good V D) (hp : V p) (hS : front (vehicleOnTrack (E.car p)) (E.unit p) E.conf = .ok S)
    (hs : simulate E p file = .ok s) (hops : GoodOps (E.kind S) V (diary (E.kind S) p file []) ops) (file' : Py (List Row)) :
    ((s.run ops).step (.setTrack file')).2 = none ↔ (∃ tr, fromTumCsv file' = .ok tr ∧
      ∀ d ∈ S.c.mesh, ∃ a b, tr.leftDistanceAt (d * tr.totalDistance) = .ok a ∧ tr.rightDistanceAt (d * tr.totalDistance) = .ok b ∧ 0 ≤ a + b) ∧
      (applyBCs S.c.o.L (s.run ops).use.bounds).2 = none := by
  obtain ⟨t, u, tr, ms, ht, hm, hu, hF, hr, hms, hq, hok⟩ := driven hE hp hS hs hops
  obtain ⟨eL, eM, eJ, hb⟩ := lap_eq hE hp ht hm hu hF
  obtain ⟨e1, _⟩ := setTrack_lap hb file'
  show ((s.run ops).setTrack file').2 = none ↔ _
  have key : (applyBCs S.c.o.L (s.run ops).use.bounds).2 = none →
      (((s.run ops).setTrack file').2 = none ↔ ∃ tr, fromTumCsv file' = .ok tr ∧
      ∀ d ∈ S.c.mesh, ∃ a b, tr.leftDistanceAt (d * tr.totalDistance) = .ok a ∧ tr.rightDistanceAt (d * tr.totalDistance) = .ok b ∧ 0 ≤ a + b) := by
    intro hbc
    have := C69_accepted_iff (ready_of hE hp ht hm hu hF hbc) file'
    rw [e1, eM] at this
    exact this
  constructor
  · intro h
    have hbc : (applyBCs S.c.o.L (s.run ops).use.bounds).2 = none := by
      unfold Sim.setTrack at h
      cases hf : fromTumCsv file' with
      | error e => rw [hf] at h; cases h
      | ok tr' =>
        rw [hf] at h
        dsimp only at h
        have e1 : (s.run ops).use.step (.setMeshScale tr'.totalDistance) = ({ (s.run ops).use with scale := some tr'.totalDistance }, none) := by
          simp only [Use.step, if_neg hb]
        rw [e1] at h
        dsimp only at h
        cases hb' : trackBounds (s.run ops).use.J.S tr' with
        | error e => rw [hb'] at h; cases h
        | ok bs =>
          rw [hb'] at h
          dsimp only at h
          have h' : (Bounds.updateBounds (s.run ops).use.J.S.c.o.L (s.run ops).use.bounds bs).2 = none := h
          rw [eJ] at h'
          exact applied_of_update (Prod.ext rfl h')
    exact ⟨(key hbc).mp h, hbc⟩
  · rintro ⟨h1, h2⟩
    exact (key h2).mpr h1

/-- Calls that change neither the bounds nor the road nor its length. -/
def Quiet : Op P → Prop
  | .setTrack _ => False
  | .call (.bounds _) => False
  | .call (.setMeshScale _) => False
  | .call _ => True

theorem quiet_step {o : Op P} (h : Quiet o) (s : Sim P) :
    (s.step o).1.use.bounds = s.use.bounds ∧ (s.step o).1.track = s.track ∧ (s.step o).1.use.scale = s.use.scale ∧ (s.step o).1.use.J = s.use.J := by
  cases o with
  | setTrack => exact absurd h (fun h => h)
  | call c =>
    cases c with
    | bounds c => exact absurd h (fun h => h)
    | setMeshScale c => exact absurd h (fun h => h)
    | solve a =>
      unfold Sim.step
      dsimp only
      split <;> exact ⟨rfl, rfl, rfl, rfl⟩
    | setParams q =>
      have : (s.use.step (.setParams q)).1.bounds = s.use.bounds ∧ (s.use.step (.setParams q)).1.scale = s.use.scale ∧
          (s.use.step (.setParams q)).1.J = s.use.J := by
        simp only [Use.step]; split <;> exact ⟨rfl, rfl, rfl⟩
      exact ⟨this.1, rfl, this.2.1, this.2.2⟩
    | setScales c => exact ⟨rfl, rfl, rfl, rfl⟩
    | addObjective n c => exact ⟨rfl, rfl, rfl, rfl⟩
    | deleteObjective c => exact ⟨rfl, rfl, rfl, rfl⟩
    | addConstraints n c => exact ⟨rfl, rfl, rfl, rfl⟩
    | deleteConstraints c => exact ⟨rfl, rfl, rfl, rfl⟩
    | setCons => exact ⟨rfl, rfl, rfl, rfl⟩
    | hessianstructure => exact ⟨rfl, rfl, rfl, rfl⟩
    | hessian x l c => exact ⟨rfl, rfl, rfl, rfl⟩

theorem quiet_run {ops : List (Op P)} (h : ∀ o ∈ ops, Quiet o) : ∀ s : Sim P,
    (s.run ops).use.bounds = s.use.bounds ∧ (s.run ops).track = s.track ∧ (s.run ops).use.scale = s.use.scale ∧ (s.run ops).use.J = s.use.J := by
  induction ops with
  | nil => exact fun s => ⟨rfl, rfl, rfl, rfl⟩
  | cons o ops ih =>
    intro s
    obtain ⟨a1, a2, a3, a4⟩ := ih (fun o ho => h o (List.mem_cons_of_mem _ ho)) (s.step o).1
    obtain ⟨b1, b2, b3, b4⟩ := quiet_step (h o (List.mem_cons_self ..)) s
    exact ⟨a1.trans b1, a2.trans b2, a3.trans b3, a4.trans b4⟩

/-- **C98 (the bounds on a new road).** After any history a track is set and accepted, and then calls follow that do not concern
bounds, track or length. Then the road and the length are the new ones; where a boundary condition of the configuration or of the
history says something, it holds; elsewhere the curvature and the heading are fixed at those of the road at the distance of the
stage and the lateral position is limited by its sides; every other variable keeps the bounds it had before. -/
theorem C98_bounds (hE : E.Good V D) (hp : V p) (hS : front (vehicleOnTrack (E.car p)) (E.unit p) E.conf = .ok S)
    (hs : simulate E p file = .ok s) (hops : GoodOps (E.kind S) V (diary (E.kind S) p file []) ops)
    (hacc : ((s.run ops).step (.setTrack file')).2 = none) (hrest : ∀ o ∈ rest, Quiet o) :
    ∃ tr, fromTumCsv file' = .ok tr ∧ (s.run (ops ++ .setTrack file' :: rest)).track = some tr ∧
      (s.run (ops ++ .setTrack file' :: rest)).use.scale = some tr.totalDistance ∧
      (s.run (ops ++ .setTrack file' :: rest)).use.bounds.bcs = (s.run ops).use.bounds.bcs ∧
      ∀ v i, S.c.o.L.IsVar v → S.c.o.L.query v = .ok (.scalar i) →
        (∀ r, lastMention S.c.o.L ((s.run ops).use.bounds.bcs.map BC.req) v = some r →
          (s.run (ops ++ .setTrack file' :: rest)).use.bounds.lb[i]? = r.arg.lb.at (r.slot v) ∧
          (s.run (ops ++ .setTrack file' :: rest)).use.bounds.ub[i]? = r.arg.ub.at (r.slot v)) ∧
        (lastMention S.c.o.L ((s.run ops).use.bounds.bcs.map BC.req) v = none →
          (IsTrackVar v → ∃ lo hi, Limits tr (S.c.mesh.map (· * tr.totalDistance)) v lo hi ∧
            (s.run (ops ++ .setTrack file' :: rest)).use.bounds.lb[i]? = some lo ∧
            (s.run (ops ++ .setTrack file' :: rest)).use.bounds.ub[i]? = some hi) ∧
          (¬IsTrackVar v → (s.run (ops ++ .setTrack file' :: rest)).use.bounds.lb[i]? = (s.run ops).use.bounds.lb[i]? ∧
            (s.run (ops ++ .setTrack file' :: rest)).use.bounds.ub[i]? = (s.run ops).use.bounds.ub[i]?)) := by
  have hbc := ((C98_accepts hE hp hS hs hops file').mp hacc).2
  obtain ⟨t, u, tr0, ms, ht, hm, hu, hF, hr, hms, hq, hok⟩ := driven hE hp hS hs hops
  obtain ⟨eL, eM, eJ, hb⟩ := lap_eq hE hp ht hm hu hF
  obtain ⟨e1, _⟩ := setTrack_lap hb file'
  have hready := ready_of hE hp ht hm hu hF hbc
  have hacc' : ((s.run ops).setTrack file').2 = none := hacc
  rw [hacc'] at e1
  obtain ⟨tr, h1, h2, h3, h4, h5⟩ := C69_bounds hready e1
  have erun : s.run (ops ++ .setTrack file' :: rest) = ((s.run ops).setTrack file').1.run rest := by
    unfold Sim.run
    rw [List.foldl_append]
    rfl
  obtain ⟨q1, q2, q3, _⟩ := quiet_run hrest ((s.run ops).setTrack file').1
  rw [erun, q1, q2, q3]
  rw [eL, eM] at h5
  refine ⟨tr, h1, h2, ?_, h4, h5⟩
  have : ((s.run ops).setTrack file').1.lap.S.c.o.fixedScale = some tr.totalDistance := by rw [h3]; rfl
  exact this

/-- **C98 (bounds).** After any history the bounds are those of the configuration changed by the calls in the diary, in their order:
the user's own, and that of every road nowhere narrower than nothing. -/
theorem C98_history (hE : E.Good V D) (hp : V p) (hS : front (vehicleOnTrack (E.car p)) (E.unit p) E.conf = .ok S)
    (hs : simulate E p file = .ok s) (hops : GoodOps (E.kind S) V (diary (E.kind S) p file []) ops) :
    ∃ b, ((E.kind S).at (some 1) p S.isCyclic).build = .ok b ∧
      (s.run ops).use.bounds = Bounds.runAll S.c.o.L b.bounds (diary (E.kind S) p file ops).book.bounds := by
  obtain ⟨t, u, tr0, ms, ht, hm, hu, hF, hr, hms, hq, hok⟩ := driven hE hp hS hs hops
  obtain ⟨b0, hb0, eb, _⟩ := used (cs := []) (kind_good hE ht hm) hok hu trivial
  have hb : (E.kind S).S.builtScale = some 1 := hm.plain.1
  rw [hb] at hb0
  refine ⟨b0, hb0, ?_⟩
  obtain ⟨cs, c1, c2, c3⟩ := hF.calls
  rw [c2, c3, C97_bounds hu cs, eb]
  have : ∀ (cs : List (Use.Call P)) (b : Book P), (b.noteAll (E.kind S) cs).bounds = b.bounds ++ cs.filterMap boundsCall := by
    intro cs
    induction cs with
    | nil => intro b; exact (List.append_nil _).symm
    | cons c cs ih =>
      intro b
      show ((b.note (E.kind S) c).noteAll (E.kind S) cs).bounds = _
      rw [ih]
      cases c with
      | bounds c => simp [Book.note, boundsCall]
      | setMeshScale ms => simp only [Book.note, boundsCall]; split <;> rfl
      | setParams r => simp only [Book.note, boundsCall]; split <;> rfl
      | addObjective n o => simp only [Book.note, boundsCall]; split <;> rfl
      | deleteObjective n => simp only [Book.note, boundsCall]; split <;> rfl
      | addConstraints n o => simp only [Book.note, boundsCall]; split <;> rfl
      | deleteConstraints n => simp only [Book.note, boundsCall]; split <;> rfl
      | setScales c => rfl
      | setCons => rfl
      | hessianstructure => rfl
      | hessian x l c => rfl
      | solve a => rfl
  have h := this cs (Book.init (E.kind S) p)
  unfold book
  rw [h]
  rfl

/-- **C98 (a rejected track).** After any history a call of `set_track` that raises leaves the bounds as they were, if the boundary
conditions can be applied. If the file cannot be read nothing at all changes; if the road is somewhere narrower than nothing, then
the road and the length are already the new ones: the object is a mixture. -/
theorem C98_rejected (hE : E.Good V D) (hp : V p) (hS : front (vehicleOnTrack (E.car p)) (E.unit p) E.conf = .ok S)
    (hs : simulate E p file = .ok s) (hops : GoodOps (E.kind S) V (diary (E.kind S) p file []) ops)
    (hbc : (applyBCs S.c.o.L (s.run ops).use.bounds).2 = none) {e : PyErr} (hrej : ((s.run ops).step (.setTrack file')).2 = some e) :
    ((s.run ops).step (.setTrack file')).1.use.bounds = (s.run ops).use.bounds ∧
    ((fromTumCsv file' = .error e ∧ ((s.run ops).step (.setTrack file')).1 = s.run ops) ∨
      ∃ tr, fromTumCsv file' = .ok tr ∧ e = .assertionError ∧ ((s.run ops).step (.setTrack file')).1.track = some tr ∧
        ((s.run ops).step (.setTrack file')).1.use.scale = some tr.totalDistance) := by
  obtain ⟨t, u, tr0, ms, ht, hm, hu, hF, hr, hms, hq, hok⟩ := driven hE hp hS hs hops
  obtain ⟨eL, eM, eJ, hb⟩ := lap_eq hE hp ht hm hu hF
  obtain ⟨e1, _⟩ := setTrack_lap hb file'
  have hready := ready_of hE hp ht hm hu hF hbc
  have hrej' : ((s.run ops).setTrack file').2 = some e := hrej
  rw [hrej'] at e1
  obtain ⟨h1, h2⟩ := C69_rejected hready e1
  refine ⟨h1, ?_⟩
  rcases h2 with ⟨h2, _⟩ | ⟨tr, h2, h3, h4, h5⟩
  · refine Or.inl ⟨h2, ?_⟩
    show ((s.run ops).setTrack file').1 = _
    unfold Sim.setTrack
    rw [h2]
  · refine Or.inr ⟨tr, h2, h3, h4, ?_⟩
    have : ((s.run ops).setTrack file').1.lap.S.c.o.fixedScale = some tr.totalDistance := by rw [h5]; rfl
    exact this

end Lumos.Drive
