import Verif.Drive.Meaning
/-!
# C98: a lap time simulation in use
-/

namespace Lumos.Drive

open Lumos DecVar DecVar.Layout NLP Bounds Ocp OCP Track LapSim Lts Io Io.Mdl Use Lumos.Trans Veh

variable {P : Type} {E : Entry P} {V : P → Prop} {D : P → List ℝ → ℝ → Prop} {p : P} {S : Setup} {file : Py (List Row)} {s : Sim P}
  {ops : List (Op P)}

/-- What is known after a good history. -/
theorem driven (hE : E.Good V D) (hp : V p) (hS : front (vehicleOnTrack (E.car p)) (E.unit p) E.conf = .ok S)
    (hs : simulate E p file = .ok s) (hops : GoodOps (E.kind S) V (diary (E.kind S) p file []) ops) :
    ∃ (t : Transcription) (u : Use P) (tr : RaceTrack) (ms : ℝ), makeTranscription E.conf.transcription E.conf.kwargs = .ok t ∧
      Made (vehicleOnTrack (E.car p)) (E.unit p) t E.conf S ∧ construct (E.kind S) p = .ok u ∧
      Follows (E.kind S) V p u (s.run ops) (diary (E.kind S) p file ops) ∧
      (diary (E.kind S) p file ops).road = some tr ∧ (diary (E.kind S) p file ops).book.scale = some ms ∧
      V (diary (E.kind S) p file ops).book.params ∧ OK V (E.kind S).S.builtScale p := by
  obtain ⟨t, S', u, tr, ht, hS', hm, hu, hf, hst, hF, hr⟩ := simulate_inv hE hp hs
  rw [hS] at hS'
  simp only [Except.ok.injEq] at hS'
  subst hS'
  obtain ⟨h1, h2⟩ := hF.run hE hp ht hm hu (by rw [hr]; simp) hops
  have hb : (E.kind S).S.builtScale = some 1 := hm.plain.1
  have hok : OK V (E.kind S).S.builtScale p := ⟨by rw [hb]; simp, hp⟩
  have hi := h1.inv (kind_good hE ht hm) hok hu
  obtain ⟨tr', htr'⟩ := Option.ne_none_iff_exists'.mp h2
  obtain ⟨ms, hms⟩ := Option.ne_none_iff_exists'.mp hi.sane.valid.1
  exact ⟨t, u, tr', ms, ht, hm, hu, h1, htr', hms, hi.sane.valid.2, hok⟩

/-- **C98 (the constructor).** It accepts every car, usable configuration, transcription and mesh that exist, and every road. -/
theorem C98_construct (hE : E.Good V D) (hp : V p) {t : Transcription} (ht : makeTranscription E.conf.transcription E.conf.kwargs = .ok t)
    {mesh : List (List ℝ)} (hm : setMesh t.interp E.conf.numIntervals E.conf.intervalPoints = .ok mesh) {rows : List Row} (hr : Road rows) :
    ∃ s S, front (vehicleOnTrack (E.car p)) (E.unit p) E.conf = .ok S ∧ simulate E p (.ok rows) = .ok s := by
  have hd := onTrack_delivers (hE.car p hp) (hE.usable p hp).outputs.1 (hE.usable p hp).outputs.2
  obtain ⟨S, hS, hM⟩ := front_ok (u := E.unit p) (Io.Mdl.explicit_good hd) ht (hE.usable p hp).intervals hm
  have hb : (E.kind S).S.builtScale = some 1 := hM.plain.1
  have hok : OK V (E.kind S).S.builtScale p := ⟨by rw [hb]; simp, hp⟩
  obtain ⟨u, hu⟩ := C97_construct (kind_good hE ht hM) hok
  obtain ⟨b0, hb0, eb, hi⟩ := used (cs := []) (kind_good hE ht hM) hok hu trivial
  obtain ⟨tr, htr, hl, hpos, hsides⟩ := road_loads hr
  obtain ⟨n1, n2, -, -⟩ := hM.names
  have hg := good_at hE hp ht hM 1
  rw [hb] at hb0
  have hready := ready_of_build hg (b := b0) (by show _ ∈ S.c.o.L.namesOf _; rw [n2]; decide) (by show _ ∈ S.c.o.L.namesOf _; rw [n2]; decide)
    (by show _ ∈ S.c.o.L.namesOf _; rw [n1]; decide) hb0
  have hacc := C69_road_accepted hready hr
  have hw : Wide (distanceMesh S tr) tr := by
    intro d hd'
    obtain ⟨a, b, e1, e2, ha, hb⟩ := hsides d
    rw [e1, e2]
    show -b ≤ a
    linarith
  refine ⟨⟨({ u with scale := some tr.totalDistance } : Use P).step (.bounds (.updateBounds (threeBounds (distanceMesh S tr) tr))) |>.1, some tr⟩, S, hS, ?_⟩
  unfold simulate
  rw [hS]
  simp only [bind, Except.bind]
  rw [hu]
  dsimp only
  have hk : u.J = E.kind S := hi.kind
  have e1 : u.step (.setMeshScale tr.totalDistance) = ({ u with scale := some tr.totalDistance }, none) := by
    have : u.J.S.builtScale ≠ none := by rw [hk, hb]; simp
    simp only [Use.step, if_neg this]
  have e2 : (({ u with scale := some tr.totalDistance } : Use P).step (.bounds (.updateBounds (threeBounds (distanceMesh S tr) tr)))).2 = none := by
    have h3 := three_ok hready hw
    show (Bounds.updateBounds u.J.S.c.o.L u.bounds (threeBounds (distanceMesh S tr) tr)).2 = none
    rw [hk, ← eb]
    exact h3
  unfold Sim.setTrack
  rw [htr]
  dsimp only
  rw [e1]
  dsimp only
  rw [show trackBounds u.J.S tr = .ok (threeBounds (distanceMesh S tr) tr) by rw [hk]; exact (trackBounds_eq hl).1 hw]
  dsimp only
  rw [e2]

/-- **C98 (what the solver enforces).** After any history of calls the constraints at the scaled point are within their limits if and
only if the limits are those of the present number of rows, `x` is a lap of the car with the parameters now in force over the length
now in force, closed if the cyclic constraint is still there, and the user's own constraints vanish at `x`. -/
theorem C98_meaning (hE : E.Good V D) (hp : V p) (hS : front (vehicleOnTrack (E.car p)) (E.unit p) E.conf = .ok S)
    (hs : simulate E p file = .ok s) (hops : GoodOps (E.kind S) V (diary (E.kind S) p file []) ops) :
    ∃ t ms, makeTranscription E.conf.transcription E.conf.kwargs = .ok t ∧ (diary (E.kind S) p file ops).book.scale = some ms ∧
      ∀ x : List ℝ, x.length = S.c.o.L.numDec →
        ((s.run ops).use.Feasible (vdiv x (s.run ops).use.now.scales) ↔
          (diary (E.kind S) p file ops).book.limits = (diary (E.kind S) p file ops).book.rows (E.kind S) ∧
          Laps (E.car (diary (E.kind S) p file ops).book.params) E.conf t S.c.o.L (diary (E.kind S) p file ops).book.cyclic ms x ∧
          (diary (E.kind S) p file ops).book.UserHolds x) := by
  obtain ⟨t, u, tr, ms, ht, hm, hu, hF, hr, hms, hq, hok⟩ := driven hE hp hS hs hops
  refine ⟨t, ms, ht, hms, fun x hx => ?_⟩
  obtain ⟨cs, c1, c2, c3⟩ := hF.calls
  rw [c2, C97_meaning (kind_good hE ht hm) hok hu c1 hm.plain.2.2.2.1 hx, ← c3]
  unfold Book.setup
  rw [hms, isSolution_laps hE hq hm]

/-- **C98 (the length is that of the road).** Unless the mesh scale is set by hand, the length in force is that of the road last
set — accepted or not — after any history. -/
theorem C98_length (J : Kind P) (p : P) (file : Py (List Row)) (hf : ∃ tr, fromTumCsv file = .ok tr) (ops : List (Op P))
    (hno : ∀ ms, Op.call (.setMeshScale ms) ∉ ops) :
    ∃ tr, (diary J p file ops).road = some tr ∧ (diary J p file ops).book.scale = some tr.totalDistance := by
  have step : ∀ (ops : List (Op P)) (d : Diary P), (∀ ms, Op.call (.setMeshScale ms) ∉ ops) →
      (∃ tr, d.road = some tr ∧ d.book.scale = some tr.totalDistance) →
      ∃ tr, (ops.foldl (Diary.note J) d).road = some tr ∧ (ops.foldl (Diary.note J) d).book.scale = some tr.totalDistance := by
    intro ops
    induction ops with
    | nil => exact fun d _ h => h
    | cons o ops ih =>
      intro d hno h
      refine ih _ (fun ms hm => hno ms (List.mem_cons_of_mem _ hm)) ?_
      obtain ⟨tr, h1, h2⟩ := h
      cases o with
      | setTrack file =>
        rw [Diary.note.eq_def]
        dsimp only
        split
        · exact ⟨tr, h1, h2⟩
        · exact ⟨_, rfl, rfl⟩
      | call c =>
        refine ⟨tr, h1, ?_⟩
        show (d.book.note J c).scale = _
        cases c with
        | setMeshScale ms => exact absurd (List.mem_cons_self ..) (hno ms)
        | setParams r => simp only [Book.note]; split <;> exact h2
        | addObjective n o => simp only [Book.note]; split <;> exact h2
        | deleteObjective n => simp only [Book.note]; split <;> exact h2
        | addConstraints n o => simp only [Book.note]; split <;> exact h2
        | deleteConstraints n => simp only [Book.note]; split <;> exact h2
        | bounds c => exact h2
        | setScales c => exact h2
        | setCons => exact h2
        | hessianstructure => exact h2
        | hessian x l c => exact h2
        | solve a => exact h2
  obtain ⟨tr, htr⟩ := hf
  refine step ops _ hno ⟨tr, ?_, ?_⟩ <;> · rw [Diary.note.eq_def]; dsimp only; rw [htr]

/-- **C98 (the objective).** The lap time, the mean square of the steering, and the user's own. -/
theorem C98_objective (hE : E.Good V D) (hp : V p) (hS : front (vehicleOnTrack (E.car p)) (E.unit p) E.conf = .ok S)
    (hs : simulate E p file = .ok s) (hops : GoodOps (E.kind S) V (diary (E.kind S) p file []) ops) {x : List ℝ}
    (hx : x.length = S.c.o.L.numDec) (hobj : (diary (E.kind S) p file ops).book.objNames ≠ []) :
    (s.run ops).use.now.objective (vdiv x (s.run ops).use.now.scales) = .ok
      ((if (diary (E.kind S) p file ops).book.time then
          readAt S.c.o.L x "states" "time" (S.c.o.L.numStages - 1) - readAt S.c.o.L x "states" "time" 0 else 0)
        + (if (diary (E.kind S) p file ops).book.penalty then
          (∑ k ∈ Finset.range S.c.o.L.numStages, readAt S.c.o.L x "inputs" "steer" k ^ 2) / (S.c.o.L.numStages : ℝ) else 0)
        + ((diary (E.kind S) p file ops).book.objs.map fun o => o.2 x).sum) := by
  obtain ⟨t, u, tr, ms, ht, hm, hu, hF, hr, hms, hq, hok⟩ := driven hE hp hS hs hops
  obtain ⟨cs, c1, c2, c3⟩ := hF.calls
  rw [c2, C97_objective (kind_good hE ht hm) hok hu c1 hx, ← c3, if_neg hobj]
  unfold Book.cost
  rw [hms]
  rfl

/-- **C98 (scales).** Those of the last `set_scales`, or of the configuration. -/
theorem C98_scales (hE : E.Good V D) (hp : V p) (hS : front (vehicleOnTrack (E.car p)) (E.unit p) E.conf = .ok S)
    (hs : simulate E p file = .ok s) (hops : GoodOps (E.kind S) V (diary (E.kind S) p file []) ops)
    {v : Var} {i : Nat} (hvar : S.c.o.L.IsVar v) (hq : S.c.o.L.query v = .ok (.scalar i)) :
    (s.run ops).use.now.scales[i]? = some (askedScale (diary (E.kind S) p file ops).book.scales (Var.group v) (Var.name v)) := by
  obtain ⟨t, u, tr, ms, ht, hm, hu, hF, hr, hms, _, hok⟩ := driven hE hp hS hs hops
  obtain ⟨cs, c1, c2, c3⟩ := hF.calls
  rw [c2, c3]
  exact C97_scales (kind_good hE ht hm) hok hu c1 hvar hq

/-- **C98 (the initial guess).** After any history it is computed on the road last set, with the parameters now in force. -/
theorem C98_guess (hE : E.Good V D) (hp : V p) (hS : front (vehicleOnTrack (E.car p)) (E.unit p) E.conf = .ok S)
    (hs : simulate E p file = .ok s) (hops : GoodOps (E.kind S) V (diary (E.kind S) p file []) ops) :
    ∃ tr x, (diary (E.kind S) p file ops).road = some tr ∧ (s.run ops).initGuess = .ok x ∧ x.length = S.c.o.L.numDec ∧
      ∀ k, k < S.c.o.L.numStages →
        readAt S.c.o.L x "states" "time" k = (S.c.mesh.getD k 0 - S.c.mesh.getD 0 0) * tr.totalDistance / 50 ∧
        (∀ n ∈ onTrackNames.states, n ≠ "time" → readAt S.c.o.L x "states" n k = guessState n) ∧
        tr.curvatureAt (S.c.mesh.getD k 0 * tr.totalDistance) = .ok (readAt S.c.o.L x "inputs" "track_curvature" k) ∧
        tr.headingAt (S.c.mesh.getD k 0 * tr.totalDistance) = .ok (readAt S.c.o.L x "inputs" "track_heading" k) ∧
        (∀ n ∈ onTrackNames.inputs, n ≠ "track_curvature" → n ≠ "track_heading" → readAt S.c.o.L x "inputs" n k = 0) ∧
        ((vehicleOnTrack (E.car (diary (E.kind S) p file ops).book.params)).explicit E.conf.conOutputs).f (readGroup S.c.o.L x "states" k)
          (readGroup S.c.o.L x "inputs" k) (S.c.mesh.getD k 0 * tr.totalDistance) = readGroup S.c.o.L x "states_dot" k ∧
        ((vehicleOnTrack (E.car (diary (E.kind S) p file ops).book.params)).explicit E.conf.conOutputs).h (readGroup S.c.o.L x "states" k)
          (readGroup S.c.o.L x "inputs" k) (S.c.mesh.getD k 0 * tr.totalDistance) = readGroup S.c.o.L x "con_outputs" k := by
  obtain ⟨t, u, tr, ms, ht, hm, hu, hF, hr, hms, hq, hok⟩ := driven hE hp hS hs hops
  have hi := hF.inv (kind_good hE ht hm) hok hu
  have hG := hF.guessable hE hp ht hm hu hr
  have eS : (s.run ops).lap.S = (E.kind S).at (some ms) (diary (E.kind S) p file ops).book.params S.isCyclic := by
    unfold Sim.lap
    rw [hi.kind, hi.scale, hi.params, hms]
    rfl
  obtain ⟨x, h1, h2, h3⟩ := C70_guess hG
  rw [eS] at h2 h3
  have m1 : ((vehicleOnTrack (E.car (diary (E.kind S) p file ops).book.params)).explicit E.conf.conOutputs).states = onTrackNames.states := by
    unfold Io.Mdl.explicit; rw [onTrack_names]; rfl
  have m2 : ((vehicleOnTrack (E.car (diary (E.kind S) p file ops).book.params)).explicit E.conf.conOutputs).inputs = onTrackNames.inputs := by
    unfold Io.Mdl.explicit; rw [onTrack_names]; rfl
  refine ⟨tr, x, hr, h1, h2, fun k hk => ?_⟩
  obtain ⟨a1, a2, a3, a4, a5, a6, a7⟩ := h3 k hk
  exact ⟨a1, fun n hn => a2 n (m1.symm ▸ hn), a3, a4, fun n hn => a5 n (m2.symm ▸ hn), a6, a7⟩

end Lumos.Drive
