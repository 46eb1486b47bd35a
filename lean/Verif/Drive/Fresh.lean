import Verif.Drive.Bounds
import Verif.Use.Fresh
/-!
# C98: a simulation in use is as good as a new one
-/

namespace Lumos.Drive

open Lumos DecVar DecVar.Layout NLP Bounds Ocp OCP Track LapSim Lts Io Io.Mdl Use Lumos.Trans Veh

variable {P : Type} {E : Entry P} {V : P → Prop} {D : P → List ℝ → ℝ → Prop} {p : P} {S : Setup} {file file' : Py (List Row)} {s s' : Sim P}
  {ops rest : List (Op P)} {t : Transcription}

theorem construct_inv {J : Kind P} {u : Use P} (hu : construct J p = .ok u) :
    u.J = J ∧ u.scale = J.S.builtScale ∧ u.params = p ∧ ∃ b, (J.at J.S.builtScale p J.S.isCyclic).build = .ok b ∧ u.bounds = b.bounds ∧
      ∀ ms q b', (J.at ms q J.S.isCyclic).build = .ok b' → u.prob ms q = b'.prob := by
  unfold construct at hu
  obtain ⟨b, hb, hu⟩ := Config.bind_ok hu
  simp only [pure, Except.pure, Except.ok.injEq] at hu
  subst hu
  refine ⟨rfl, rfl, rfl, b, hb, rfl, fun ms q b' hb' => ?_⟩
  dsimp only
  rw [hb']

/-- **C98 (a new object).** What the constructor makes here is the simulation of C95: its theorems hold of it. -/
theorem C98_new (hE : E.Good V D) (hp : V p) (hs : simulate E p file = .ok s) :
    laptime (E.car p) (E.unit p) E.conf file = .ok s.lap ∧ s.initGuess = s.lap.initGuess ∧
      ∃ b, s.lap.problem = .ok b ∧ b.prob = s.use.now ∧ b.bounds = s.use.bounds ∧ b.cl = s.use.cl ∧ b.cu = s.use.cu := by
  obtain ⟨t, S, u, tr, ht, hS, hm, hu, hf, hst, hF, hr⟩ := simulate_inv hE hp hs
  obtain ⟨k1, k2, k3, b0, k4, k5, k6⟩ := construct_inv hu
  have hb : (E.kind S).S.builtScale = some 1 := hm.plain.1
  have hb' : (⟨u, none⟩ : Sim P).use.J.S.builtScale ≠ none := by show u.J.S.builtScale ≠ none; rw [k1, hb]; simp
  obtain ⟨e1, e2⟩ := setTrack_lap hb' file
  rw [hst] at e1 e2
  have hok : OK V (E.kind S).S.builtScale p := ⟨by rw [hb]; simp, hp⟩
  have eS : (E.kind S).at (E.kind S).S.builtScale p (E.kind S).S.isCyclic = S := by
    obtain ⟨⟨o, M, u', mesh⟩, b, l, cy, nc, cd, sa, bo, bc, sc⟩ := S
    obtain ⟨L, A, B, nl, fs⟩ := o
    have h1 := hm.scale
    have h2 := hm.model
    have h3 := hm.unit
    obtain ⟨h4, h5, -⟩ := hm.plain
    dsimp only at h1 h2 h3 h4 h5
    subst h1 h2 h3 h4 h5
    rfl
  have el : (⟨u, none⟩ : Sim P).lap = ⟨S, b0.bounds, none⟩ := by
    unfold Sim.lap
    dsimp only
    rw [k1, k2, k3, k5, eS]
  have hbase := eS ▸ k4
  refine ⟨?_, rfl, ?_⟩
  · unfold laptime
    rw [hS]
    simp only [bind, Except.bind]
    unfold Lap.make
    rw [show rescale { S with builtScale := some 1, laptime := true } 1 = S from start_made hm]
    simp only [bind, Except.bind, hbase]
    rw [← el, e1]
    rfl
  · have hi := hF.inv (kind_good hE ht hm) hok hu
    have hms : s.use.scale = some tr.totalDistance := by
      rw [hi.scale]
      unfold diary
      rw [List.foldl_cons, Diary.note.eq_def]
      dsimp only
      rw [hf]
      rfl
    have hps : s.use.params = p := by
      rw [hi.params]
      unfold diary
      rw [List.foldl_cons, Diary.note.eq_def]
      dsimp only
      rw [hf]
      rfl
    obtain ⟨b, o, s1, g1, _, g2, g3, _, g4, g5, _⟩ := build_ok (good_at hE hp ht hm tr.totalDistance)
    have hlap : s.lap.S = (E.kind S).at (some tr.totalDistance) p S.isCyclic := by
      unfold Sim.lap
      dsimp only
      rw [hi.kind, hms, hps]
      rfl
    have hprob : s.use.now = b.prob := by
      have hpr : s.use.prob = u.prob := by
        have : s = (Sim.setTrack ⟨u, none⟩ file).1 := by rw [hst]
        rw [this]
        unfold Sim.setTrack
        rw [hf]
        dsimp only
        have e1 : u.step (.setMeshScale tr.totalDistance) = ({ u with scale := some tr.totalDistance }, none) := by
          have : u.J.S.builtScale ≠ none := hb'
          simp only [Use.step, if_neg this]
        rw [e1]
        dsimp only
        cases trackBounds u.J.S tr <;> rfl
      unfold Use.now
      rw [hms, hps, hpr]
      exact k6 _ _ _ g1
    have hlim : (diary (E.kind S) p file []).book.limits = b.prob.numCon := by
      have h1 := rows_fits (kind_good hE ht hm) hi.sane (hi.sane.valid) (hi.fits _ _ hi.sane.valid)
      rw [← hi.scale, ← hi.params] at h1
      have h2 : s.use.now.numCon = _ := h1
      rw [hprob] at h2
      rw [h2]
      unfold diary
      rw [List.foldl_cons, Diary.note.eq_def]
      dsimp only
      rw [hf]
      show builtRows _ _ _ = _
      simp only [Book.rows, List.foldl_nil, Book.init, List.map_nil, List.sum_nil, Nat.add_zero]
    refine ⟨{ b with bounds := s.lap.st }, ?_, hprob.symm, rfl, ?_, ?_⟩
    · unfold Lap.problem
      rw [hlap, g1]
      rfl
    · rw [hi.cl, hlim]
      exact g4
    · rw [hi.cu, hlim]
      exact g5

/-! ## The settings in force, given to the constructor -/

/-- The same entry with other scales and with or without the cyclic constraint. -/
def Entry.tuned (E : Entry P) (b : Book P) : Entry P := { E with conf := { E.conf with scales := b.scales, isCyclic := b.cyclic } }

/-- What the first half of the constructor makes of it. -/
noncomputable def tunedSetup (E : Entry P) (b : Book P) (S : Setup) : Setup :=
  { S with c := { S.c with M := (vehicleOnTrack (E.car b.params)).explicit E.conf.conOutputs, u := E.unit b.params }
           scales := b.scales, isCyclic := b.cyclic }

theorem front_tuned (b : Book P) (hS : front (vehicleOnTrack (E.car p)) (E.unit p) E.conf = .ok S) :
    front (vehicleOnTrack ((E.tuned b).car b.params)) ((E.tuned b).unit b.params) (E.tuned b).conf = .ok (tunedSetup E b S) := by
  unfold front at hS ⊢
  obtain ⟨t, ht, hS⟩ := Config.bind_ok hS
  obtain ⟨L, hL, hS⟩ := Config.bind_ok hS
  obtain ⟨mesh, hmesh, hS⟩ := Config.bind_ok hS
  obtain ⟨flat, hflat, hS⟩ := Config.bind_ok hS
  obtain ⟨lens, hlens, hS⟩ := Config.bind_ok hS
  simp only [pure, Except.pure, Except.ok.injEq] at hS
  have hL' : Layout.make [("states", ((vehicleOnTrack ((E.tuned b).car b.params)).explicit E.conf.conOutputs).states),
      ("inputs", ((vehicleOnTrack ((E.tuned b).car b.params)).explicit E.conf.conOutputs).inputs),
      ("states_dot", ((vehicleOnTrack ((E.tuned b).car b.params)).explicit E.conf.conOutputs).states),
      ("con_outputs", ((vehicleOnTrack ((E.tuned b).car b.params)).explicit E.conf.conOutputs).conOutputs)]
      ["states", "inputs", "states_dot", "con_outputs"] [] E.conf.numIntervals t.stages = .ok L := by
    rw [← hL]
    unfold Io.Mdl.explicit
    rw [onTrack_names, onTrack_names]
    rfl
  simp only [Entry.tuned, bind, Except.bind, pure, Except.pure] at hL' ⊢
  rw [ht]
  dsimp only
  rw [hL']
  dsimp only
  rw [hmesh]
  dsimp only
  rw [hflat]
  dsimp only
  rw [hlens, ← hS]
  rfl

/-- Two objects with the same stages, mesh points and bounds have the same bounds after `set_track`, and raise the same. -/
theorem same_bounds {a b : Lap} (hL : a.S.c.o.L = b.S.c.o.L) (hm : a.S.c.mesh = b.S.c.mesh) (hst : a.st = b.st) (file : Py (List Row)) :
    (a.setTrack file).2 = (b.setTrack file).2 ∧ (a.setTrack file).1.st = (b.setTrack file).1.st ∧
    (a.setTrack file).1.S.c.o.L = (b.setTrack file).1.S.c.o.L ∧ (a.setTrack file).1.S.c.mesh = (b.setTrack file).1.S.c.mesh := by
  have htb : ∀ t : RaceTrack, trackBounds (rescale a.S t.totalDistance) t = trackBounds (rescale b.S t.totalDistance) t := by
    intro t
    unfold trackBounds distanceMesh rescale
    rw [hm]
  unfold Lap.setTrack
  cases fromTumCsv file with
  | error e => exact ⟨rfl, hst, hL, hm⟩
  | ok t =>
    dsimp only
    rw [htb t]
    cases trackBounds (rescale b.S t.totalDistance) t with
    | error e => exact ⟨rfl, hst, hL, hm⟩
    | ok bs =>
      dsimp only
      rw [show (rescale a.S t.totalDistance).c.o.L = (rescale b.S t.totalDistance).c.o.L from hL, hst]
      exact ⟨rfl, rfl, by first | exact hL | rfl, hm⟩

/-- Without bounds calls of the user's own, the bounds are those of a history of `set_track` calls. -/
theorem bounds_files {ops : List (Op P)} : ∀ {s : Sim P} {l : Lap}, s.use.J.S.builtScale ≠ none → (∀ c, Op.call (.bounds c) ∉ ops) →
    s.lap.S.c.o.L = l.S.c.o.L → s.lap.S.c.mesh = l.S.c.mesh → s.lap.st = l.st →
    ∃ files, (s.run ops).lap.S.c.o.L = (l.run files).S.c.o.L ∧ (s.run ops).lap.S.c.mesh = (l.run files).S.c.mesh ∧
      (s.run ops).lap.st = (l.run files).st := by
  induction ops with
  | nil => exact fun _ _ h1 h2 h3 => ⟨[], h1, h2, h3⟩
  | cons o ops ih =>
    intro s l hb hno h1 h2 h3
    have hno' : ∀ c, Op.call (.bounds c) ∉ ops := fun c hc => hno c (List.mem_cons_of_mem _ hc)
    have quiet : (s.step o).1.use.bounds = s.use.bounds ∧ (s.step o).1.use.J = s.use.J →
        ∃ files, (s.run (o :: ops)).lap.S.c.o.L = (l.run files).S.c.o.L ∧ (s.run (o :: ops)).lap.S.c.mesh = (l.run files).S.c.mesh ∧
          (s.run (o :: ops)).lap.st = (l.run files).st := by
      rintro ⟨e1, e2⟩
      refine ih (s := (s.step o).1) (by rw [e2]; exact hb) hno' ?_ ?_ ?_
      · rw [← h1]; show (s.step o).1.use.J.S.c.o.L = s.use.J.S.c.o.L; rw [e2]
      · rw [← h2]; show (s.step o).1.use.J.S.c.mesh = s.use.J.S.c.mesh; rw [e2]
      · rw [← h3]; exact e1
    cases o with
    | setTrack file =>
      obtain ⟨e1, e2⟩ := setTrack_lap hb file
      obtain ⟨_, g1, g2, g3⟩ := same_bounds h1 h2 h3 file
      rw [e1] at g1 g2 g3
      obtain ⟨files, f1, f2, f3⟩ := ih (s := (s.setTrack file).1) (l := (l.setTrack file).1) (by rw [e2]; exact hb) hno' g2 g3 g1
      exact ⟨file :: files, f1, f2, f3⟩
    | call c =>
      apply quiet
      cases c with
      | bounds c => exact absurd (List.mem_cons_self ..) (hno c)
      | setMeshScale ms =>
        show (s.use.step (.setMeshScale ms)).1.bounds = _ ∧ (s.use.step (.setMeshScale ms)).1.J = _
        simp only [Use.step]; split <;> exact ⟨rfl, rfl⟩
      | solve a => obtain ⟨q1, _, _, q4⟩ := quiet_step (o := Op.call (.solve a)) trivial s; exact ⟨q1, q4⟩
      | setParams q => obtain ⟨q1, _, _, q4⟩ := quiet_step (o := Op.call (.setParams q)) trivial s; exact ⟨q1, q4⟩
      | setScales c => exact ⟨rfl, rfl⟩
      | addObjective n c => exact ⟨rfl, rfl⟩
      | deleteObjective c => exact ⟨rfl, rfl⟩
      | addConstraints n c => exact ⟨rfl, rfl⟩
      | deleteConstraints c => exact ⟨rfl, rfl⟩
      | setCons => exact ⟨rfl, rfl⟩
      | hessianstructure => exact ⟨rfl, rfl⟩
      | hessian x l c => exact ⟨rfl, rfl⟩

theorem tuned_kind_good (hE : E.Good V D) (ht : makeTranscription E.conf.transcription E.conf.kwargs = .ok t)
    (hm : Made (vehicleOnTrack (E.car p)) (E.unit p) t E.conf S) {b : Book P} (hb : Sane (E.kind S) (OK V) b) :
    ((E.tuned b).kind (tunedSetup E b S)).Good (OK fun q => q = b.params) D := by
  refine ⟨?_, ?_⟩
  · rintro (_ | ms) q ⟨h, rfl⟩
    · exact absurd rfl h
    · obtain ⟨h1, h2, h3, h4, h5, h6, h7, h8, h9, h10, h11, h12, h13, h14, h15⟩ :=
        good_cyc ((kind_good hE ht hm).good (some ms) b.params ⟨by simp, hb.valid.2⟩) hb.cyc
      have hcd : S.isCondensed = false := hm.plain.2.2.2.1
      exact ⟨h1, h2, h3, h4, h5, h6, h7, h8, h9, h10, h11, h12, fun c hc => (hb.scales c hc).1,
        fun c hc => (hb.scales c hc).2, h15⟩
  · rintro ms ms' q q' ⟨_, rfl⟩ ⟨_, rfl⟩
    rfl

/-- The constructor may be called with the settings now in force, and the theorems on new objects hold. -/
theorem tuned_good (hE : E.Good V D) (hm : Made (vehicleOnTrack (E.car p)) (E.unit p) t E.conf S) {b : Book P}
    (hb : Sane (E.kind S) (OK V) b) : (E.tuned b).Good (fun q => q = b.params) D := by
  refine ⟨?_, ?_, ?_, ?_⟩
  · rintro q rfl; exact hE.car _ hb.valid.2
  · rintro q rfl
    have hu := hE.usable _ hb.valid.2
    refine ⟨hu.intervals, hu.distinct, hu.known, fun hc => hu.steer ?_, hu.outputs, fun c hc => ⟨(hb.scales c hc).2, fun k _ => ?_⟩, hu.bounds⟩
    · have := hb.cyc hc
      exact (hm.plain.2.2.1 ▸ this :)
    · have h1 := (hb.scales c hc).1
      have h2 : (E.kind S).S.c.o.L = layoutOf ((vehicleOnTrack (E.car p)).explicit E.conf.conOutputs) E.conf.numIntervals t.stages := hm.layout
      rw [h2] at h1
      have e : Lumos.Sim.groupsOf ((vehicleOnTrack (E.car p)).explicit E.conf.conOutputs)
          = Lumos.Sim.groupsOf ((vehicleOnTrack ((E.tuned b).car b.params)).explicit (E.tuned b).conf.conOutputs) := by
        unfold Lumos.Sim.groupsOf Io.Mdl.explicit
        rw [onTrack_names, onTrack_names]
        rfl
      unfold layoutOf at h1 ⊢
      rw [e] at h1
      exact h1
  · rintro q rfl
    obtain ⟨h1, h2, h3⟩ := hE.backed _ hb.valid.2
    exact ⟨h1, h2, h3⟩
  · rintro q q' rfl rfl; rfl

theorem guess_congr {a b : Lap} (hc : a.S.c = b.S.c) (ht : a.track = b.track) : a.initGuess = b.initGuess := by
  unfold Lap.initGuess distanceMesh
  rw [hc, ht]

theorem built_bounds {S S' : Setup} {D D' : List ℝ → ℝ → Prop} (h : S.Good D) (h' : S'.Good D') (hL : S.c.o.L = S'.c.o.L)
    (hb : S.bounds = S'.bounds) (hc : S.isCondensed = S'.isCondensed) (hbc : S.bcs = S'.bcs) {b b' : Built} (e : S.build = .ok b)
    (e' : S'.build = .ok b') : b.bounds = b'.bounds := by
  obtain ⟨_, _, s, k1, _, _, _, _, _, _, _, k2, k3, _⟩ := build_ok h
  obtain ⟨_, _, s', k1', _, _, _, _, _, _, _, k2', k3', _⟩ := build_ok h'
  rw [e, Except.ok.injEq] at k1
  rw [e', Except.ok.injEq] at k1'
  subst k1 k1'
  unfold Setup.allBounds at k2 k2'
  rw [hL, hb, hc, k2'] at k2
  rw [hL, hbc, ← (Prod.mk.inj k2).1, k3'] at k3
  exact (Prod.mk.inj k3).1.symm

theorem step_kind (s : Sim P) (o : Op P) : (s.step o).1.use.J = s.use.J := by
  cases o with
  | setTrack file =>
    show (s.setTrack file).1.use.J = _
    unfold Sim.setTrack
    cases fromTumCsv file with
    | error e => rfl
    | ok t =>
      dsimp only
      have e : (s.use.step (.setMeshScale t.totalDistance)).1.J = s.use.J := by simp only [Use.step]; split <;> rfl
      split
      · exact e
      · split <;> exact e
  | call c =>
    cases c with
    | setMeshScale ms => show (s.use.step (.setMeshScale ms)).1.J = _; simp only [Use.step]; split <;> rfl
    | bounds c => rfl
    | solve a => exact (quiet_step (o := Op.call (.solve a)) trivial s).2.2.2
    | setParams q => exact (quiet_step (o := Op.call (.setParams q)) trivial s).2.2.2
    | setScales c => rfl
    | addObjective n c => rfl
    | deleteObjective c => rfl
    | addConstraints n c => rfl
    | deleteConstraints c => rfl
    | setCons => rfl
    | hessianstructure => rfl
    | hessian x l c => rfl

theorem run_kind (ops : List (Op P)) : ∀ s : Sim P, (s.run ops).use.J = s.use.J := by
  induction ops with
  | nil => exact fun _ => rfl
  | cons o ops ih => exact fun s => (ih (s.step o).1).trans (step_kind s o)

/-- What an accepted track changes at once. -/
theorem setTrack_sets {s : Sim P} (hb : s.use.J.S.builtScale ≠ none) (hacc : (s.setTrack file').2 = none) :
    ∃ tr, fromTumCsv file' = .ok tr ∧ (s.setTrack file').1.track = some tr ∧ (s.setTrack file').1.use.scale = some tr.totalDistance := by
  unfold Sim.setTrack at hacc ⊢
  cases hf : fromTumCsv file' with
  | error e => rw [hf] at hacc; cases hacc
  | ok tr =>
    refine ⟨tr, rfl, ?_⟩
    rw [hf] at hacc
    dsimp only at hacc ⊢
    have e1 : s.use.step (.setMeshScale tr.totalDistance) = ({ s.use with scale := some tr.totalDistance }, none) := by
      simp only [Use.step, if_neg hb]
    rw [e1] at hacc ⊢
    dsimp only at hacc ⊢
    cases trackBounds s.use.J.S tr <;> exact ⟨rfl, rfl⟩

/-- The core: from the object before its first track. -/
theorem as_new_core (hE : E.Good V D) (hp : V p) (hS : front (vehicleOnTrack (E.car p)) (E.unit p) E.conf = .ok S)
    (ht : makeTranscription E.conf.transcription E.conf.kwargs = .ok t) (hm : Made (vehicleOnTrack (E.car p)) (E.unit p) t E.conf S)
    {u : Use P} (hu : construct (E.kind S) p = .ok u) {pre rest : List (Op P)} {d : Diary P}
    (hF : Follows (E.kind S) V p u ((⟨u, none⟩ : Sim P).run (pre ++ .setTrack file' :: rest)) d)
    (hno : ∀ c, Op.call (.bounds c) ∉ pre) (hacc : (((⟨u, none⟩ : Sim P).run pre).setTrack file').2 = none) (hrest : ∀ o ∈ rest, Quiet o)
    {b : Book P} (hbook : b = d.book)
    (hlim : b.limits = b.rows (E.kind S)) (hcons : b.cons = []) (hobjs : b.objs = []) (htime : b.time = true) (hpen : b.penalty = true) :
    (E.tuned b).Good (fun q => q = b.params) D ∧
    ∃ n, simulate (E.tuned b) b.params file' = .ok n ∧ n.track = ((⟨u, none⟩ : Sim P).run (pre ++ .setTrack file' :: rest)).track ∧
      n.use.scale = ((⟨u, none⟩ : Sim P).run (pre ++ .setTrack file' :: rest)).use.scale ∧
      n.use.bounds = ((⟨u, none⟩ : Sim P).run (pre ++ .setTrack file' :: rest)).use.bounds ∧
      n.use.now.scales = ((⟨u, none⟩ : Sim P).run (pre ++ .setTrack file' :: rest)).use.now.scales ∧
      n.initGuess = ((⟨u, none⟩ : Sim P).run (pre ++ .setTrack file' :: rest)).initGuess ∧
      ∀ x : List ℝ, x.length = S.c.o.L.numDec →
        (((⟨u, none⟩ : Sim P).run (pre ++ .setTrack file' :: rest)).use.Feasible (vdiv x n.use.now.scales) ↔ n.use.Feasible (vdiv x n.use.now.scales)) ∧
        ((⟨u, none⟩ : Sim P).run (pre ++ .setTrack file' :: rest)).use.now.objective (vdiv x n.use.now.scales) = n.use.now.objective (vdiv x n.use.now.scales) := by
  have hJ := kind_good hE ht hm
  have hb1 : S.builtScale = some 1 := hm.plain.1
  have hok : OK V (E.kind S).S.builtScale p := ⟨by show S.builtScale ≠ none; rw [hb1]; simp, hp⟩
  have hi := hF.inv hJ hok hu
  rw [← hbook] at hi
  have hsane := hi.sane
  obtain ⟨j1, j2, j3, b0, j4, j5, j6⟩ := construct_inv hu
  have hub : (⟨u, none⟩ : Sim P).use.J.S.builtScale ≠ none := by show u.J.S.builtScale ≠ none; rw [j1]; show S.builtScale ≠ none; rw [hb1]; simp
  have hbn : ((⟨u, none⟩ : Sim P).run pre).use.J.S.builtScale ≠ none := by rw [run_kind]; exact hub
  have erun : (⟨u, none⟩ : Sim P).run (pre ++ .setTrack file' :: rest) = (((⟨u, none⟩ : Sim P).run pre).setTrack file').1.run rest := by
    unfold Sim.run
    rw [List.foldl_append]
    rfl
  obtain ⟨r1, r2, r3, r4⟩ := quiet_run hrest (((⟨u, none⟩ : Sim P).run pre).setTrack file').1
  obtain ⟨tr, hf', htrack0, hscale0⟩ := setTrack_sets hbn hacc
  have htrack : ((⟨u, none⟩ : Sim P).run (pre ++ .setTrack file' :: rest)).track = some tr := by rw [erun, r2, htrack0]
  have hscale : ((⟨u, none⟩ : Sim P).run (pre ++ .setTrack file' :: rest)).use.scale = some tr.totalDistance := by rw [erun, r3, hscale0]
  have hbscale : b.scale = some tr.totalDistance := by rw [← hi.scale, hscale]
  have htg := tuned_good hE hm hsane
  refine ⟨htg, ?_⟩
  have hK := tuned_kind_good hE ht hm hsane
  have hKv : OK (fun q => q = b.params) ((E.tuned b).kind (tunedSetup E b S)).S.builtScale b.params :=
    ⟨by show S.builtScale ≠ none; rw [hb1]; simp, rfl⟩
  obtain ⟨v, hv⟩ := C97_construct hK hKv
  obtain ⟨k1, k2, k3, b2, k4, k5, k6⟩ := construct_inv hv
  -- the two starting objects have the same bounds
  have hb02 : b0.bounds = b2.bounds := by
    refine built_bounds (hJ.good _ _ hok) (hK.good _ _ hKv) rfl rfl rfl rfl j4 k4
  -- the object made by the constructor before the first track
  have hg0 := hJ.good _ _ hok
  obtain ⟨n1, n2, -, -⟩ := hm.names
  have hready : Ready ⟨(E.kind S).at (E.kind S).S.builtScale p (E.kind S).S.isCyclic, b0.bounds, none⟩ :=
    ready_of_build hg0 (by show _ ∈ S.c.o.L.namesOf _; rw [n2]; decide) (by show _ ∈ S.c.o.L.namesOf _; rw [n2]; decide)
      (by show _ ∈ S.c.o.L.namesOf _; rw [n1]; decide) j4
  obtain ⟨files, f1, f2, f3⟩ := bounds_files (ops := pre) (s := ⟨u, none⟩)
    (l := ⟨(E.kind S).at (E.kind S).S.builtScale p (E.kind S).S.isCyclic, b0.bounds, none⟩) hub
    hno
    (by show u.J.S.c.o.L = _; rw [j1]; rfl) (by show u.J.S.c.mesh = _; rw [j1]; rfl) (by show u.bounds = _; rw [j5])
  obtain ⟨a1, a2⟩ := setTrack_lap hbn file'
  obtain ⟨c1, c2, c3, c4⟩ := same_bounds f1 f2 f3 file'
  obtain ⟨l1, l2⟩ := C69_last_track hready files file'
  rw [a1] at c1 c2
  dsimp only at c1 c2
  rw [hacc, l1] at c1
  have l3 := l2 c1.symm
  have hvb : (⟨v, none⟩ : Sim P).use.J.S.builtScale ≠ none := by show v.J.S.builtScale ≠ none; rw [k1]; show S.builtScale ≠ none; rw [hb1]; simp
  obtain ⟨d1, d2⟩ := setTrack_lap hvb file'
  obtain ⟨g1, g2, _, _⟩ := same_bounds (a := ⟨(E.kind S).at (E.kind S).S.builtScale p (E.kind S).S.isCyclic, b0.bounds, none⟩)
    (b := (⟨v, none⟩ : Sim P).lap) (by show _ = v.J.S.c.o.L; rw [k1]; rfl) (by show _ = v.J.S.c.mesh; rw [k1]; rfl)
    (by show _ = v.bounds; rw [k5]; exact hb02) file'
  rw [d1] at g1 g2
  dsimp only at g1 g2
  rw [← c1] at g1
  have hrunfile : ∀ (l : Lap), l.run (files ++ [file']) = ((l.run files).setTrack file').1 := by
    intro l
    unfold Lap.run
    rw [List.foldl_append]
    rfl
  rw [hrunfile] at l3
  -- the new object
  have hF0 : Follows ((E.tuned b).kind (tunedSetup E b S)) (fun q => q = b.params) b.params v ⟨v, none⟩
      ⟨Book.init ((E.tuned b).kind (tunedSetup E b S)) b.params, none⟩ := ⟨⟨[], trivial, rfl, rfl⟩, rfl, fun _ e => (nomatch e)⟩
  have hF2 := hF0.setTrack hK hKv hv file'
  have hbnew : (Diary.note ((E.tuned b).kind (tunedSetup E b S)) ⟨Book.init ((E.tuned b).kind (tunedSetup E b S)) b.params, none⟩ (.setTrack file'))
      = ⟨{ Book.init ((E.tuned b).kind (tunedSetup E b S)) b.params with scale := some tr.totalDistance, bounds := [] ++ roadCalls (distanceMesh (tunedSetup E b S) tr) tr }, some tr⟩ := by
    rw [Diary.note.eq_def]
    dsimp only
    rw [hf']
    rfl
  rw [hbnew] at hF2
  have hi2 := hF2.inv hK hKv hv
  obtain ⟨cs2, p1, p2, p3⟩ := hF2.calls
  obtain ⟨cs, q1, q2, q3⟩ := hF.calls
  rw [← hbook] at q3
  have hscales : (Sim.setTrack ⟨v, none⟩ file').1.use.now.scales = ((⟨u, none⟩ : Sim P).run (pre ++ .setTrack file' :: rest)).use.now.scales := by
    have m1 := hi2.now.reach.inv.scales.1
    have m2 := hi.now.reach.inv.scales.1
    apply List.ext_getElem?
    intro i
    by_cases hlt : i < S.c.o.L.numDec
    · obtain ⟨w, w1, w2⟩ := C01_index_surjective (L := S.c.o.L) hg0.cond.ocp.made i hlt
      have e1 := C97_scales hK hKv hv p1 w1 w2
      have e2 := C97_scales hJ hok hu q1 w1 w2
      rw [← p2, ← p3] at e1
      rw [← q2, ← q3] at e2
      rw [e1, e2]
      rfl
    · have m1' : (Sim.setTrack ⟨v, none⟩ file').1.use.now.scales.length = S.c.o.L.numDec := m1
      have m2' : ((⟨u, none⟩ : Sim P).run (pre ++ .setTrack file' :: rest)).use.now.scales.length = S.c.o.L.numDec := m2
      rw [List.getElem?_eq_none (l := (Sim.setTrack ⟨v, none⟩ file').1.use.now.scales) (by omega),
        List.getElem?_eq_none (l := ((⟨u, none⟩ : Sim P).run (pre ++ .setTrack file' :: rest)).use.now.scales) (by omega)]
  have htr2 : (Sim.setTrack ⟨v, none⟩ file').1.track = some tr := hF2.road
  have hbds : (Sim.setTrack ⟨v, none⟩ file').1.use.bounds = ((⟨u, none⟩ : Sim P).run (pre ++ .setTrack file' :: rest)).use.bounds := by
    rw [erun, r1]
    have h1 : (((⟨u, none⟩ : Sim P).run pre).setTrack file').1.use.bounds = _ := c2
    rw [h1, l3]
    exact g2.symm
  refine ⟨(Sim.setTrack ⟨v, none⟩ file').1, ?_, by rw [htr2, htrack], by rw [hscale]; exact hi2.scale, hbds, hscales, ?_, fun x hx => ⟨?_, ?_⟩⟩
  · unfold simulate
    rw [front_tuned b hS]
    simp only [bind, Except.bind]
    rw [hv]
    dsimp only
    rcases hst2 : Sim.setTrack ⟨v, none⟩ file' with ⟨s2, o⟩
    rw [hst2] at g1
    dsimp only at g1
    rw [← g1]
  · refine guess_congr ?_ (by show (Sim.setTrack ⟨v, none⟩ file').1.track = _; rw [htr2]; exact htrack.symm)
    show ((Sim.setTrack ⟨v, none⟩ file').1.use.J.at _ _ _).c = (((⟨u, none⟩ : Sim P).run (pre ++ .setTrack file' :: rest)).use.J.at _ _ _).c
    rw [hi2.kind, hi.kind, hi2.scale, hi2.params, hi.scale, hi.params, hbscale]
    rfl
  · have hU : b.UserHolds x := by
      intro c hc
      rw [hcons] at hc
      cases hc
    have e1 := C97_meaning hJ hok hu q1 hm.plain.2.2.2.1 hx
    have e2 := C97_meaning hK hKv hv p1 hm.plain.2.2.2.1 hx
    rw [← q2, ← q3] at e1
    rw [← p2, ← p3] at e2
    rw [hscales, e1, ← hscales, e2]
    have hset : ∀ y, IsSolution (b.setup (E.kind S)) y ↔
        IsSolution (({ Book.init ((E.tuned b).kind (tunedSetup E b S)) b.params with scale := some tr.totalDistance, bounds := [] ++ roadCalls (distanceMesh (tunedSetup E b S) tr) tr } : Book P).setup ((E.tuned b).kind (tunedSetup E b S))) y := by
      intro y
      unfold Book.setup
      rw [hbscale]
      exact ⟨fun h => ⟨h.1, h.2, h.3, h.4, h.5⟩, fun h => ⟨h.1, h.2, h.3, h.4, h.5⟩⟩
    constructor
    · rintro ⟨_, y, _⟩
      exact ⟨rfl, (hset x).mp y, fun c hc => (nomatch hc)⟩
    · rintro ⟨_, y, _⟩
      exact ⟨hlim, (hset x).mpr y, hU⟩
  · have e1 := C97_objective hJ hok hu q1 hx
    have e2 := C97_objective hK hKv hv p1 hx
    rw [← q2, ← q3] at e1
    rw [← p2, ← p3] at e2
    rw [e2, hscales, e1]
    have n1 : b.objNames ≠ [] := by
      unfold Book.objNames
      rw [htime]
      simp
    have n2 : ({ Book.init ((E.tuned b).kind (tunedSetup E b S)) b.params with scale := some tr.totalDistance, bounds := [] ++ roadCalls (distanceMesh (tunedSetup E b S) tr) tr } : Book P).objNames ≠ [] := by
      show (["time"] ++ _) ++ _ ≠ []
      simp
    rw [if_neg n1, if_neg n2]
    congr 1
    unfold Book.cost
    dsimp only
    rw [htime, hpen, hobjs, hbscale]
    show _ = (if true = true then _ else _) + (if S.laptime = true then _ else _) + _
    rw [hm.plain.2.1]
    rfl


/-- **C98 (history does not matter).** Take any history in which the user changes no bounds, then a track which is accepted, then
calls that concern neither bounds, track nor length. If now the objectives are those of the construction, there are no constraints of
the user's own, and the limits fit, then the object is the one which the constructor makes from the settings now in force — the
parameters, the scales, the cyclic constraint or not — and the last track file: the same road, length, bounds, scales, initial guess,
feasible points and objective. -/
theorem C98_as_new (hE : E.Good V D) (hp : V p) (hS : front (vehicleOnTrack (E.car p)) (E.unit p) E.conf = .ok S)
    (hs : simulate E p file = .ok s)
    (hops : GoodOps (E.kind S) V (diary (E.kind S) p file []) (ops ++ .setTrack file' :: rest))
    (hno : ∀ c, Op.call (.bounds c) ∉ ops) (hacc : ((s.run ops).step (.setTrack file')).2 = none) (hrest : ∀ o ∈ rest, Quiet o)
    {b : Book P} (hbook : b = (diary (E.kind S) p file (ops ++ .setTrack file' :: rest)).book)
    (hlim : b.limits = b.rows (E.kind S)) (hcons : b.cons = []) (hobjs : b.objs = []) (htime : b.time = true) (hpen : b.penalty = true) :
    (E.tuned b).Good (fun q => q = b.params) D ∧
    ∃ n, simulate (E.tuned b) b.params file' = .ok n ∧ n.track = (s.run (ops ++ .setTrack file' :: rest)).track ∧
      n.use.scale = (s.run (ops ++ .setTrack file' :: rest)).use.scale ∧
      n.use.bounds = (s.run (ops ++ .setTrack file' :: rest)).use.bounds ∧
      n.use.now.scales = (s.run (ops ++ .setTrack file' :: rest)).use.now.scales ∧
      n.initGuess = (s.run (ops ++ .setTrack file' :: rest)).initGuess ∧
      ∀ x : List ℝ, x.length = S.c.o.L.numDec →
        ((s.run (ops ++ .setTrack file' :: rest)).use.Feasible (vdiv x n.use.now.scales) ↔ n.use.Feasible (vdiv x n.use.now.scales)) ∧
        (s.run (ops ++ .setTrack file' :: rest)).use.now.objective (vdiv x n.use.now.scales) = n.use.now.objective (vdiv x n.use.now.scales) := by
  have hops1 : GoodOps (E.kind S) V (diary (E.kind S) p file []) ops := by
    have : ∀ (ops rest : List (Op P)) (d : Diary P), GoodOps (E.kind S) V d (ops ++ rest) → GoodOps (E.kind S) V d ops := by
      intro ops
      induction ops with
      | nil => exact fun _ _ _ => trivial
      | cons o ops ih => exact fun rest d h => ⟨h.1, ih rest _ h.2⟩
    exact this _ _ _ hops
  obtain ⟨t, u, tr0, ms, ht, hm, hu, hF, hr, hms, hq, hok⟩ := driven hE hp hS hs hops
  obtain ⟨_, S', u1, tr1, ht1, hS1, _, hu1, hf1, hst1, _, _⟩ := simulate_inv hE hp hs
  rw [hS, Except.ok.injEq] at hS1
  subst hS1
  rw [hu, Except.ok.injEq] at hu1
  subst hu1
  have hall : ∀ l, (⟨u, none⟩ : Sim P).run (.setTrack file :: l) = s.run l := by
    intro l
    show (Sim.setTrack ⟨u, none⟩ file).1.run l = _
    rw [hst1]
  have e : (⟨u, none⟩ : Sim P).run ((.setTrack file :: ops) ++ .setTrack file' :: rest) = s.run (ops ++ .setTrack file' :: rest) := hall _
  have := as_new_core (pre := .setTrack file :: ops) (rest := rest) (file' := file') hE hp hS ht hm hu (by rw [e]; exact hF)
    (fun c hc => by rcases List.mem_cons.mp hc with h | h
                    · cases h
                    · exact hno c h)
    (by rw [hall]; exact hacc) hrest hbook hlim hcons hobjs htime hpen
  rw [e] at this
  exact this

/-- **C98 (history on one track does not matter).** The same for a history without another track. -/
theorem C98_same_track (hE : E.Good V D) (hp : V p) (hS : front (vehicleOnTrack (E.car p)) (E.unit p) E.conf = .ok S)
    (hs : simulate E p file = .ok s) (hops : GoodOps (E.kind S) V (diary (E.kind S) p file []) ops) (hquiet : ∀ o ∈ ops, Quiet o)
    {b : Book P} (hbook : b = (diary (E.kind S) p file ops).book)
    (hlim : b.limits = b.rows (E.kind S)) (hcons : b.cons = []) (hobjs : b.objs = []) (htime : b.time = true) (hpen : b.penalty = true) :
    (E.tuned b).Good (fun q => q = b.params) D ∧
    ∃ n, simulate (E.tuned b) b.params file = .ok n ∧ n.track = (s.run ops).track ∧ n.use.scale = (s.run ops).use.scale ∧
      n.use.bounds = (s.run ops).use.bounds ∧ n.use.now.scales = (s.run ops).use.now.scales ∧ n.initGuess = (s.run ops).initGuess ∧
      ∀ x : List ℝ, x.length = S.c.o.L.numDec →
        ((s.run ops).use.Feasible (vdiv x n.use.now.scales) ↔ n.use.Feasible (vdiv x n.use.now.scales)) ∧
        (s.run ops).use.now.objective (vdiv x n.use.now.scales) = n.use.now.objective (vdiv x n.use.now.scales) := by
  obtain ⟨t, u, tr0, ms, ht, hm, hu, hF, hr, hms, hq, hok⟩ := driven hE hp hS hs hops
  obtain ⟨_, S', u1, tr1, ht1, hS1, _, hu1, hf1, hst1, _, _⟩ := simulate_inv hE hp hs
  rw [hS, Except.ok.injEq] at hS1
  subst hS1
  rw [hu, Except.ok.injEq] at hu1
  subst hu1
  have e : (⟨u, none⟩ : Sim P).run ([] ++ .setTrack file :: ops) = s.run ops := by
    show (Sim.setTrack ⟨u, none⟩ file).1.run ops = _
    rw [hst1]
  have := as_new_core (pre := []) (rest := ops) (file' := file) hE hp hS ht hm hu (by rw [e]; exact hF)
    (fun c hc => (nomatch hc)) (by show (Sim.setTrack ⟨u, none⟩ file).2 = none; rw [hst1]) hquiet hbook hlim hcons hobjs htime hpen
  rw [e] at this
  exact this

end Lumos.Drive
