import Verif.Drive.Fresh
import Verif.Lts.Straight
import Verif.Lap.Example
/-!
# C98: sweeps over parameters, scales and tracks on one object
-/

namespace Lumos.Drive

open Lumos DecVar DecVar.Layout NLP Bounds Ocp OCP Track LapSim Lts Io Io.Mdl Use Lumos.Trans Veh

variable {P : Type} {E : Entry P} {V : P → Prop} {D : P → List ℝ → ℝ → Prop} {p : P} {S : Setup} {file file' : Py (List Row)} {s s' : Sim P}
  {ops rest : List (Op P)} {t : Transcription}

/-- **C98 (every road is accepted)** after any history in which the user changes no bounds. -/
theorem C98_road_accepted (hE : E.Good V D) (hp : V p) (hS : front (vehicleOnTrack (E.car p)) (E.unit p) E.conf = .ok S)
    (hs : simulate E p file = .ok s) (hno : ∀ c, Op.call (.bounds c) ∉ ops) {rows : List Row} (hr : Road rows) :
    ((s.run ops).step (.setTrack (.ok rows))).2 = none := by
  obtain ⟨t, S', u, tr1, ht, hS1, hm, hu, hf1, hst1, _, _⟩ := simulate_inv hE hp hs
  rw [hS, Except.ok.injEq] at hS1
  subst hS1
  have hJ := kind_good hE ht hm
  have hb1 : S.builtScale = some 1 := hm.plain.1
  have hok : OK V (E.kind S).S.builtScale p := ⟨by show S.builtScale ≠ none; rw [hb1]; simp, hp⟩
  obtain ⟨j1, j2, j3, b0, j4, j5, j6⟩ := construct_inv hu
  obtain ⟨n1, n2, -, -⟩ := hm.names
  have hready : Ready ⟨(E.kind S).at (E.kind S).S.builtScale p (E.kind S).S.isCyclic, b0.bounds, none⟩ :=
    ready_of_build (hJ.good _ _ hok) (by show _ ∈ S.c.o.L.namesOf _; rw [n2]; decide) (by show _ ∈ S.c.o.L.namesOf _; rw [n2]; decide)
      (by show _ ∈ S.c.o.L.namesOf _; rw [n1]; decide) j4
  have hub : (⟨u, none⟩ : Sim P).use.J.S.builtScale ≠ none := by show u.J.S.builtScale ≠ none; rw [j1]; show S.builtScale ≠ none; rw [hb1]; simp
  have hall : (⟨u, none⟩ : Sim P).run (.setTrack file :: ops) = s.run ops := by
    show (Sim.setTrack ⟨u, none⟩ file).1.run ops = _
    rw [hst1]
  obtain ⟨files, f1, f2, f3⟩ := bounds_files (ops := .setTrack file :: ops) (s := ⟨u, none⟩)
    (l := ⟨(E.kind S).at (E.kind S).S.builtScale p (E.kind S).S.isCyclic, b0.bounds, none⟩) hub
    (fun c hc => by rcases List.mem_cons.mp hc with h | h
                    · cases h
                    · exact hno c h)
    (by show u.J.S.c.o.L = _; rw [j1]; rfl) (by show u.J.S.c.mesh = _; rw [j1]; rfl) (by show u.bounds = _; rw [j5])
  rw [hall] at f1 f2 f3
  have hbn : (s.run ops).use.J.S.builtScale ≠ none := by rw [← hall, run_kind]; exact hub
  obtain ⟨a1, _⟩ := setTrack_lap hbn (.ok rows)
  obtain ⟨c1, -⟩ := same_bounds f1 f2 f3 (.ok rows)
  have := C69_road_accepted (Like.run hready files).ready hr
  rw [this, a1] at c1
  exact c1

/-- The calls of a sweep: parameters for which the vehicle is right, scales that exist and are not zero, tracks, and solves. -/
def Sweep (L : Layout) (V : P → Prop) : Op P → Prop
  | .setTrack _ => True
  | .call (.setParams q) => V q
  | .call (.setScales cfgs) => ∀ c ∈ cfgs, c.Known L ∧ c.value ≠ 0
  | .call (.solve _) => True
  | .call _ => False

/-- The parameters last set. -/
def lastParams (p : P) : List (Op P) → P
  | [] => p
  | .call (.setParams q) :: ops => lastParams q ops
  | _ :: ops => lastParams p ops

/-- The scales last set. -/
def lastScales (cfgs : List ScaleConfig) : List (Op P) → List ScaleConfig
  | [] => cfgs
  | .call (.setScales c) :: ops => lastScales c ops
  | _ :: ops => lastScales cfgs ops

/-- A sweep adds and deletes nothing. -/
structure Clean (J : Kind P) (V : P → Prop) (d : Diary P) : Prop where
  valid : V d.book.params
  scale : d.book.scale ≠ none
  time : d.book.time = true
  pen : d.book.penalty = true
  objs : d.book.objs = []
  cons : d.book.cons = []
  cyc : d.book.cyclic = J.S.isCyclic
  limits : d.book.limits = d.book.rows J
  changed : d.book.changed = false

theorem rows_params {J : Kind P} (hJ : J.Good (OK V) D) {b : Book P} {q : P} (hs : b.scale ≠ none) (hv : V b.params) (hq : V q) :
    ({ b with params := q } : Book P).rows J = b.rows J := by
  unfold Book.rows builtRows
  dsimp only
  rw [hJ.residuals b.scale b.scale q b.params ⟨hs, hq⟩ ⟨hs, hv⟩]

theorem sweep_step {J : Kind P} (hJ : J.Good (OK V) D) (hcd : J.S.isCondensed = false) {d : Diary P} (h : Clean J V d) {o : Op P}
    (ho : Sweep J.S.c.o.L V o) : GoodOp J V d o ∧ Clean J V (d.note J o) ∧ (d.note J o).book.params = lastParams d.book.params [o] ∧
      (d.note J o).book.scales = lastScales d.book.scales [o] := by
  have hobj : d.book.objNames ≠ [] := by unfold Book.objNames; rw [h.time]; simp
  cases o with
  | setTrack file =>
    refine ⟨trivial, ?_⟩
    rw [Diary.note.eq_def]
    dsimp only
    cases fromTumCsv file with
    | error e => exact ⟨h, rfl, rfl⟩
    | ok tr =>
      obtain ⟨h1, h2, h3, h4, h5, h6, h7, h8, h9⟩ := h
      exact ⟨⟨h1, by simp, h3, h4, h5, h6, h7, h8, h9⟩, rfl, rfl⟩
  | call c =>
    cases c with
    | setParams q =>
      have hq : V q := ho
      refine ⟨⟨h.scale, hq⟩, ?_⟩
      have e : d.note J (.call (.setParams q)) = { d with book := { d.book with params := q } } := by
        simp only [Diary.note, Book.note, hcd]
        rfl
      rw [e]
      obtain ⟨h1, h2, h3, h4, h5, h6, h7, h8, h9⟩ := h
      exact ⟨⟨hq, h2, h3, h4, h5, h6, h7, h8.trans (rows_params hJ h2 h1 hq).symm, h9⟩, rfl, rfl⟩
    | setScales cfgs =>
      obtain ⟨h1, h2, h3, h4, h5, h6, h7, h8, h9⟩ := h
      exact ⟨ho, ⟨h1, h2, h3, h4, h5, h6, h7, h8, h9⟩, rfl, rfl⟩
    | solve a =>
      refine ⟨fun _ => ⟨hobj, fun _ => h.changed⟩, ?_⟩
      have e : d.note J (.call (.solve a)) = d := by
        have h9 := h.changed
        simp only [Diary.note, Book.note, if_neg hobj, if_pos h.limits]
        rw [← h9]
      rw [e]
      exact ⟨h, rfl, rfl⟩
    | bounds c => exact absurd ho (fun h => h)
    | setMeshScale c => exact absurd ho (fun h => h)
    | addObjective n c => exact absurd ho (fun h => h)
    | deleteObjective c => exact absurd ho (fun h => h)
    | addConstraints n c => exact absurd ho (fun h => h)
    | deleteConstraints c => exact absurd ho (fun h => h)
    | setCons => exact absurd ho (fun h => h)
    | hessianstructure => exact absurd ho (fun h => h)
    | hessian x l c => exact absurd ho (fun h => h)

theorem lastParams_cons (p : P) (o : Op P) (ops : List (Op P)) : lastParams p (o :: ops) = lastParams (lastParams p [o]) ops := by
  cases o with
  | setTrack f => rfl
  | call c => cases c <;> rfl

theorem lastScales_cons (c : List ScaleConfig) (o : Op P) (ops : List (Op P)) : lastScales c (o :: ops) = lastScales (lastScales c [o]) ops := by
  cases o with
  | setTrack f => rfl
  | call c => cases c <;> rfl

theorem sweep_run {J : Kind P} (hJ : J.Good (OK V) D) (hcd : J.S.isCondensed = false) : ∀ (ops : List (Op P)) {d : Diary P}, Clean J V d →
    (∀ o ∈ ops, Sweep J.S.c.o.L V o) → GoodOps J V d ops ∧ Clean J V (ops.foldl (Diary.note J) d) ∧
      (ops.foldl (Diary.note J) d).book.params = lastParams d.book.params ops ∧
      (ops.foldl (Diary.note J) d).book.scales = lastScales d.book.scales ops := by
  intro ops
  induction ops with
  | nil => exact fun h _ => ⟨trivial, h, rfl, rfl⟩
  | cons o ops ih =>
    intro d h ho
    obtain ⟨h1, h2, h3, h4⟩ := sweep_step hJ hcd h (ho o (List.mem_cons_self ..))
    obtain ⟨k1, k2, k3, k4⟩ := ih h2 (fun o' ho' => ho o' (List.mem_cons_of_mem _ ho'))
    refine ⟨⟨h1, k1⟩, k2, ?_, ?_⟩
    · rw [lastParams_cons, ← h3]; exact k3
    · rw [lastScales_cons, ← h4]; exact k4

theorem clean_first (hE : E.Good V D) (hp : V p) (hS : front (vehicleOnTrack (E.car p)) (E.unit p) E.conf = .ok S)
    (hs : simulate E p file = .ok s) : Clean (E.kind S) V (diary (E.kind S) p file []) ∧ (diary (E.kind S) p file []).book.params = p ∧
      (diary (E.kind S) p file []).book.scales = E.conf.scales ∧ S.isCyclic = E.conf.isCyclic := by
  obtain ⟨t, S', u, tr, ht, hS1, hm, hu, hf, hst1, _, _⟩ := simulate_inv hE hp hs
  rw [hS, Except.ok.injEq] at hS1
  subst hS1
  unfold diary
  rw [List.foldl_cons, Diary.note.eq_def]
  dsimp only
  rw [hf]
  refine ⟨⟨hp, by simp, rfl, ?_, rfl, rfl, rfl, ?_, rfl⟩, rfl, ?_, hm.plain.2.2.1⟩
  · exact hm.plain.2.1
  · show builtRows _ _ _ = _
    simp only [Book.rows, List.foldl_nil, Book.init, List.map_nil, List.sum_nil, Nat.add_zero]
  · exact hm.config.2.2

/-- The entry with other scales. -/
def Entry.scaled (E : Entry P) (cfgs : List ScaleConfig) : Entry P := { E with conf := { E.conf with scales := cfgs } }

/-- **C98 (a sweep).** Parameters and scales are set, tracks changed — some of them perhaps rejected — and problems solved, any number
of times and in any order; then a road is set, and after it again parameters and scales are set and problems solved. The object is
then the one that the constructor makes from the parameters and scales last set and that road: the same road, length, bounds, scales,
initial guess, feasible points and objective. -/
theorem C98_sweep (hE : E.Good V D) (hp : V p) (hS : front (vehicleOnTrack (E.car p)) (E.unit p) E.conf = .ok S)
    (hs : simulate E p file = .ok s) {rows : List Row} (hr : Road rows) (hops : ∀ o ∈ ops, Sweep S.c.o.L V o)
    (hrest : ∀ o ∈ rest, Sweep S.c.o.L V o ∧ ∀ f, o ≠ .setTrack f) :
    V (lastParams p (ops ++ .setTrack (.ok rows) :: rest)) ∧
    (E.scaled (lastScales E.conf.scales (ops ++ .setTrack (.ok rows) :: rest))).Good (· = lastParams p (ops ++ .setTrack (.ok rows) :: rest)) D ∧
    ∃ n, simulate (E.scaled (lastScales E.conf.scales (ops ++ .setTrack (.ok rows) :: rest))) (lastParams p (ops ++ .setTrack (.ok rows) :: rest)) (.ok rows) = .ok n ∧
      n.track = (s.run (ops ++ .setTrack (.ok rows) :: rest)).track ∧
      n.use.scale = (s.run (ops ++ .setTrack (.ok rows) :: rest)).use.scale ∧
      n.use.bounds = (s.run (ops ++ .setTrack (.ok rows) :: rest)).use.bounds ∧
      n.use.now.scales = (s.run (ops ++ .setTrack (.ok rows) :: rest)).use.now.scales ∧
      n.initGuess = (s.run (ops ++ .setTrack (.ok rows) :: rest)).initGuess ∧
      ∀ x : List ℝ, x.length = S.c.o.L.numDec →
        ((s.run (ops ++ .setTrack (.ok rows) :: rest)).use.Feasible (vdiv x n.use.now.scales) ↔ n.use.Feasible (vdiv x n.use.now.scales)) ∧
        (s.run (ops ++ .setTrack (.ok rows) :: rest)).use.now.objective (vdiv x n.use.now.scales) = n.use.now.objective (vdiv x n.use.now.scales) := by
  obtain ⟨t, S', u, tr1, ht, hS1, hm, hu, hf1, hst1, _, _⟩ := simulate_inv hE hp hs
  rw [hS, Except.ok.injEq] at hS1
  subst hS1
  obtain ⟨hc, e1, e2, e3⟩ := clean_first hE hp hS hs
  have hsw : ∀ o ∈ ops ++ .setTrack (.ok rows) :: rest, Sweep (E.kind S).S.c.o.L V o := by
    intro o ho
    rcases List.mem_append.mp ho with h | h
    · exact hops o h
    · rcases List.mem_cons.mp h with h | h
      · subst h; trivial
      · exact (hrest o h).1
  obtain ⟨g1, g2, g3, g4⟩ := sweep_run (kind_good hE ht hm) hm.plain.2.2.2.1 _ hc hsw
  have hno : ∀ c, Op.call (.bounds c) ∉ ops := fun c hc => hops _ hc
  have hacc := C98_road_accepted (ops := ops) hE hp hS hs hno hr
  have hq : ∀ o ∈ rest, Quiet o := by
    intro o ho
    obtain ⟨h1, h2⟩ := hrest o ho
    cases o with
    | setTrack f => exact absurd rfl (h2 f)
    | call c => cases c <;> trivial
  obtain ⟨k1, k2⟩ := C98_as_new hE hp hS hs g1 hno hacc hq rfl g2.limits g2.cons g2.objs g2.time g2.pen
  have eb : E.tuned (diary (E.kind S) p file (ops ++ .setTrack (.ok rows) :: rest)).book
      = E.scaled (lastScales E.conf.scales (ops ++ .setTrack (.ok rows) :: rest)) := by
    unfold Entry.tuned Entry.scaled
    have h1 : (diary (E.kind S) p file (ops ++ .setTrack (.ok rows) :: rest)).book.scales = _ := g4
    have h2 : (diary (E.kind S) p file (ops ++ .setTrack (.ok rows) :: rest)).book.cyclic = _ := g2.cyc
    rw [h1, h2, e2]
    show { E with conf := { E.conf with scales := _, isCyclic := S.isCyclic } } = _
    rw [e3]
  have ep : (diary (E.kind S) p file (ops ++ .setTrack (.ok rows) :: rest)).book.params = lastParams p (ops ++ .setTrack (.ok rows) :: rest) := by
    have h1 : (diary (E.kind S) p file (ops ++ .setTrack (.ok rows) :: rest)).book.params = _ := g3
    rw [h1, e1]
  rw [eb, ep] at k1 k2
  refine ⟨?_, k1, k2⟩
  rw [← ep]
  exact g2.valid

/-- **C98 (a sweep on one track).** The same without a new track. -/
theorem C98_sweep_same (hE : E.Good V D) (hp : V p) (hS : front (vehicleOnTrack (E.car p)) (E.unit p) E.conf = .ok S)
    (hs : simulate E p file = .ok s) (hops : ∀ o ∈ ops, Sweep S.c.o.L V o ∧ ∀ f, o ≠ .setTrack f) :
    V (lastParams p ops) ∧ (E.scaled (lastScales E.conf.scales ops)).Good (· = lastParams p ops) D ∧
    ∃ n, simulate (E.scaled (lastScales E.conf.scales ops)) (lastParams p ops) file = .ok n ∧ n.track = (s.run ops).track ∧
      n.use.scale = (s.run ops).use.scale ∧ n.use.bounds = (s.run ops).use.bounds ∧ n.use.now.scales = (s.run ops).use.now.scales ∧
      n.initGuess = (s.run ops).initGuess ∧ ∀ x : List ℝ, x.length = S.c.o.L.numDec →
        ((s.run ops).use.Feasible (vdiv x n.use.now.scales) ↔ n.use.Feasible (vdiv x n.use.now.scales)) ∧
        (s.run ops).use.now.objective (vdiv x n.use.now.scales) = n.use.now.objective (vdiv x n.use.now.scales) := by
  obtain ⟨t, S', u, tr1, ht, hS1, hm, hu, hf1, hst1, _, _⟩ := simulate_inv hE hp hs
  rw [hS, Except.ok.injEq] at hS1
  subst hS1
  obtain ⟨hc, e1, e2, e3⟩ := clean_first hE hp hS hs
  obtain ⟨g1, g2, g3, g4⟩ := sweep_run (kind_good hE ht hm) hm.plain.2.2.2.1 _ hc (fun o ho => (hops o ho).1)
  have hq : ∀ o ∈ ops, Quiet o := by
    intro o ho
    obtain ⟨h1, h2⟩ := hops o ho
    cases o with
    | setTrack f => exact absurd rfl (h2 f)
    | call c => cases c <;> trivial
  obtain ⟨k1, k2⟩ := C98_same_track hE hp hS hs g1 hq rfl g2.limits g2.cons g2.objs g2.time g2.pen
  have eb : E.tuned (diary (E.kind S) p file ops).book = E.scaled (lastScales E.conf.scales ops) := by
    unfold Entry.tuned Entry.scaled
    have h1 : (diary (E.kind S) p file ops).book.scales = _ := g4
    have h2 : (diary (E.kind S) p file ops).book.cyclic = _ := g2.cyc
    rw [h1, h2, e2]
    show { E with conf := { E.conf with scales := _, isCyclic := S.isCyclic } } = _
    rw [e3]
  have ep : (diary (E.kind S) p file ops).book.params = lastParams p ops := by
    have h1 : (diary (E.kind S) p file ops).book.params = _ := g3
    rw [h1, e1]
  rw [eb, ep] at k1 k2
  refine ⟨?_, k1, k2⟩
  rw [← ep]
  exact g2.valid

end Lumos.Drive
