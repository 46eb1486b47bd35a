import Verif.Sym.CondModel
import Verif.Sym.Core
import Verif.Kkt.Cond
import Verif.Lts.Straight
/-!
# C105: the condensed lap time simulation has the laps of the lifted one
-/

namespace Lumos.Sym

open Lumos DecVar DecVar.Layout NLP Bounds Ocp OCP Track LapSim Lts Io Io.Mdl Lumos.Trans Veh

section
variable {v : Mdl ℝ} {u : UnitProblem} {cf : Conf} {D : List ℝ → ℝ → Prop} {file : Py (List Row)} {sample : List ℝ}

/-- Nothing is asked of the derivatives. -/
abbrev never : List ℝ → ℝ → Prop := fun _ _ => False

theorem backed_never (h : Backed v cf u D) : Backed v cf u never :=
  ⟨h.fits, fun μ => (h.jac μ).mono fun _ h => h.elim, fun μ => (h.hess μ).mono fun _ h => h.elim⟩

theorem front_bounds (m : Mdl ℝ) (bs : List (BoundConfig EReal)) :
    front m u { cf with bounds := bs } = (front m u cf).bind fun S => .ok { S with bounds := bs } := by
  unfold front
  simp only [bind, Except.bind, pure, Except.pure]
  cases makeTranscription cf.transcription cf.kwargs with
  | error e => rfl
  | ok t =>
    dsimp only
    split
    · rfl
    · split
      · rfl
      · split
        · rfl
        · split <;> rfl

theorem accepted_iff {L : Layout} (rs : List (Req EReal)) (s : St EReal) :
    (setAll L s rs).2 = none ↔ ∀ r ∈ rs, (setVarBounds L s r.group r.name r.stage r.arg).2 = none := by
  induction rs generalizing s with
  | nil => simp [setAll]
  | cons r rs ih =>
    unfold setAll
    rcases hr : setVarBounds L s r.group r.name r.stage r.arg with ⟨s', o⟩
    cases o with
    | some e => simp [hr]
    | none =>
      dsimp only
      rw [ih]
      simp only [List.mem_cons, forall_eq_or_imp, hr, true_and]
      refine forall₂_congr fun r' _ => ?_
      rw [setVarBounds_err L s' s]

/-- Whether bounds and boundary conditions are accepted depends on each of them alone. -/
theorem accepted {L : Layout} {bs : List (BoundConfig EReal)} {bcs : List (BC EReal)} :
    (∃ s s', Bounds.updateBounds L (Bounds.fresh L) bs = (s, none) ∧ Bounds.updateBCs L s bcs = (s', none)) ↔
      (∀ c ∈ bs, (setVarBounds L (Bounds.fresh L) c.group c.name none (.pair c.lb c.ub)).2 = none) ∧
      ∀ c ∈ bcs, (setVarBounds L (Bounds.fresh L) c.group c.name c.stage c.value).2 = none := by
  have e1 : (setAll L (Bounds.fresh L) (bs.map BoundConfig.req)).2 = none ↔
      ∀ c ∈ bs, (setVarBounds L (Bounds.fresh L) c.group c.name none (.pair c.lb c.ub)).2 = none := by
    rw [accepted_iff]
    simp [BoundConfig.req]
  have e2 : ∀ s : St EReal, (setAll L s (bcs.map BC.req)).2 = none ↔ ∀ c ∈ bcs, (setVarBounds L (Bounds.fresh L) c.group c.name c.stage c.value).2 = none := by
    intro s
    rw [setAll_err _ _ _ (Bounds.fresh L), accepted_iff]
    simp [BC.req]
  rw [← e1]
  have hb0 : (Bounds.updateBounds L (Bounds.fresh L) bs).2 = (setAll L (Bounds.fresh L) (bs.map BoundConfig.req)).2 ∧
      (Bounds.updateBounds L (Bounds.fresh L) bs).1.bcs = [] := by
    refine ⟨?_, updateBounds_bcs L (Bounds.fresh L) bs⟩
    unfold Bounds.updateBounds
    have hb := setAll_bcs L (Bounds.fresh L) (bs.map BoundConfig.req)
    rcases hr : setAll L (Bounds.fresh L) (bs.map BoundConfig.req) with ⟨s', o⟩
    cases o with
    | some e => rfl
    | none =>
      rw [hr] at hb
      have hb : s'.bcs = [] := hb
      dsimp only
      unfold applyBCs
      rw [hb]
      rfl
  constructor
  · rintro ⟨s, s', h1, h2⟩
    rw [h1] at hb0
    refine ⟨hb0.1.symm, ?_⟩
    have hs : s.bcs = [] := hb0.2
    unfold Bounds.updateBCs applyBCs at h2
    rw [hs, List.nil_append] at h2
    exact (e2 _).mp (by rw [h2])
  · rintro ⟨h1, h2⟩
    refine ⟨_, _, Prod.ext rfl (hb0.1.trans h1), Prod.ext rfl ?_⟩
    unfold Bounds.updateBCs applyBCs
    dsimp only
    rw [hb0.2, List.nil_append]
    exact (e2 _).mpr h2

theorem usable_withoutDots (h : Usable v cf) : Usable v (withoutDots cf) := by
  obtain ⟨h1, h2, h3, h4, h5, h6, h7⟩ := h
  refine ⟨h1, h2, h3, h4, h5, h6, fun k hk => ?_⟩
  obtain ⟨a, b⟩ := accepted.mp (h7 k hk)
  exact accepted.mpr ⟨fun c hc => a c (List.mem_of_mem_filter hc), b⟩

theorem dotNames (S : Setup) (t : Transcription) (h : Made (vehicleOnTrack v) u t cf S) : S.c.o.L.namesOf "states_dot" = onTrackNames.states := h.names.2.2.1

/-- The condensed problem can be built. -/
theorem cond_good {t : Transcription} {S : Setup} (h : Made (vehicleOnTrack v) u t cf S) (hv : Car v) (hc : Usable v cf) (hu : Backed v cf u D)
    (ht : makeTranscription cf.transcription cf.kwargs = .ok t) (hs : Sampled v cf sample) (ms : ℝ) :
    (rescale { S with isCondensed := true, sample := sample } ms).Good never := by
  have hg := Good.rescale (h.suited hv hc (backed_never hu) ht) (by rw [h.scale]; simp) h.plain.2.2.2.1 ms
  have hL : S.c.o.L.Made := hg.cond.ocp.made
  obtain ⟨h1, h2, h3, h4, h5, h6, h7, h8, h9, h10, h11, h12, h13, h14, h15⟩ := hg
  refine ⟨h1, h2, h3, h4, h5, h6, h7, h8, h9, h10, h11, fun _ => ⟨?_, fun x J _ hd => ?_⟩, h13, h14, ?_⟩
  · show sample.length = S.c.o.L.numDec
    rw [hs t ht, h.layout]
  · exact absurd (hd.1 0 (numStages_pos _)) (fun h => h)
  · have h15 : ∃ s t', Bounds.updateBounds S.c.o.L (Bounds.fresh S.c.o.L) cf.bounds = (s, none) ∧ Bounds.updateBCs S.c.o.L s cf.bcs = (t', none) := by
      rw [h.layout]
      exact hc.bounds _ (C38_shapes ht).1
    obtain ⟨a, b⟩ := accepted.mp h15
    have q := h.config
    show ∃ s t', Bounds.updateBounds S.c.o.L (Bounds.fresh S.c.o.L) (S.bounds ++ (S.c.o.L.namesOf "states_dot").map fun n => ⟨"states_dot", n, .scalar 0, .scalar 0⟩)
      = (s, none) ∧ Bounds.updateBCs S.c.o.L s S.bcs = (t', none)
    rw [q.1, q.2.1]
    refine accepted.mpr ⟨fun c hc => ?_, b⟩
    rcases List.mem_append.mp hc with hc | hc
    · exact a c hc
    · obtain ⟨n, hn, rfl⟩ := List.mem_map.mp hc
      exact setVarBounds_scalar hL (isVar_of_known hL h1.ocp.statesDot hn 0 (numStages_pos _)) _ le_rfl

theorem start_cond {t : Transcription} {S : Setup} (h : Made (vehicleOnTrack v) u t cf S) :
    start { S with isCondensed := true, sample := sample } = { S with isCondensed := true, sample := sample } := by
  obtain ⟨⟨o, M, u', mesh⟩, b, l, cy, nc, cd, sa, bo, bc, sc⟩ := S
  obtain ⟨L, A, B, nl, fs⟩ := o
  have h1 := h.scale
  obtain ⟨h2, h3, -⟩ := h.plain
  dsimp only at h1 h2 h3
  subst h1 h2 h3
  rfl

theorem cond_good' {t : Transcription} {S : Setup} (h : Made (vehicleOnTrack v) u t cf S) (hv : Car v) (hc : Usable v cf) (hu : Backed v cf u D)
    (ht : makeTranscription cf.transcription cf.kwargs = .ok t) (hs : Sampled v cf sample) :
    ({ S with isCondensed := true, sample := sample } : Setup).Good never := by
  have := cond_good h hv hc hu ht hs 1
  have e : rescale { S with isCondensed := true, sample := sample } 1 = { S with isCondensed := true, sample := sample } := by
    obtain ⟨⟨o, M, u', mesh⟩, b, l, cy, nc, cd, sa, bo, bc, sc⟩ := S
    obtain ⟨L, A, B, nl, fs⟩ := o
    have h1 := h.scale
    dsimp only at h1
    subst h1
    rfl
  rwa [e] at this

/-- What the construction did when it returned. -/
theorem make_inv {S : Setup} (hg : S.Good D) (es : start S = S) (h1 : "track_curvature" ∈ S.c.o.L.namesOf "inputs") (h2 : "track_heading" ∈ S.c.o.L.namesOf "inputs")
    (h3 : "n" ∈ S.c.o.L.namesOf "states") {l : Lap} (hl : Lap.make S file = .ok l) :
    ∃ b tr, S.build = .ok b ∧ Ready ⟨S, b.bounds, none⟩ ∧ Lap.setTrack ⟨S, b.bounds, none⟩ file = (l, none) ∧ fromTumCsv file = .ok tr ∧
      l.track = some tr ∧ l.S = rescale S tr.totalDistance := by
  obtain ⟨b, hb, hr, hk⟩ := C69_construct (S := S) (by rw [es]; exact hg) h1 h2 h3 file
  rw [es] at hb hr hk
  rcases hs : Lap.setTrack ⟨S, b.bounds, none⟩ file with ⟨l', o⟩
  obtain ⟨k1, k2⟩ := hk l' o hs
  cases o with
  | some e => rw [k2 e rfl] at hl; cases hl
  | none =>
    rw [k1 rfl, Except.ok.injEq] at hl
    subst hl
    obtain ⟨tr, f1, f2, f3⟩ := setTrack_inv hs
    exact ⟨b, tr, hb, hr, hs, f1, f2, f3⟩

/-- Whether it returns depends on the track and the mesh only. -/
theorem make_ok {S : Setup} (hg : S.Good D) (es : start S = S) (h1 : "track_curvature" ∈ S.c.o.L.namesOf "inputs") (h2 : "track_heading" ∈ S.c.o.L.namesOf "inputs")
    (h3 : "n" ∈ S.c.o.L.namesOf "states") : (∃ l, Lap.make S file = .ok l) ↔ ∃ t, fromTumCsv file = .ok t ∧
      ∀ d ∈ S.c.mesh, ∃ a b, t.leftDistanceAt (d * t.totalDistance) = .ok a ∧ t.rightDistanceAt (d * t.totalDistance) = .ok b ∧ 0 ≤ a + b := by
  obtain ⟨b, hb, hr, hk⟩ := C69_construct (S := S) (by rw [es]; exact hg) h1 h2 h3 file
  rw [es] at hb hr hk
  rw [← C69_accepted_iff hr file]
  rcases hs : Lap.setTrack ⟨S, b.bounds, none⟩ file with ⟨l', o⟩
  obtain ⟨k1, k2⟩ := hk l' o hs
  cases o with
  | some e =>
    rw [k2 e rfl]
    simp
  | none => exact ⟨fun _ => rfl, fun _ => ⟨_, k1 rfl⟩⟩

theorem onDot_group {L : Layout} (hL : L.Made) (hd : "states_dot" ∈ L.groups) (hn : L.namesOf "states_dot" = onTrackNames.states) {s : Nat} {g n : String}
    (hv : L.IsVar (.stage s g n)) {g' n' : String} (h : OnDot g' n') (e : fullName g' n' = fullName g n) : g = "states_dot" := by
  obtain ⟨m, hm, e'⟩ := h
  have hw : L.IsVar (.stage s "states_dot" m) := isVar_of_known hL hd (by rw [hn]; exact hm) s hv.1
  have : fullName "states_dot" m = fullName g n := e'.symm.trans e
  exact (fullName_inj hL hw hv this).1.symm

theorem mention_filter {L : Layout} {p : BoundConfig EReal → Bool} {w : Var} (bs : List (BoundConfig EReal))
    (h : ∀ c ∈ bs, p c = false → ¬c.req.Mentions L w) :
    lastMention L ((bs.filter p).map BoundConfig.req) w = lastMention L (bs.map BoundConfig.req) w := by
  induction bs with
  | nil => rfl
  | cons c bs ih =>
    have ih := ih fun c hc => h c (List.mem_cons_of_mem _ hc)
    rw [List.filter_cons, List.map_cons, lastMention_cons]
    cases hp : p c with
    | true => rw [if_pos rfl, List.map_cons, lastMention_cons, ih]
    | false =>
      rw [if_neg (by simp), ih, if_neg (h c (by simp) hp)]
      simp

theorem mention_none {L : Layout} {w : Var} (rs : List (Req EReal)) (h : ∀ r ∈ rs, ¬r.Mentions L w) : lastMention L rs w = none := by
  unfold lastMention
  rw [List.find?_eq_none]
  intro r hr hm
  exact h r (List.mem_reverse.mp hr) (of_decide_eq_true hm)

/-- The problems from which the two simulations are made. -/
structure Pair (v : Mdl ℝ) (u : UnitProblem) (cf : Conf) (sample : List ℝ) (file : Py (List Row)) (l l' : Lap) (t : Transcription) (S : Setup)
    (b b' : Built) (tr : RaceTrack) : Prop where
  transcription : makeTranscription cf.transcription cf.kwargs = .ok t
  made : Made (vehicleOnTrack v) u t cf S
  good : ({ S with bounds := (withoutDots cf).bounds } : Setup).Good never
  goodC : ({ S with isCondensed := true, sample := sample } : Setup).Good never
  build : ({ S with bounds := (withoutDots cf).bounds } : Setup).build = .ok b
  buildC : ({ S with isCondensed := true, sample := sample } : Setup).build = .ok b'
  ready : Ready ⟨{ S with bounds := (withoutDots cf).bounds }, b.bounds, none⟩
  readyC : Ready ⟨{ S with isCondensed := true, sample := sample }, b'.bounds, none⟩
  set : Lap.setTrack ⟨{ S with bounds := (withoutDots cf).bounds }, b.bounds, none⟩ file = (l, none)
  setC : Lap.setTrack ⟨{ S with isCondensed := true, sample := sample }, b'.bounds, none⟩ file = (l', none)
  file : fromTumCsv file = .ok tr
  track : l.track = some tr
  trackC : l'.track = some tr
  setup : l.S = rescale { S with bounds := (withoutDots cf).bounds } tr.totalDistance
  setupC : l'.S = rescale { S with isCondensed := true, sample := sample } tr.totalDistance

theorem made_withoutDots {t : Transcription} {S : Setup} (h : Made (vehicleOnTrack v) u t cf S) :
    Made (vehicleOnTrack v) u t (withoutDots cf) { S with bounds := (withoutDots cf).bounds } := by
  obtain ⟨a1, a2, a3, a4, a5, a6, a7, a8, a9, a10, a11, a12, a13, a14, a15⟩ := h
  exact ⟨a1, ⟨a2.1, a2.2, a2.3⟩, a3, a4, a5, a6, a7, a8, a9, a10, a11, a12, a13, a14, rfl, a15.2.1, a15.2.2⟩

theorem pair_of (hv : Car v) (hc : Usable v cf) (hu : Backed v cf u D) (hs : Sampled v cf sample) {l l' : Lap}
    (hl : laptime v u (withoutDots cf) file = .ok l) (hl' : laptimeCondensed v u cf sample file = .ok l') :
    ∃ t S b b' tr, Pair v u cf sample file l l' t S b b' tr := by
  have hd := onTrack_delivers hv hc.outputs.1 hc.outputs.2
  unfold laptimeCondensed at hl'
  obtain ⟨S, hS, hl'⟩ := Config.bind_ok hl'
  obtain ⟨t, ht, hm⟩ := front_inv (explicit_good hd) hc.intervals hS
  unfold laptime at hl
  have e : front (vehicleOnTrack v) u (withoutDots cf) = .ok { S with bounds := (withoutDots cf).bounds } := by
    unfold withoutDots
    rw [front_bounds, hS]
    rfl
  rw [e] at hl
  have hl : Lap.make { S with bounds := (withoutDots cf).bounds } file = .ok l := hl
  have hmd := made_withoutDots hm
  obtain ⟨n1, n2, -, -⟩ := hm.names
  have hu' : Backed v (withoutDots cf) u never := ⟨hu.fits, (backed_never hu).jac, (backed_never hu).hess⟩
  have g0 := hmd.suited hv (usable_withoutDots hc) hu' ht
  have gC := cond_good' hm hv hc hu ht hs
  obtain ⟨b, tr, k1, k2, k3, k4, k5, k6⟩ := make_inv g0 (start_made hmd) (by rw [n2]; decide) (by rw [n2]; decide) (by rw [n1]; decide) hl
  obtain ⟨b', tr', m1, m2, m3, m4, m5, m6⟩ := make_inv gC (start_cond hm) (by rw [n2]; decide) (by rw [n2]; decide) (by rw [n1]; decide) hl'
  rw [k4, Except.ok.injEq] at m4
  subst m4
  exact ⟨t, S, b, b', tr, ht, hm, g0, gC, k1, m1, k2, m2, k3, m3, k4, k5, m5, k6, m6⟩

/-- The bounds of the two simulations, variable by variable. -/
theorem Pair.limits {l l' : Lap} {t : Transcription} {S : Setup} {b b' : Built} {tr : RaceTrack} (P : Pair v u cf sample file l l' t S b b' tr)
    (hbc : ∀ c ∈ cf.bcs, ¬OnDot c.group c.name) {s : Nat} {g n : String} {i : Nat} (hvar : S.c.o.L.IsVar (.stage s g n))
    (hq : S.c.o.L.query (.stage s g n) = .ok (.scalar i)) :
    (g ≠ "states_dot" → l'.st.lb[i]? = l.st.lb[i]? ∧ l'.st.ub[i]? = l.st.ub[i]?) ∧
    (g = "states_dot" → l'.st.lb[i]? = some 0 ∧ l'.st.ub[i]? = some 0 ∧ l.st.lb[i]? = some ⊥ ∧ l.st.ub[i]? = some ⊤) := by
  have hL : S.c.o.L.Made := P.good.cond.ocp.made
  have hsd : "states_dot" ∈ S.c.o.L.groups := P.good.cond.ocp.statesDot
  have hnd := dotNames S t P.made
  obtain ⟨q1, q2, q3⟩ := P.made.config
  obtain ⟨r1, a1, -, -, -, a2⟩ := C69_bounds P.ready P.set
  obtain ⟨r2, c1, -, -, -, c2⟩ := C69_bounds P.readyC P.setC
  rw [P.file, Except.ok.injEq] at a1 c1
  subst a1 c1
  obtain ⟨a3, a4⟩ := a2 _ i hvar hq
  obtain ⟨c3, c4⟩ := c2 _ i hvar hq
  have eb : b.bounds.bcs = cf.bcs := (bcs_of_build P.good P.build).trans q2
  have eb' : b'.bounds.bcs = cf.bcs := (bcs_of_build P.goodC P.buildC).trans q2
  dsimp only at a3 a4 c3 c4
  rw [eb] at a3 a4
  rw [eb'] at c3 c4
  obtain ⟨l1, u1, e1⟩ := C48_bounds P.good P.build hvar hq
  obtain ⟨l2, u2, e2⟩ := C48_bounds P.goodC P.buildC hvar hq
  have e1 : b.configBounds = (withoutDots cf).bounds := by
    rw [e1, P.made.plain.2.2.2.1]
    simp
  have e2 : b'.configBounds = cf.bounds ++ (S.c.o.L.namesOf "states_dot").map fun n => ⟨"states_dot", n, .scalar 0, .scalar 0⟩ := by
    rw [e2, if_pos rfl, ← q1]
  dsimp only at l1 u1 l2 u2
  rw [q2] at l1 u1 l2 u2
  constructor
  · intro hg
    cases hlm : lastMention S.c.o.L (cf.bcs.map BC.req) (.stage s g n) with
    | some r =>
      obtain ⟨x1, x2⟩ := a3 r hlm
      obtain ⟨y1, y2⟩ := c3 r hlm
      exact ⟨y1.trans x1.symm, y2.trans x2.symm⟩
    | none =>
      obtain ⟨x1, x2⟩ := a4 hlm
      obtain ⟨y1, y2⟩ := c4 hlm
      by_cases hT : IsTrackVar (.stage s g n)
      · obtain ⟨lo, hi, w1, w2, w3⟩ := x1 hT
        obtain ⟨lo', hi', z1, z2, z3⟩ := y1 hT
        obtain ⟨rfl, rfl⟩ := w1.unique z1
        exact ⟨z2.trans w2.symm, z3.trans w3.symm⟩
      · obtain ⟨w1, w2⟩ := x2 hT
        obtain ⟨z1, z2⟩ := y2 hT
        rw [w1, w2, z1, z2, l1, u1, l2, u2, hlm]
        dsimp only
        have em : lastMention S.c.o.L (b'.configBounds.map BoundConfig.req) (.stage s g n) = lastMention S.c.o.L (b.configBounds.map BoundConfig.req) (.stage s g n) := by
          rw [e1, e2, List.map_append, lastMention_append]
          have hz : lastMention S.c.o.L (((S.c.o.L.namesOf "states_dot").map fun n =>
              (⟨"states_dot", n, .scalar 0, .scalar 0⟩ : BoundConfig EReal)).map BoundConfig.req) (.stage s g n) = none := by
            refine mention_none _ fun r hr hm => ?_
            obtain ⟨c, hc, rfl⟩ := List.mem_map.mp hr
            obtain ⟨m, hm', rfl⟩ := List.mem_map.mp hc
            obtain ⟨-, e, -⟩ := hm
            exact hg (onDot_group hL hsd hnd hvar (g' := "states_dot") (n' := m) ⟨m, by rw [← hnd]; exact hm', rfl⟩ e)
          rw [hz]
          dsimp only
          refine (mention_filter _ fun c hc hp hm => ?_).symm
          obtain ⟨-, e, -⟩ := hm
          exact hg (onDot_group hL hsd hnd hvar (show OnDot c.group c.name by simpa using hp) e)
        rw [em]
        exact ⟨rfl, rfl⟩
  · rintro rfl
    have hn : n ∈ S.c.o.L.namesOf "states_dot" := by
      obtain ⟨-, -, ns, h, h'⟩ := hvar
      unfold Layout.namesOf
      rw [h]
      exact h'
    have hfree : ∀ c ∈ cf.bcs, c.group ++ "." ++ c.name ≠ "states_dot" ++ "." ++ n := fun c hc e => hbc c hc ⟨n, by rw [← hnd]; exact hn, e⟩
    have hlm : lastMention S.c.o.L (cf.bcs.map BC.req) (.stage s "states_dot" n) = none := no_mention hfree
    have hT : ¬IsTrackVar (.stage s "states_dot" n) := by
      rintro (⟨h, -⟩ | ⟨h, -⟩) <;> exact absurd h (by decide)
    obtain ⟨w1, w2⟩ := (a4 hlm).2 hT
    obtain ⟨z1, z2⟩ := (c4 hlm).2 hT
    obtain ⟨y1, y2⟩ := C48_condensed_states_dot P.goodC rfl P.buildC (s := s) (i := i) (n := n) hvar.1 hn hq (by dsimp only; rw [q2]; exact hfree)
    rw [w1, w2, z1, z2, y1, y2, l1, u1, hlm]
    dsimp only
    have em : lastMention S.c.o.L (b.configBounds.map BoundConfig.req) (.stage s "states_dot" n) = none := by
      rw [e1]
      refine mention_none _ fun r hr hm => ?_
      obtain ⟨c, hc, rfl⟩ := List.mem_map.mp hr
      obtain ⟨-, e, -⟩ := hm
      have := List.of_mem_filter hc
      exact absurd (show OnDot c.group c.name from ⟨n, by rw [← hnd]; exact hn, e⟩) (by simpa using this)
    rw [em]
    exact ⟨rfl, rfl, rfl, rfl⟩

theorem agree_iff {l l' : Lap} {t : Transcription} {S : Setup} {b b' : Built} {tr : RaceTrack} (P : Pair v u cf sample file l l' t S b b' tr) {x y : List ℝ}
    (hx : x.length = S.c.o.L.numDec) (hy : y.length = S.c.o.L.numDec) : S.c.SameButDot x y ↔ AgreeButDots S.c.o.L x y := by
  have hg := P.good
  have hL : S.c.o.L.Made := hg.cond.ocp.made
  have hnd := dotNames S t P.made
  rw [CondOCP.sameButDot_iff (c := S.c) hg.cond]
  constructor
  · intro h s g n hvar hgd
    obtain ⟨i, hq, hi⟩ := C01_index_in_range hL hvar
    rw [Sim.read_query hx hi hq, Sim.read_query hy hi hq]
    refine (h i fun hm => ?_).symm
    obtain ⟨s', n', hs', hn', hq'⟩ := (Kkt.mem_dots hg).mp hm
    have hv' := isVar_of_known hL hg.cond.ocp.statesDot hn' s' hs'
    have e := C01_index_injective hL hvar hv' (hq.trans (show S.c.o.L.query (.stage s' "states_dot" n') = _ from hq').symm)
    simp only [Var.stage.injEq] at e
    exact hgd e.2.1
  · intro h i hi
    by_cases hlt : i < S.c.o.L.numDec
    · obtain ⟨w, hvar, hq⟩ := C01_index_surjective hL i hlt
      cases w with
      | glob n =>
        have hn : n ∈ S.c.o.L.globals := hvar
        rw [P.made.layout] at hn
        simp [layoutOf] at hn
      | stage s g n =>
        rw [← Sim.read_query hx hlt hq, ← Sim.read_query hy hlt hq]
        refine (h s g n hvar ?_).symm
        rintro rfl
        refine hi ((Kkt.mem_dots hg).mpr ⟨s, n, hvar.1, ?_, hq⟩)
        obtain ⟨-, -, ns, h, h'⟩ := hvar
        unfold Layout.namesOf
        rw [h]
        exact h'
    · rw [List.getD_eq_getElem?_getD, List.getD_eq_getElem?_getD, List.getElem?_eq_none (by omega), List.getElem?_eq_none (by omega)]

/-- A point of the condensed simulation is within the bounds if its derivatives are zero and the rest is within the bounds of the lifted one. -/
theorem Pair.within {l l' : Lap} {t : Transcription} {S : Setup} {b b' : Built} {tr : RaceTrack} (P : Pair v u cf sample file l l' t S b b' tr)
    (hbc : ∀ c ∈ cf.bcs, ¬OnDot c.group c.name) {x y : List ℝ} (hx : x.length = S.c.o.L.numDec) (hy : y.length = S.c.o.L.numDec)
    (hxy : AgreeButDots S.c.o.L x y) : Within l'.st.lb l'.st.ub x ↔ NoDots S.c.o.L x ∧ Within l.st.lb l.st.ub y := by
  have hL : S.c.o.L.Made := P.good.cond.ocp.made
  have byVar : ∀ {Q : Nat → Prop}, (∀ i, i < S.c.o.L.numDec → Q i) ↔
      ∀ s g n, S.c.o.L.IsVar (.stage s g n) → ∀ i, S.c.o.L.query (.stage s g n) = .ok (.scalar i) → Q i := by
    intro Q
    constructor
    · intro h s g n hvar i hq
      obtain ⟨j, hj, hlt⟩ := C01_index_in_range hL hvar
      rw [hq, Except.ok.injEq, Idx.scalar.injEq] at hj
      exact h i (by omega)
    · intro h i hi
      obtain ⟨w, hvar, hq⟩ := C01_index_surjective hL i hi
      cases w with
      | glob n =>
        have hn : n ∈ S.c.o.L.globals := hvar
        rw [P.made.layout] at hn
        simp [layoutOf] at hn
      | stage s g n => exact h s g n hvar i hq
  unfold Within
  rw [hx, hy, byVar, byVar]
  constructor
  · intro h
    refine ⟨fun s n hvar => ?_, fun s g n hvar i hq => ?_⟩
    · obtain ⟨i, hq, hi⟩ := C01_index_in_range hL hvar
      obtain ⟨w1, w2⟩ := h s _ n hvar i hq
      obtain ⟨a1, a2, -⟩ := (P.limits hbc hvar hq).2 rfl
      rw [Kkt.getD_some a1] at w1
      rw [Kkt.getD_some a2] at w2
      rw [Sim.read_query hx hi hq]
      have w1' : (0 : ℝ) ≤ x.getD i 0 := by exact_mod_cast w1
      have w2' : x.getD i 0 ≤ (0 : ℝ) := by exact_mod_cast w2
      exact le_antisymm w2' w1'
    · obtain ⟨j, hj, hi⟩ := C01_index_in_range hL hvar
      rw [hq, Except.ok.injEq, Idx.scalar.injEq] at hj
      subst hj
      by_cases hg : g = "states_dot"
      · obtain ⟨-, -, a1, a2⟩ := (P.limits hbc hvar hq).2 hg
        rw [Kkt.getD_some a1, Kkt.getD_some a2]
        exact ⟨bot_le, le_top⟩
      · obtain ⟨a1, a2⟩ := (P.limits hbc hvar hq).1 hg
        have hw := h s g n hvar i hq
        rw [List.getD_eq_getElem?_getD (l := l'.st.lb), a1, ← List.getD_eq_getElem?_getD, List.getD_eq_getElem?_getD (l := l'.st.ub), a2,
          ← List.getD_eq_getElem?_getD (l := l.st.ub), ← Sim.read_query hx hi hq, hxy s g n hvar hg, Sim.read_query hy hi hq] at hw
        exact hw
  · rintro ⟨h0, h⟩ s g n hvar i hq
    obtain ⟨j, hj, hi⟩ := C01_index_in_range hL hvar
    rw [hq, Except.ok.injEq, Idx.scalar.injEq] at hj
    subst hj
    by_cases hg : g = "states_dot"
    · subst hg
      obtain ⟨a1, a2, -⟩ := (P.limits hbc hvar hq).2 rfl
      rw [Kkt.getD_some a1, Kkt.getD_some a2, ← Sim.read_query hx hi hq, h0 s n hvar]
      exact ⟨le_rfl, le_rfl⟩
    · obtain ⟨a1, a2⟩ := (P.limits hbc hvar hq).1 hg
      have hw := h s g n hvar i hq
      rw [List.getD_eq_getElem?_getD (l := l'.st.lb), a1, ← List.getD_eq_getElem?_getD, List.getD_eq_getElem?_getD (l := l'.st.ub), a2,
        ← List.getD_eq_getElem?_getD (l := l.st.ub), ← Sim.read_query hx hi hq, hxy s g n hvar hg, Sim.read_query hy hi hq]
      exact hw

/-- The condensed problem after the track is set. -/
theorem Pair.problem {l l' : Lap} {t : Transcription} {S : Setup} {b b' : Built} {tr : RaceTrack} (P : Pair v u cf sample file l l' t S b b' tr)
    (hv : Car v) (hc : Usable v cf) (hu : Backed v cf u D) (hs : Sampled v cf sample) :
    ∃ p p', l.problem = .ok p ∧ p.bounds = l.st ∧ l'.problem = .ok p' ∧ p'.bounds = l'.st ∧
      (∀ y : List ℝ, y.length = S.c.o.L.numDec → (p.Feasible (vdiv y p.prob.scales) ↔ IsSolution l.S y)) ∧
      (∀ x : List ℝ, x.length = S.c.o.L.numDec → (p'.Feasible (vdiv x p'.prob.scales) ↔
        ∃ y : List ℝ, y.length = S.c.o.L.numDec ∧ S.c.SameButDot x y ∧ IsSolution l.S y)) ∧
      (∀ x : List ℝ, x.length = S.c.o.L.numDec → p.prob.objective (vdiv x p.prob.scales) = .ok (costOf S.c.o.L.numStages (readAt S.c.o.L x)) ∧
        p'.prob.objective (vdiv x p'.prob.scales) = .ok (costOf S.c.o.L.numStages (readAt S.c.o.L x))) := by
  obtain ⟨p1, p2, p3, p4, p5⟩ := P.made.plain
  obtain ⟨tr', p, g1, g2, g3, g4, g5⟩ := C69_problem P.good p2 p4 P.ready P.set
  have hL : l.S.c.o.L = S.c.o.L := by rw [P.setup]; rfl
  have hgC := cond_good P.made hv hc hu P.transcription hs tr.totalDistance
  have hL' : l'.S.c.o.L = S.c.o.L := by rw [P.setupC]; rfl
  rw [← P.setupC] at hgC
  obtain ⟨b'', hb'', -⟩ := C47_build hgC
  have hcd : l'.S.isCondensed = true := by rw [P.setupC]; rfl
  have hlap : l'.S.laptime = true := by rw [P.setupC]; exact p2
  have hfix : l'.S.c.o.fixedScale = some tr.totalDistance := by rw [P.setupC]; rfl
  refine ⟨p, { b'' with bounds := l'.st }, g2, g3, ?_, rfl, fun y hy => (g5 y (by rw [hL]; exact hy)).1, fun x hx => ?_, fun x hx => ⟨?_, ?_⟩⟩
  · unfold Lap.problem
    simp only [bind, Except.bind, hb'']
    rfl
  · have := C47_condensed hgC hcd hb'' (x := x) (by rw [hL']; exact hx)
    refine this.trans ?_
    rw [hL']
    have e1 : ∀ y : List ℝ, l'.S.c.SameButDot x y ↔ S.c.SameButDot x y := fun y => by rw [P.setupC]; rfl
    have e2 : ∀ y : List ℝ, IsSolution l'.S y ↔ IsSolution l.S y := fun y => by
      rw [P.setupC, P.setup]
      exact ⟨fun h => ⟨h.defects, h.dynamics, h.outputs, h.residuals, h.periodic⟩, fun h => ⟨h.defects, h.dynamics, h.outputs, h.residuals, h.periodic⟩⟩
    simp only [e1, e2]
  · rw [(g5 x (by rw [hL]; exact hx)).2, hL]
    rfl
  · have := C47_objective hgC hb'' (x := x) (by rw [hL']; exact hx)
    rw [hfix, if_pos hlap, hL'] at this
    exact this

/-- **C105**: both simulations accept the same files. -/
theorem C105_accepts (hv : Car v) (hc : Usable v cf) (hu : Backed v cf u D) (hs : Sampled v cf sample) :
    ((∃ l, laptime v u cf file = .ok l) ↔ ∃ l', laptimeCondensed v u cf sample file = .ok l') ∧
    ((∃ l, laptime v u (withoutDots cf) file = .ok l) ↔ ∃ l', laptimeCondensed v u cf sample file = .ok l') := by
  have hd := onTrack_delivers hv hc.outputs.1 hc.outputs.2
  cases hS : front (vehicleOnTrack v) u cf with
  | error e =>
    have e0 : front (vehicleOnTrack v) u (withoutDots cf) = .error e := by
      unfold withoutDots
      rw [front_bounds, hS]
      rfl
    have r1 : ∀ l, ¬laptime v u cf file = .ok l := by intro l h; unfold laptime at h; rw [hS] at h; cases h
    have r2 : ∀ l, ¬laptime v u (withoutDots cf) file = .ok l := by intro l h; unfold laptime at h; rw [e0] at h; cases h
    have r3 : ∀ l, ¬laptimeCondensed v u cf sample file = .ok l := by intro l h; unfold laptimeCondensed at h; rw [hS] at h; cases h
    simp only [r1, r2, r3, exists_false, and_self]
  | ok S =>
    obtain ⟨t, ht, hm⟩ := front_inv (explicit_good hd) hc.intervals hS
    have e0 : front (vehicleOnTrack v) u (withoutDots cf) = .ok { S with bounds := (withoutDots cf).bounds } := by
      unfold withoutDots
      rw [front_bounds, hS]
      rfl
    have hmd := made_withoutDots hm
    obtain ⟨n1, n2, -, -⟩ := hm.names
    have hu' : Backed v (withoutDots cf) u never := ⟨hu.fits, (backed_never hu).jac, (backed_never hu).hess⟩
    have g := hm.suited hv hc hu ht
    have g0 := hmd.suited hv (usable_withoutDots hc) hu' ht
    have gC := cond_good' hm hv hc hu ht hs
    have k1 := make_ok (file := file) g (start_made hm) (by rw [n2]; decide) (by rw [n2]; decide) (by rw [n1]; decide)
    have k2 := make_ok (file := file) g0 (start_made hmd) (by rw [n2]; decide) (by rw [n2]; decide) (by rw [n1]; decide)
    have k3 := make_ok (file := file) gC (start_cond hm) (by rw [n2]; decide) (by rw [n2]; decide) (by rw [n1]; decide)
    have r1 : laptime v u cf file = Lap.make S file := by unfold laptime; rw [hS]; rfl
    have r2 : laptime v u (withoutDots cf) file = Lap.make { S with bounds := (withoutDots cf).bounds } file := by unfold laptime; rw [e0]; rfl
    have r3 : laptimeCondensed v u cf sample file = Lap.make { S with isCondensed := true, sample := sample } file := by unfold laptimeCondensed; rw [hS]; rfl
    rw [r1, r2, r3]
    exact ⟨k1.trans k3.symm, k2.trans k3.symm⟩

section
variable {l l' : Lap} (hv : Car v) (hc : Usable v cf) (hu : Backed v cf u D) (hs : Sampled v cf sample) (hbc : ∀ c ∈ cf.bcs, ¬OnDot c.group c.name)
  (hl : laptime v u (withoutDots cf) file = .ok l) (hl' : laptimeCondensed v u cf sample file = .ok l')
include hv hc hu hs hbc hl hl'

/-- **C105**: the two simulations have the same variables, and the laps of the condensed one are those of the lifted one with the derivatives of the
states set to zero. Bounds on derivatives of states are not enforced by the condensed one. -/
theorem C105_laps : l'.S.c.o.L = l.S.c.o.L ∧ ∀ x, IsLap l' x ↔ NoDots l.S.c.o.L x ∧ x.length = l.S.c.o.L.numDec ∧ ∃ y, AgreeButDots l.S.c.o.L x y ∧ IsLap l y := by
  obtain ⟨t, S, b, b', tr, P⟩ := pair_of hv hc hu hs hl hl'
  obtain ⟨p, p', h1, h2, h3, h4, h5, h6, h7⟩ := P.problem hv hc hu hs
  have hL : l.S.c.o.L = S.c.o.L := by rw [P.setup]; rfl
  have hL' : l'.S.c.o.L = S.c.o.L := by rw [P.setupC]; rfl
  refine ⟨hL'.trans hL.symm, fun x => ?_⟩
  unfold IsLap
  rw [hL, hL']
  constructor
  · rintro ⟨hx, q, hq, f, w⟩
    rw [h3, Except.ok.injEq] at hq
    subst hq
    obtain ⟨y, hy, hxy, hsol⟩ := (h6 x hx).mp f
    have hxy := (agree_iff P hx hy).mp hxy
    rw [h4] at w
    obtain ⟨w1, w2⟩ := (P.within hbc hx hy hxy).mp w
    exact ⟨w1, hx, y, hxy, hy, p, h1, (h5 y hy).mpr hsol, by rw [h2]; exact w2⟩
  · rintro ⟨w1, hx, y, hxy, hy, q, hq, f, w⟩
    rw [h1, Except.ok.injEq] at hq
    subst hq
    refine ⟨hx, p', h3, (h6 x hx).mpr ⟨y, hy, (agree_iff P hx hy).mpr hxy, (h5 y hy).mp f⟩, ?_⟩
    rw [h4]
    rw [h2] at w
    exact (P.within hbc hx hy hxy).mpr ⟨w1, w⟩

omit hbc in
/-- **C105**: corresponding points have the same cost. -/
theorem C105_cost {x y : List ℝ} (hx : x.length = l.S.c.o.L.numDec) (hy : y.length = l.S.c.o.L.numDec) (hxy : AgreeButDots l.S.c.o.L x y) (T : ℝ) :
    Costs l' x T ↔ Costs l y T := by
  obtain ⟨t, S, b, b', tr, P⟩ := pair_of hv hc hu hs hl hl'
  obtain ⟨p, p', h1, h2, h3, h4, h5, h6, h7⟩ := P.problem hv hc hu hs
  have hL : l.S.c.o.L = S.c.o.L := by rw [P.setup]; rfl
  rw [hL] at hx hy hxy
  obtain ⟨n1, n2, -, -⟩ := P.made.names
  have hM : S.c.o.L.Made := P.good.cond.ocp.made
  have hpos := numStages_pos S.c.o.L
  have hr1 : ∀ s, s < S.c.o.L.numStages → readAt S.c.o.L x "states" "time" s = readAt S.c.o.L y "states" "time" s := fun s hs =>
    hxy s _ _ (isVar_of_known hM (Ocp.group_mem P.good (by simp)) (by rw [n1]; decide) s hs) (by decide)
  have hr2 : ∀ s, s < S.c.o.L.numStages → readAt S.c.o.L x "inputs" "steer" s = readAt S.c.o.L y "inputs" "steer" s := fun s hs =>
    hxy s _ _ (isVar_of_known hM (Ocp.group_mem P.good (by simp)) (by rw [n2]; decide) s hs) (by decide)
  have e : costOf S.c.o.L.numStages (readAt S.c.o.L x) = costOf S.c.o.L.numStages (readAt S.c.o.L y) := by
    unfold costOf
    rw [hr1 _ (by omega), hr1 _ hpos]
    congr 2
    exact Finset.sum_congr rfl fun s hs => by rw [hr2 s (Finset.mem_range.mp hs)]
  unfold Costs
  constructor
  · rintro ⟨q, hq, h⟩
    rw [h3, Except.ok.injEq] at hq
    subst hq
    rw [(h7 x hx).2, e] at h
    exact ⟨p, h1, (h7 y hy).1.trans h⟩
  · rintro ⟨q, hq, h⟩
    rw [h1, Except.ok.injEq] at hq
    subst hq
    rw [(h7 y hy).1, ← e] at h
    exact ⟨p', h3, (h7 x hx).2.trans h⟩

/-- **C105**: the same costs can be reached. -/
theorem C105_costs : costs l' = costs l := by
  obtain ⟨eL, hlap⟩ := C105_laps hv hc hu hs hbc hl hl'
  have hM : l.S.c.o.L.Made := by
    obtain ⟨t, S, b, b', tr, P⟩ := pair_of hv hc hu hs hl hl'
    rw [P.setup]
    exact P.good.cond.ocp.made
  ext T
  constructor
  · rintro ⟨x, h1, h2⟩
    obtain ⟨-, hx, y, hxy, hy⟩ := (hlap x).mp h1
    exact ⟨y, hy, (C105_cost hv hc hu hs hl hl' hx hy.1 hxy T).mp h2⟩
  · rintro ⟨y, h1, h2⟩
    obtain ⟨x, hx, hr⟩ := exists_point hM (fun g n s => if g = "states_dot" then 0 else readAt l.S.c.o.L y g n s)
    have hxy : AgreeButDots l.S.c.o.L x y := fun s g n hvar hg => by rw [hr s g n hvar, if_neg hg]
    have h0 : NoDots l.S.c.o.L x := fun s n hvar => by rw [hr s _ n hvar, if_pos rfl]
    exact ⟨x, (hlap x).mpr ⟨h0, hx, y, hxy, h1⟩, (C105_cost hv hc hu hs hl hl' hx h1.1 hxy T).mpr h2⟩

/-- **C105**: the best laps of the condensed simulation are the best laps of the lifted one. -/
theorem C105_best (x : List ℝ) : IsBest l' x ↔ NoDots l.S.c.o.L x ∧ x.length = l.S.c.o.L.numDec ∧ ∃ y, AgreeButDots l.S.c.o.L x y ∧ IsBest l y := by
  obtain ⟨eL, hlap⟩ := C105_laps hv hc hu hs hbc hl hl'
  have hcs := C105_costs hv hc hu hs hbc hl hl'
  unfold IsBest
  rw [hcs, hlap x]
  constructor
  · rintro ⟨⟨h0, hx, y, hxy, hy⟩, T, h1, h2⟩
    exact ⟨h0, hx, y, hxy, hy, T, (C105_cost hv hc hu hs hl hl' hx hy.1 hxy T).mp h1, h2⟩
  · rintro ⟨h0, hx, y, hxy, hy, T, h1, h2⟩
    exact ⟨⟨h0, hx, y, hxy, hy⟩, T, (C105_cost hv hc hu hs hl hl' hx hy.1 hxy T).mpr h1, h2⟩

end

/-- **C105** (bounds on derivatives are lost). Two configurations that differ only in bounds on derivatives of states make condensed simulations with the same
reachable costs, although the lifted simulations enforce those bounds (C95). -/
theorem C105_ignored {cf' : Conf} {sample' : List ℝ} (hv : Car v) (hc : Usable v cf) (hc' : Usable v cf') (hu : Backed v cf u D) (hs : Sampled v cf sample)
    (hs' : Sampled v cf' sample') (hbc : ∀ c ∈ cf.bcs, ¬OnDot c.group c.name) (he : withoutDots cf' = withoutDots cf) {l l' : Lap}
    (hl : laptimeCondensed v u cf sample file = .ok l) (hl' : laptimeCondensed v u cf' sample' file = .ok l') : costs l' = costs l := by
  have e1 : cf'.conOutputs = cf.conOutputs := by have := congrArg Conf.conOutputs he; exact this
  have e2 : cf'.bcs = cf.bcs := by have := congrArg Conf.bcs he; exact this
  have hu' : Backed v cf' u D := ⟨by rw [e1]; exact hu.fits, hu.jac, hu.hess⟩
  obtain ⟨l0, h0⟩ := (C105_accepts (file := file) hv hc hu hs).2.mpr ⟨l, hl⟩
  rw [C105_costs hv hc hu hs hbc h0 hl, C105_costs hv hc' hu' hs' (by rw [e2]; exact hbc) (by rw [he]; exact h0) hl']

theorem not_onDot {g n : String} (hg : g = "states" ∨ g = "inputs" ∨ g = "con_outputs") : ¬OnDot g n := by
  rintro ⟨m, -, e⟩
  have := congrArg String.toList e
  rcases hg with rfl | rfl | rfl <;> simp [String.toList_append] at this

/-- **C105**: the default configuration has no bound and no boundary condition on a derivative of a state. -/
theorem C105_defaults (tn : String) (kw : List (String × Int)) (n : Nat) (pts : Option (List ℝ)) (cyc : Bool) (nc : List String) (closed : Bool) :
    withoutDots (defaults tn kw n pts cyc nc closed) = defaults tn kw n pts cyc nc closed ∧
      ∀ c ∈ (defaults tn kw n pts cyc nc closed).bcs, ¬OnDot c.group c.name := by
  constructor
  · unfold withoutDots
    have : (defaults tn kw n pts cyc nc closed).bounds.filter (fun c => ¬OnDot c.group c.name) = (defaults tn kw n pts cyc nc closed).bounds := by
      rw [List.filter_eq_self]
      intro c hc
      refine decide_eq_true (not_onDot ?_)
      have hc : c ∈ defaultBounds := hc
      simp only [defaultBounds, LapSim.corners, bound, List.map_cons, List.map_nil, List.cons_append, List.nil_append, List.mem_cons, List.not_mem_nil, or_false] at hc
      rcases hc with rfl | rfl | rfl | rfl | rfl | rfl | rfl | rfl | rfl | rfl | rfl | rfl | rfl | rfl | rfl | rfl | rfl | rfl | rfl | rfl <;> simp
    rw [this]
  · intro c hc
    refine not_onDot (Or.inl ?_)
    have hc : c ∈ defaultBCs closed := hc
    unfold defaultBCs at hc
    split at hc
    · simp only [List.mem_cons, List.not_mem_nil, or_false] at hc
      subst hc
      rfl
    · simp only [List.mem_cons, List.not_mem_nil, or_false] at hc
      rcases hc with rfl | rfl | rfl | rfl | rfl | rfl <;> rfl

/-- **C105** (a lap that is known). A car without drag, on a straight road, with the default configuration and `is_condensed=True`: the simulation can be made with every
sample, and the time of 50 m/s is among its costs. -/
theorem C105_straight (p : Params) (q : Four TireParams) (cy cz : ℝ) (hR1 : 0.1 ≤ 50 / p.rolling_radius) (hR2 : 50 / p.rolling_radius ≤ 300)
    {tn : String} {kw : List (String × Int)} {t : Transcription} (ht : makeTranscription tn kw = .ok t) {n : Nat} (hn : 1 ≤ n) {pts : Option (List ℝ)}
    {mesh : List (List ℝ)} (hm : setMesh t.interp n pts = .ok mesh) (cyc closed : Bool) {nc : List String} (hnd : nc.Nodup)
    (hnc : ∀ w ∈ nc, (∃ n ∈ onTrackNames.states, w = "states." ++ n) ∨ ∃ n ∈ onTrackNames.inputs, w = "inputs." ++ n)
    (hst : cyc = true → "inputs.steer" ∉ nc) {rows : List Row} {d : List ℝ} {a b φ : ℝ} (hr : StraightRoad rows d a b φ) :
    ∃ u N, ∀ sample : List ℝ, sample.length = N → ∃ l', laptimeCondensed (standardVehicle p q 0 cy cz) u (defaults tn kw n pts cyc nc closed) sample (.ok rows) = .ok l' ∧
      (at_ d (d.length - 1) - at_ d 0) * ((pointsOf n pts).getD n 0 - (pointsOf n pts).getD 0 0) / 50 ∈ costs l' := by
  obtain ⟨u, D, l, bb, x, hu, h1, h2, h3, h4, h5, h6, h7⟩ := C95_straight p q cy cz hR1 hR2 ht hn hm cyc closed hnd hnc hst hr
  have hv := standard_car p q 0 cy cz
  have hc : Usable (standardVehicle p q 0 cy cz) (defaults tn kw n pts cyc nc closed) := defaults_usable (standard_con p q 0 cy cz) hv hn hnd hnc hst
  obtain ⟨d1, d2⟩ := C105_defaults tn kw n pts cyc nc closed
  refine ⟨u, (layoutOf ((vehicleOnTrack (standardVehicle p q 0 cy cz)).explicit (defaults tn kw n pts cyc nc closed).conOutputs) n t.stages).numDec, fun sample hlen => ?_⟩
  have hs : Sampled (standardVehicle p q 0 cy cz) (defaults tn kw n pts cyc nc closed) sample := by
    intro t' ht'
    have ht' : makeTranscription tn kw = .ok t' := ht'
    rw [ht, Except.ok.injEq] at ht'
    subst ht'
    exact hlen
  obtain ⟨l', hl'⟩ := (C105_accepts hv hc hu hs).1.mp ⟨l, h1⟩
  refine ⟨l', hl', ?_⟩
  rw [C105_costs hv hc hu hs d2 (by rw [d1]; exact h1) hl', ← h7]
  exact ⟨x, ⟨h3, bb, h2, h4, h5⟩, bb, h2, h6⟩

end

end Lumos.Sym
