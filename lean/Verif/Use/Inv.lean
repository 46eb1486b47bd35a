import Verif.Use.Parts
/-!
# C97: the invariant of a problem in use
-/

namespace Lumos.Use

open Lumos DecVar DecVar.Layout NLP Bounds Ocp OCP

variable {P : Type}

/-- The raw objectives of the construction that are still there. -/
noncomputable def builtObjs (J : Kind P) (b : Book P) (o : Obj) : List (String × (List ℝ → ℝ)) :=
  (if b.time then [("time", o.obj)] else []) ++
    if b.penalty then [("inputs_penalty", scalarOf (inputsPenalty J.S.c.o.L defaultWeights))] else []

/-- The components at one setting are those the book asks for. -/
structure Fits (J : Kind P) (D : P → List ℝ → ℝ → Prop) (b : Book P) (ms : Option ℝ) (p : P) (q : Prob) : Prop where
  reach : Reachable J.S.c.o.L.numDec q ((J.at ms p b.cyclic).dom (D p))
  cons : consSig q = expectedSig (J.at ms p b.cyclic) ++ b.cons
  objs : ∃ o, (J.at ms p J.S.isCyclic).timeObj = .ok o ∧ objsSig q = builtObjs J b o ++ b.objs
  scales : ∀ v i, J.S.c.o.L.IsVar v → J.S.c.o.L.query v = .ok (.scalar i) →
    q.scales[i]? = some (askedScale b.scales (Var.group v) (Var.name v))
  mask : b.changed = false → MaskOk q

/-- The book is a possible one. -/
structure Sane (J : Kind P) (V : Option ℝ → P → Prop) (b : Book P) : Prop where
  valid : V b.scale b.params
  pen : b.penalty = true → J.S.laptime = true
  cyc : b.cyclic = true → J.S.isCyclic = true
  cons : ∀ c ∈ b.cons, c.1 ∉ builtNames
  objs : ∀ c ∈ b.objs, c.1 ∉ builtNames
  scales : ∀ c ∈ b.scales, c.Known J.S.c.o.L ∧ c.value ≠ 0

structure Inv (J : Kind P) (V : Option ℝ → P → Prop) (D : P → List ℝ → ℝ → Prop) (B0 : St EReal) (u : Use P) (b : Book P) : Prop where
  kind : u.J = J
  scale : u.scale = b.scale
  params : u.params = b.params
  sane : Sane J V b
  fits : ∀ ms p, V ms p → Fits J D b ms p (u.prob ms p)
  cl : u.cl = List.replicate b.limits 0
  cu : u.cu = List.replicate b.limits 0
  bounds : u.bounds = Bounds.runAll J.S.c.o.L B0 b.bounds

/-! ## Rows and names -/

theorem good_cyc {J : Kind P} {ms : Option ℝ} {p : P} {D : List ℝ → ℝ → Prop} (h : (J.at ms p J.S.isCyclic).Good D) {cyc : Bool}
    (hc : cyc = true → J.S.isCyclic = true) : (J.at ms p cyc).Good D := by
  cases cyc with
  | true => rw [← hc rfl]; exact h
  | false =>
    obtain ⟨h1, h2, h3, h4, h5, h6, h7, h8, h9, h10, h11, h12, h13, h14, h15⟩ := h
    exact ⟨h1, h2, h3, h4, h5, h6, h7, h8, fun hc => (nomatch hc), fun hc => (nomatch hc), fun hc => (nomatch hc), h12, h13, h14, h15⟩

theorem cyclicPairs_length (J : Kind P) (ms : Option ℝ) (p : P) (cyc : Bool) : (cyclicPairs (J.at ms p cyc)).length =
    ((J.S.c.o.L.namesOf "states").map ("states." ++ ·) ++ (J.S.c.o.L.namesOf "inputs").map ("inputs." ++ ·)).countP
      (· ∉ J.S.nonCyclic) := by
  unfold cyclicPairs
  rw [← List.countP_eq_length_filter, List.countP_append, List.countP_append, List.countP_map, List.countP_map, List.countP_map,
    List.countP_map]
  rfl

theorem rows_expected {J : Kind P} {ms : Option ℝ} {p : P} {D : List ℝ → ℝ → Prop} {cyc : Bool} (h : (J.at ms p cyc).Good D) :
    ((expectedSig (J.at ms p cyc)).map fun c => c.2.1).sum = builtRows J p cyc := by
  have e1 : J.S.c.o.L.size "states" = (J.model p).nx := h.cond.sizeX
  have e2 : J.S.c.o.L.size "con_outputs" = (J.model p).ny := h.cond.sizeY
  have e3 : (J.unit p).numCon = (J.model p).nx + (J.model p).ny + (J.model p).nr := h.cond.numCon
  have e4 : (J.at ms p cyc).c.o.numContinuity = J.S.c.o.L.numIntervals * (J.S.c.o.L.nspi - 1) * (J.model p).nx :=
    h.cond.numCont.symm
  have e5 : (J.at ms p cyc).c.numCon = J.S.c.o.L.numIntervals * (J.S.c.o.L.nspi - 1) * (J.model p).nx
      + J.S.c.o.L.numStages * ((J.model p).ny + (J.model p).nr) := by
    show J.S.c.o.L.numIntervals * (J.S.c.o.L.nspi - 1) * (J.model p).nx
      + J.S.c.o.L.numStages * ((J.model p).nx + (J.model p).ny + (J.model p).nr - (J.model p).nx) = _
    congr 2
    omega
  unfold expectedSig builtRows
  dsimp only
  rw [cyclicPairs_length, e5, e4, e1, e2]
  have e6 : (J.at ms p cyc).isCondensed = J.S.isCondensed := rfl
  have e7 : (J.at ms p cyc).isCyclic = cyc := rfl
  have e8 : (J.at ms p cyc).c.o.L.numStages * (J.at ms p cyc).c.u.numCon =
    J.S.c.o.L.numStages * ((J.model p).nx + (J.model p).ny + (J.model p).nr) := congrArg _ e3
  rw [e6, e7, e8]
  cases J.S.isCondensed <;> cases cyc <;> simp <;> omega

theorem rows_fits {J : Kind P} {V : Option ℝ → P → Prop} {D : P → List ℝ → ℝ → Prop} (hJ : J.Good V D) {b : Book P} (hb : Sane J V b)
    {ms : Option ℝ} {p : P} (hv : V ms p) {q : Prob} (h : Fits J D b ms p q) : q.numCon = b.rows J := by
  rw [numCon_of_sig, h.cons, List.map_append, List.sum_append, rows_expected (good_cyc (hJ.good ms p hv) hb.cyc)]
  unfold Book.rows builtRows
  rw [hJ.residuals ms b.scale p b.params hv hb.valid]

theorem conNames_fits {J : Kind P} {D : P → List ℝ → ℝ → Prop} {b : Book P} {ms : Option ℝ} {p : P} {q : Prob}
    (h : Fits J D b ms p q) (name : String) : name ∈ (consSig q).map Prod.fst ↔ name ∈ b.conNames J := by
  rw [h.cons]
  unfold expectedSig Book.conNames
  have e6 : (J.at ms p b.cyclic).isCondensed = J.S.isCondensed := rfl
  have e7 : (J.at ms p b.cyclic).isCyclic = b.cyclic := rfl
  rw [e6, e7]
  cases J.S.isCondensed <;> cases b.cyclic <;> simp
  exact or_left_comm

theorem objNames_fits {J : Kind P} {D : P → List ℝ → ℝ → Prop} {b : Book P} {ms : Option ℝ} {p : P} {q : Prob}
    (h : Fits J D b ms p q) : (objsSig q).map Prod.fst = b.objNames := by
  obtain ⟨o, _, h2⟩ := h.objs
  rw [h2]
  unfold builtObjs Book.objNames
  cases b.time <;> cases b.penalty <;> simp

theorem cons_ne {J : Kind P} {D : P → List ℝ → ℝ → Prop} {b : Book P} {ms : Option ℝ} {p : P} {q : Prob}
    (h : Fits J D b ms p q) : q.cons ≠ [] := by
  intro e
  have := h.cons
  unfold consSig at this
  rw [e] at this
  simp only [List.map_nil] at this
  exact expectedSig_ne (J.at ms p b.cyclic) (List.append_eq_nil_iff.mp this.symm).1

theorem objs_ne {J : Kind P} {D : P → List ℝ → ℝ → Prop} {b : Book P} {ms : Option ℝ} {p : P} {q : Prob}
    (h : Fits J D b ms p q) : q.objs = [] ↔ b.objNames = [] := by
  rw [← objNames_fits h]
  unfold objsSig
  simp

/-! ## The constructor -/

theorem bind_inv {α β : Type} {x : Py α} {f : α → Py β} {b : β} (h : (x >>= f) = .ok b) : ∃ a, x = .ok a ∧ f a = .ok b := by
  cases x with
  | error e => cases h
  | ok a => exact ⟨a, rfl, h⟩

theorem addCon_mask {p q : Prob} {name : String} {c : Cons} (h : orRaise (p.addConstraints name c) = .ok q) : q.idxTriu = p.idxTriu := by
  unfold orRaise at h
  split at h
  · simp only [Except.ok.injEq] at h
    rw [← h]
    unfold Prob.addConstraints
    split
    · rfl
    · split
      · rfl
      · split <;> rfl
  · cases h

theorem addObj_mask {p q : Prob} {name : String} {c : Obj} (h : orRaise (p.addObjective name c) = .ok q) : q.idxTriu = p.idxTriu := by
  unfold orRaise at h
  split at h
  · simp only [Except.ok.injEq] at h
    rw [← h]
    unfold Prob.addObjective
    split
    · rfl
    · split <;> rfl
  · cases h

theorem delCon_mask {p q : Prob} {name : String} (h : orRaise (p.deleteConstraints name) = .ok q) : q.idxTriu = p.idxTriu := by
  unfold orRaise at h
  split at h
  · simp only [Except.ok.injEq] at h
    rw [← h]
    unfold Prob.deleteConstraints
    split <;> rfl
  · cases h

theorem assemble_mask {S : Setup} {p : Prob} (h : S.assemble = .ok p) : p.idxTriu = none := by
  unfold Setup.assemble at h
  dsimp only at h
  obtain ⟨p1, h1, h⟩ := bind_inv h
  obtain ⟨a, _, h⟩ := bind_inv h
  obtain ⟨p2, h2, h⟩ := bind_inv h
  obtain ⟨c, _, h⟩ := bind_inv h
  obtain ⟨p3, h3, h⟩ := bind_inv h
  have e1 : p1.idxTriu = none := by
    unfold Setup.buildObjective at h1
    obtain ⟨t, _, h1⟩ := bind_inv h1
    obtain ⟨p0, h0, h1⟩ := bind_inv h1
    have e0 : p0.idxTriu = none := addObj_mask h0
    split at h1
    · obtain ⟨w, _, h1⟩ := bind_inv h1
      exact (addObj_mask h1).trans e0
    · simp only [pure, Except.pure, Except.ok.injEq] at h1
      rw [← h1, e0]
  have e3 : p3.idxTriu = none := (addCon_mask h3).trans ((addCon_mask h2).trans e1)
  have last : ∀ p4 : Prob, p4.idxTriu = none → (if S.isCondensed = true then do
      let cc ← S.condCons
      let p ← orRaise (p4.deleteConstraints "model_algebra")
      let p ← orRaise (p.deleteConstraints "continuity")
      orRaise (p.addConstraints "model_algebra" cc)
    else (pure p4 : Py Prob)) = .ok p → p.idxTriu = none := by
    intro p4 e4 h
    split at h
    · obtain ⟨cc, _, h⟩ := bind_inv h
      obtain ⟨p5, h5, h⟩ := bind_inv h
      obtain ⟨p6, h6, h⟩ := bind_inv h
      exact (addCon_mask h).trans ((delCon_mask h6).trans ((delCon_mask h5).trans e4))
    · simp only [pure, Except.pure, Except.ok.injEq] at h
      rw [← h, e4]
  split at h
  · obtain ⟨d, _, h⟩ := bind_inv h
    obtain ⟨p4, h4, h⟩ := bind_inv h
    exact last p4 ((addCon_mask h4).trans e3) h
  · exact last p3 e3 h

theorem build_mask {S : Setup} {b : Built} (h : S.build = .ok b) : b.prob.idxTriu = none := by
  unfold Setup.build at h
  dsimp only at h
  obtain ⟨p, h1, h⟩ := bind_inv h
  obtain ⟨_, _, h⟩ := bind_inv h
  obtain ⟨_, _, h⟩ := bind_inv h
  obtain ⟨_, _, h⟩ := bind_inv h
  obtain ⟨q, h2, h⟩ := bind_inv h
  simp only [pure, Except.pure, Except.ok.injEq] at h
  rw [← h]
  unfold orRaise at h2
  split at h2
  · simp only [Except.ok.injEq] at h2
    have := (setScales_objs Obj.hessStruct hessStruct_setInput S.c.o.L S.c.M.nr S.isCondensed p S.scales).2
    rw [h2] at this
    exact this.trans (assemble_mask h1)
  · cases h2

theorem construct_inv {J : Kind P} {V : Option ℝ → P → Prop} {D : P → List ℝ → ℝ → Prop} (hJ : J.Good V D) {p : P}
    (hv : V J.S.builtScale p) :
    ∃ u b, construct J p = .ok u ∧ (J.at J.S.builtScale p J.S.isCyclic).build = .ok b ∧ Inv J V D b.bounds u (Book.init J p) := by
  have hg := hJ.good _ _ hv
  obtain ⟨b, _, s, h1, _, h2, h3, _, h5, h6, _⟩ := build_ok hg
  have hrow : b.prob.numCon = builtRows J p J.S.isCyclic := by rw [numCon_of_sig, h3, rows_expected hg]
  refine ⟨_, b, by unfold construct; simp only [bind, Except.bind, h1]; rfl, h1, rfl, rfl, rfl, ?_, ?_, ?_, ?_, rfl⟩
  · refine ⟨hv, fun h => h, fun h => h, ?_, ?_, fun c hc => ⟨hg.known c hc, hg.nonzero c hc⟩⟩
    · intro c hc
      cases hc
    · intro c hc
      cases hc
  · intro ms q hq
    have hg' := hJ.good ms q hq
    obtain ⟨b', o', s', k1, k2, k3, k4, k5, k6, k7, k8, _⟩ := build_ok hg'
    simp only [k1]
    refine ⟨k3, by rw [k4]; simp [Book.init], ⟨o', k2, ?_⟩, k8, ?_⟩
    · rw [k5]
      unfold extraObjs builtObjs Book.init
      have : (J.at ms q J.S.isCyclic).laptime = J.S.laptime := rfl
      rw [this]
      cases J.S.laptime <;> rfl
    · intro _ m hm
      rw [build_mask k1] at hm
      cases hm
  · rw [h5, hrow]; rfl
  · rw [h6, hrow]; rfl

end Lumos.Use
