import Verif.Use.Inv
/-!
# C97: every call keeps the invariant
-/

namespace Lumos.Use

open Lumos DecVar DecVar.Layout NLP Bounds Ocp OCP

variable {P : Type} {J : Kind P} {V : Option ℝ → P → Prop} {D : P → List ℝ → ℝ → Prop} {B0 : St EReal}

theorem GoodCons.any {n : Nat} {s : List ℝ} {c : Cons} (h : GoodCons n s c) (A : List ℝ → Prop) : GoodCons n s c A :=
  NLP.GoodCons.mono h fun _ _ => trivial

theorem GoodObj.any {n : Nat} {s : List ℝ} {c : Obj} (h : GoodObj n s c) (A : List ℝ → Prop) : GoodObj n s c A :=
  NLP.GoodObj.mono h fun _ _ => trivial

/-- A call that acts on the components and leaves the settings alone. -/
theorem Inv.act {u : Use P} {b b' : Book P} (h : Inv J V D B0 u b) {f : Prob → Prob × Option PyErr} (hs : Sane J V b')
    (e1 : b'.scale = b.scale) (e2 : b'.params = b.params) (e3 : b'.limits = b.limits) (e4 : b'.bounds = b.bounds)
    (hf : ∀ ms p, V ms p → ∀ q, Fits J D b ms p q → Fits J D b' ms p (f q).1) : Inv J V D B0 (u.act f).1 b' := by
  refine ⟨h.kind, ?_, ?_, hs, fun ms p hv => hf ms p hv _ (h.fits ms p hv), ?_, ?_, ?_⟩
  · rw [e1]; exact h.scale
  · rw [e2]; exact h.params
  · rw [e3]; exact h.cl
  · rw [e3]; exact h.cu
  · rw [e4]; exact h.bounds

/-! ## What the calls do at one setting -/

theorem Fits.setScales (hJ : J.Good V D) {b : Book P} (hb : Sane J V b) {ms : Option ℝ} {p : P} (hv : V ms p) {q : Prob}
    (h : Fits J D b ms p q) {cfgs : List ScaleConfig} (hk : ∀ c ∈ cfgs, c.Known J.S.c.o.L ∧ c.value ≠ 0) (r : P) (hr : ∃ ms', V ms' r) :
    ∃ q', Ocp.setScales J.S.c.o.L (J.model r).nr J.S.isCondensed q cfgs = (q', none) ∧ Fits J D { b with scales := cfgs } ms p q' := by
  have hg := good_cyc (hJ.good ms p hv) hb.cyc
  obtain ⟨ms', hr⟩ := hr
  have hnr : (J.model r).nr = (J.model p).nr := hJ.residuals ms' ms r p hr hv
  have hcomp : HasComponents J.S.c.o.L (J.model p).nr J.S.isCondensed q := by
    have e1 : J.S.c.o.L.size "states" = (J.model p).nx := hg.cond.sizeX
    have e2 : J.S.c.o.L.size "con_outputs" = (J.model p).ny := hg.cond.sizeY
    have e3 : (J.unit p).numCon = (J.model p).nx + (J.model p).ny + (J.model p).nr := hg.cond.numCon
    have hs : ∀ c ∈ expectedSig (J.at ms p b.cyclic), c ∈ consSig q := by
      intro c hc
      rw [h.cons]
      exact List.mem_append_left _ hc
    unfold HasComponents
    unfold expectedSig at hs
    dsimp only at hs
    by_cases hcd : J.S.isCondensed = true
    · rw [if_pos hcd]
      rw [if_pos (show (J.at ms p b.cyclic).isCondensed = true from hcd)] at hs
      obtain ⟨c, h1, h2, _⟩ := mem_of_sig (p := q) (hs ("model_algebra", (J.at ms p b.cyclic).c.numCon, _)
        (List.mem_append_right _ (List.mem_cons_self ..)))
      refine ⟨c, h1, h2.trans ?_⟩
      show J.S.c.o.L.numIntervals * (J.S.c.o.L.nspi - 1) * (J.model p).nx
        + J.S.c.o.L.numStages * ((J.model p).nx + (J.model p).ny + (J.model p).nr - (J.model p).nx) = _
      unfold condRows contRows
      rw [e1, e2]
      congr 2
      omega
    · rw [if_neg hcd]
      rw [if_neg (show ¬ (J.at ms p b.cyclic).isCondensed = true from hcd)] at hs
      obtain ⟨c, h1, h2, _⟩ := mem_of_sig (p := q) (hs ("model_algebra", J.S.c.o.L.numStages * (J.unit p).numCon, _)
        (List.mem_append_left _ (List.mem_cons_self ..)))
      obtain ⟨d, h3, h4, _⟩ := mem_of_sig (p := q) (hs ("continuity", (J.at ms p b.cyclic).c.o.numContinuity, _)
        (List.mem_append_left _ (List.mem_cons_of_mem _ (List.mem_cons_self ..))))
      refine ⟨⟨c, h1, h2.trans ?_⟩, d, h3, h4.trans ?_⟩
      · unfold algRows
        rw [e1, e2, e3]
        congr 1
        omega
      · rw [← hg.cond.numCont]
        unfold contRows
        rw [e1]
        rfl
  obtain ⟨q', q1, q2, q3, q4, _⟩ := C32_set_scales (L := J.S.c.o.L) hg.cond.ocp.made (group_mem hg (g := "states") (by simp))
    (group_mem hg (g := "con_outputs") (by simp)) (J.model p).nr J.S.isCondensed h.reach hcomp cfgs (fun c hc => (hk c hc).1)
    (fun c hc => (hk c hc).2)
  refine ⟨q', by rw [hnr]; exact q1, q2, by rw [consSig_of_same q4]; exact h.cons, ?_, q3, ?_⟩
  · obtain ⟨o, o1, o2⟩ := h.objs
    have := objsSig_setScales J.S.c.o.L (J.model p).nr J.S.isCondensed q cfgs
    rw [q1] at this
    exact ⟨o, o1, this.trans o2⟩
  · intro hc
    exact mask_setScales q1 q4 (h.mask hc)

theorem Fits.addObj {b : Book P} {ms : Option ℝ} {p : P} {q : Prob} (h : Fits J D b ms p q) (name : String) {o : Obj} {s : List ℝ}
    (ho : GoodObj J.S.c.o.L.numDec s o) :
    Fits J D (b.note J (.addObjective name o)) ms p (q.addObjective name o).1 ∧
      (q.addObjective name o).2 = if name ∈ b.objNames then some .nameError else none := by
  rcases addObj_eq h.reach name (GoodObj.any ho _) with ⟨e, hn⟩ | ⟨hn, q', e, r, c, os, sc⟩
  · rw [objNames_fits h] at hn
    rw [e, Book.note, if_pos hn, if_pos hn]
    exact ⟨h, rfl⟩
  · rw [objNames_fits h] at hn
    rw [e, Book.note, if_neg hn, if_neg hn]
    refine ⟨⟨r, c.trans h.cons, ?_, fun v i hv hq => by rw [sc]; exact h.scales v i hv hq, fun hc => (nomatch hc)⟩, rfl⟩
    obtain ⟨t, t1, t2⟩ := h.objs
    exact ⟨t, t1, by rw [os, t2, List.append_assoc]; rfl⟩

theorem Fits.delObj {b : Book P} {ms : Option ℝ} {p : P} {q : Prob} (h : Fits J D b ms p q) (name : String) :
    Fits J D (b.note J (.deleteObjective name)) ms p (q.deleteObjective name).1 ∧
      (q.deleteObjective name).2 = if name ∈ b.objNames then none else some .keyError := by
  rcases delObj_eq h.reach name with ⟨e, hn⟩ | ⟨hn, q', e, r, c, os, sc⟩
  · rw [objNames_fits h] at hn
    rw [e, Book.note, if_pos hn, if_neg hn]
    exact ⟨h, rfl⟩
  · rw [objNames_fits h] at hn
    rw [e, Book.note, if_neg (not_not.mpr hn), if_pos hn]
    refine ⟨⟨r, c.trans h.cons, ?_, fun v i hv hq => by rw [sc]; exact h.scales v i hv hq, fun hc => (nomatch hc)⟩, rfl⟩
    obtain ⟨t, t1, t2⟩ := h.objs
    refine ⟨t, t1, ?_⟩
    rw [os, t2, List.filter_append]
    congr 1
    unfold builtObjs
    dsimp only
    rw [List.filter_append]
    congr 1
    · cases b.time with
      | false => rfl
      | true =>
        by_cases hx : name = "time"
        · subst hx; simp
        · simp [hx, Ne.symm hx]
    · cases b.penalty with
      | false => rfl
      | true =>
        by_cases hx : name = "inputs_penalty"
        · subst hx; simp
        · simp [hx, Ne.symm hx]

theorem Fits.addCon {b : Book P} {ms : Option ℝ} {p : P} {q : Prob} (h : Fits J D b ms p q) (name : String) {c : Cons} {s : List ℝ}
    (hc : GoodCons c.numIn s c) :
    Fits J D (b.note J (.addConstraints name c)) ms p (q.addConstraints name c).1 ∧
      (q.addConstraints name c).2 = if name ∈ b.conNames J ∨ c.numIn ≠ J.S.c.o.L.numDec then some .valueError else none := by
  rcases addCon_eq h.reach name (GoodCons.any hc _) with ⟨e, hn⟩ | ⟨hn, hd, q', e, r, cs, os, sc⟩
  · rw [conNames_fits h] at hn
    rw [e, Book.note, if_pos hn, if_pos hn]
    exact ⟨h, rfl⟩
  · rw [conNames_fits h] at hn
    have hn' : ¬ (name ∈ b.conNames J ∨ c.numIn ≠ J.S.c.o.L.numDec) := by
      rintro (h | h)
      · exact hn h
      · exact h hd
    rw [e, Book.note, if_neg hn', if_neg hn']
    refine ⟨⟨r, ?_, ?_, fun v i hv hq => by rw [sc]; exact h.scales v i hv hq, fun hc => (nomatch hc)⟩, rfl⟩
    · rw [cs, h.cons, List.append_assoc]
    · obtain ⟨t, t1, t2⟩ := h.objs
      exact ⟨t, t1, os.trans t2⟩

theorem Fits.delCon {b : Book P} {ms : Option ℝ} {p : P} {q : Prob} (h : Fits J D b ms p q) {name : String}
    (hn1 : name ≠ "model_algebra") (hn2 : name ≠ "continuity") :
    Fits J D (b.note J (.deleteConstraints name)) ms p (q.deleteConstraints name).1 ∧
      (q.deleteConstraints name).2 = if name ∈ b.conNames J then none else some .keyError := by
  rcases delCon_eq h.reach name with ⟨e, hn⟩ | ⟨hn, q', e, r, c, os, sc⟩
  · rw [conNames_fits h] at hn
    rw [e, Book.note, if_pos hn, if_neg hn]
    exact ⟨h, rfl⟩
  · rw [conNames_fits h] at hn
    rw [e, Book.note, if_neg (not_not.mpr hn), if_pos hn]
    refine ⟨⟨r, ?_, ?_, fun v i hv hq => by rw [sc]; exact h.scales v i hv hq, fun hc => (nomatch hc)⟩, rfl⟩
    · rw [c, h.cons, List.filter_append]
      congr 1
      have e7 : ∀ cyc, (J.at ms p cyc).isCyclic = cyc := fun _ => rfl
      have e8 : ∀ cyc, (J.at ms p cyc).c = (J.at ms p true).c := fun _ => rfl
      have e9 : ∀ cyc, cyclicPairs (J.at ms p cyc) = cyclicPairs (J.at ms p true) := fun _ => rfl
      have e10 : ∀ cyc, (J.at ms p cyc).isCondensed = J.S.isCondensed := fun _ => rfl
      unfold expectedSig
      dsimp only
      rw [e7, e7, e8 b.cyclic, e8 (b.cyclic && _), e9 b.cyclic, e9 (b.cyclic && _), e10, e10]
      have k1 : ("model_algebra" != name) = true := by simpa using Ne.symm hn1
      have k2 : ("continuity" != name) = true := by simpa using Ne.symm hn2
      by_cases hx : name = "cyclic"
      · subst hx
        cases J.S.isCondensed <;> cases b.cyclic <;> simp
      · have k3 : ("cyclic" != name) = true := by simpa using Ne.symm hx
        have k4 : (name != "cyclic") = true := by simpa using hx
        have e : (b.cyclic && name != "cyclic") = b.cyclic := by rw [k4, Bool.and_true]
        rw [e]
        apply List.filter_eq_self.mpr
        cases J.S.isCondensed <;> cases b.cyclic <;> simp [Ne.symm hn1, Ne.symm hn2, Ne.symm hx]
    · obtain ⟨t, t1, t2⟩ := h.objs
      exact ⟨t, t1, os.trans t2⟩

theorem Fits.query {b : Book P} {ms : Option ℝ} {p : P} {q : Prob} (h : Fits J D b ms p q) (ch : Bool) :
    Fits J D { b with changed := ch } ms p q.hessianstructure.1 := by
  obtain ⟨r, c, o, s, m, _⟩ := structure_facts h.reach (cons_ne h)
  refine ⟨r, c.trans h.cons, ?_, fun v i hv hq => by rw [s]; exact h.scales v i hv hq, fun _ => m⟩
  obtain ⟨t, t1, t2⟩ := h.objs
  exact ⟨t, t1, o.trans t2⟩

theorem Fits.hessian {b : Book P} {ms : Option ℝ} {p : P} {q : Prob} (h : Fits J D b ms p q) (x lam : List ℝ) (sigma : ℝ) :
    Fits J D b ms p (q.hessian x lam sigma).1 := by
  rcases hessian_fst q x lam sigma with e | e
  · rw [e]; exact h
  · rw [e]; exact h.query b.changed

/-- The same problem up to the remembered mask. -/
def SameComp (p q : Prob) : Prop := ∃ m, q = { p with idxTriu := m }

theorem SameComp.refl (p : Prob) : SameComp p p := ⟨p.idxTriu, rfl⟩

theorem SameComp.trans {p q r : Prob} (h1 : SameComp p q) (h2 : SameComp q r) : SameComp p r := by
  obtain ⟨m, rfl⟩ := h1
  obtain ⟨m', rfl⟩ := h2
  exact ⟨m', rfl⟩

theorem same_structure (q : Prob) : SameComp q q.hessianstructure.1 := by
  unfold Prob.hessianstructure
  split
  · exact .refl q
  · exact ⟨_, rfl⟩

theorem same_hessian (q : Prob) (x lam : List ℝ) (sigma : ℝ) : SameComp q (q.hessian x lam sigma).1 := by
  rcases hessian_fst q x lam sigma with e | e
  · rw [e]; exact .refl q
  · rw [e]; exact same_structure q

theorem same_warmUp (exact : Bool) (x : List ℝ) (q : Prob) : SameComp q (warmUp exact x q).1 := by
  unfold warmUp
  repeat' split
  all_goals first | exact .refl q | exact same_hessian q _ _ _

/-- The warm-up does not raise while there is an objective and the mask fits. -/
theorem Fits.warm {b : Book P} {ms : Option ℝ} {p : P} {q : Prob} (h : Fits J D b ms p q) (exact : Bool) {x : List ℝ}
    (hx : x.length = J.S.c.o.L.numDec) (ho : b.objNames ≠ []) (hm : exact = true → b.changed = false) :
    Fits J D b ms p (warmUp exact x q).1 ∧ (warmUp exact x q).2 = none := by
  have hco := cons_ne h
  have hob : q.objs ≠ [] := fun e => ho ((objs_ne h).mp e)
  have e1 : ∃ a, q.objective x = .ok a := by
    unfold Prob.objective
    rw [if_neg (by simpa using hob)]
    exact ⟨_, rfl⟩
  have e2 : ∃ a, q.gradient x = .ok a := by
    unfold Prob.gradient
    rw [if_neg (by simpa using hob)]
    exact ⟨_, rfl⟩
  have e3 : ∃ a, q.constraints x = .ok a := by
    unfold Prob.constraints
    rw [if_neg (by simpa using hco)]
    exact ⟨_, rfl⟩
  have e4 : ∃ a, q.jacobian x = .ok a := by
    unfold Prob.jacobian
    rw [if_neg (by simpa using hco)]
    exact ⟨_, rfl⟩
  obtain ⟨a1, e1⟩ := e1
  obtain ⟨a2, e2⟩ := e2
  obtain ⟨a3, e3⟩ := e3
  obtain ⟨a4, e4⟩ := e4
  unfold warmUp
  rw [e1, e2, e3, e4]
  dsimp only
  cases exact with
  | false => exact ⟨h, rfl⟩
  | true =>
    obtain ⟨v, hv⟩ := hessian_ok h.reach hco (h.mask (hm rfl)) (lam := List.replicate q.numCon 1) hx (by simp) 1
    rw [if_pos rfl]
    refine ⟨h.hessian _ _ _, ?_⟩
    dsimp only
    rw [hv]
    rfl

/-- The problem the solver sees has an objective. -/
theorem Fits.solved {b : Book P} {ms : Option ℝ} {p : P} {q : Prob} (h : Fits J D b ms p q) :
    Fits J D { b with objs := if b.objNames = [] then [("const_obj", fun _ => 0)] else b.objs
                      changed := if b.objNames = [] then true else b.changed } ms p (solvedProb q) := by
  unfold solvedProb
  by_cases ho : b.objNames = []
  · have hq : q.objs = [] := (objs_ne h).mpr ho
    rw [if_pos ho, if_pos ho, if_pos (show q.objs.isEmpty = true by simp [hq])]
    have hd : q.numDec = J.S.c.o.L.numDec := h.reach.inv.dec
    rcases addObj_eq h.reach "const_obj" (constObj_good (D := (J.at ms p b.cyclic).dom (D p)) J.S.c.o.L.numDec) with ⟨e, hn⟩ | ⟨hn, q', e, r, c, os, sc⟩
    · rw [objNames_fits h, ho] at hn
      cases hn
    · rw [hd, e]
      refine ⟨r, c.trans h.cons, ?_, fun v i hv hq => by rw [sc]; exact h.scales v i hv hq, fun hc => (nomatch hc)⟩
      obtain ⟨t, t1, t2⟩ := h.objs
      refine ⟨t, t1, ?_⟩
      have hb : builtObjs J b t = [] ∧ b.objs = [] := by
        have : objsSig q = [] := by simp [objsSig, hq]
        rw [this] at t2
        exact List.append_eq_nil_iff.mp t2.symm
      have hb' : builtObjs J { b with objs := [("const_obj", fun _ => (0 : ℝ))], changed := true } t = [] := hb.1
      rw [os, t2, hb.1, hb.2, hb']
      rfl
  · rw [if_neg ho, if_neg ho, if_neg (show ¬ q.objs.isEmpty = true by simpa using fun e => ho ((objs_ne h).mp e))]
    exact h

/-- The book after a `solve`. -/
theorem Fits.solve (hJ : J.Good V D) {b : Book P} (hb : Sane J V b) {ms : Option ℝ} {p : P} (hv : V ms p) {q : Prob}
    (h : Fits J D b ms p q) (lb ub : List EReal) {a : SolveArgs} (ha : GoodCall J V b (.solve a)) :
    ∃ w, Fits J D b ms p w ∧ SameComp q w ∧
      solveProb J.jax J.exact lb ub (List.replicate b.limits 0) (List.replicate b.limits 0) a q =
        if b.limits = b.rows J then
          ((solvedProb w).hessianstructure.1,
            (w.solve lb ub a.guess a.dflt
              (fun q i => a.solver q.hessianstructure.1 i (List.replicate b.limits 0) (List.replicate b.limits 0))).2)
        else (solvedProb w, .error .valueError) := by
  have hw : ∃ w, (if J.jax then warmUp J.exact a.warm q else (q, none)) = (w, none) ∧ Fits J D b ms p w ∧ SameComp q w := by
    cases hj : J.jax with
    | false => exact ⟨q, rfl, h, .refl q⟩
    | true =>
      obtain ⟨h1, h2, h3⟩ := ha hj
      obtain ⟨f1, f2⟩ := h.warm J.exact h2 h1 h3
      rw [if_pos rfl]
      refine ⟨_, Prod.ext rfl f2, f1, same_warmUp ..⟩
  obtain ⟨w, w1, w2, w3⟩ := hw
  refine ⟨w, w2, w3, ?_⟩
  unfold solveProb
  dsimp only
  rw [w1]
  dsimp only
  have hr : w.numCon = b.rows J := rows_fits hJ hb hv w2
  rw [List.length_replicate, hr]
  by_cases hl : b.limits = b.rows J
  · rw [if_neg (by simp [hl]), if_pos hl]
    obtain ⟨i, _, e⟩ := solve_eq w2.reach lb ub a.guess a.dflt
      (fun q i => a.solver q.hessianstructure.1 i (List.replicate b.limits 0) (List.replicate b.limits 0))
    rw [e]
  · rw [if_pos (by simp [hl]), if_neg hl]

theorem Fits.solveNote (hJ : J.Good V D) {b : Book P} (hb : Sane J V b) {ms : Option ℝ} {p : P} (hv : V ms p) {q : Prob}
    (h : Fits J D b ms p q) (lb ub : List EReal) {a : SolveArgs} (ha : GoodCall J V b (.solve a)) :
    Fits J D (b.note J (.solve a)) ms p
      (solveProb J.jax J.exact lb ub (List.replicate b.limits 0) (List.replicate b.limits 0) a q).1 := by
  obtain ⟨w, w1, _, e⟩ := h.solve hJ hb hv lb ub ha
  rw [e, Book.note]
  by_cases hl : b.limits = b.rows J
  · rw [if_pos hl, if_pos hl]
    exact w1.solved.query false
  · rw [if_neg hl, if_neg hl]
    exact w1.solved

/-! ## One call -/

theorem Inv.step (hJ : J.Good V D) {u : Use P} {b : Book P} (h : Inv J V D B0 u b) {c : Call P} (hc : GoodCall J V b c) :
    Inv J V D B0 (u.step c).1 (b.note J c) := by
  have hk := h.kind
  have hs := h.sane
  have hv := hs.valid
  cases c with
  | bounds c =>
    refine ⟨hk, h.scale, h.params, ⟨hs.valid, hs.pen, hs.cyc, hs.cons, hs.objs, hs.scales⟩,
      fun ms p hv => ⟨(h.fits ms p hv).reach, (h.fits ms p hv).cons, (h.fits ms p hv).objs, (h.fits ms p hv).scales,
        (h.fits ms p hv).mask⟩, h.cl, h.cu, ?_⟩
    show (c.run u.J.S.c.o.L u.bounds).1 = runAll J.S.c.o.L B0 (b.bounds ++ [c])
    rw [runAll, List.foldl_append, hk, h.bounds]
    rfl
  | setScales cfgs =>
    refine Inv.act h ⟨hs.valid, hs.pen, hs.cyc, hs.cons, hs.objs, hc⟩ rfl rfl rfl rfl fun ms p hv q hq => ?_
    obtain ⟨q', e, f⟩ := Fits.setScales hJ hs hv hq hc u.params ⟨_, h.params ▸ hs.valid⟩
    rw [hk, e]
    exact f
  | setMeshScale ms =>
    show Inv J V D B0 (if u.J.S.builtScale = none then (u, some PyErr.attributeError) else ({ u with scale := some ms }, none)).1
      (if J.S.builtScale = none then b else { b with scale := some ms })
    rw [hk]
    by_cases hb : J.S.builtScale = none
    · rw [if_pos hb, if_pos hb]; exact h
    · rw [if_neg hb, if_neg hb]
      exact ⟨rfl, rfl, h.params, ⟨hc, hs.pen, hs.cyc, hs.cons, hs.objs, hs.scales⟩,
        fun ms p hv => ⟨(h.fits ms p hv).reach, (h.fits ms p hv).cons, (h.fits ms p hv).objs, (h.fits ms p hv).scales,
        (h.fits ms p hv).mask⟩, h.cl, h.cu, h.bounds⟩
  | setParams r =>
    show Inv J V D B0 (if u.J.S.isCondensed then (u, some PyErr.attributeError) else ({ u with params := r }, none)).1
      (if J.S.isCondensed then b else { b with params := r })
    rw [hk]
    by_cases hb : J.S.isCondensed = true
    · rw [if_pos hb, if_pos hb]; exact h
    · rw [if_neg hb, if_neg hb]
      exact ⟨rfl, h.scale, rfl, ⟨hc, hs.pen, hs.cyc, hs.cons, hs.objs, hs.scales⟩,
        fun ms p hv => ⟨(h.fits ms p hv).reach, (h.fits ms p hv).cons, (h.fits ms p hv).objs, (h.fits ms p hv).scales,
        (h.fits ms p hv).mask⟩, h.cl, h.cu, h.bounds⟩
  | addObjective name o =>
    obtain ⟨hn, s, ho⟩ := hc
    have e : (b.note J (.addObjective name o)).scale = b.scale ∧ (b.note J (.addObjective name o)).params = b.params ∧
        (b.note J (.addObjective name o)).limits = b.limits ∧ (b.note J (.addObjective name o)).bounds = b.bounds ∧
        Sane J V (b.note J (.addObjective name o)) := by
      rw [Book.note]
      split
      · exact ⟨rfl, rfl, rfl, rfl, hs⟩
      · refine ⟨rfl, rfl, rfl, rfl, hs.valid, hs.pen, hs.cyc, hs.cons, ?_, hs.scales⟩
        intro c hc
        rcases List.mem_append.mp hc with hc | hc
        · exact hs.objs c hc
        · rw [List.mem_singleton.mp hc]; exact hn
    exact Inv.act h e.2.2.2.2 e.1 e.2.1 e.2.2.1 e.2.2.2.1 fun ms p _ q hq => (hq.addObj name ho).1
  | deleteObjective name =>
    have e : (b.note J (.deleteObjective name)).scale = b.scale ∧ (b.note J (.deleteObjective name)).params = b.params ∧
        (b.note J (.deleteObjective name)).limits = b.limits ∧ (b.note J (.deleteObjective name)).bounds = b.bounds ∧
        Sane J V (b.note J (.deleteObjective name)) := by
      rw [Book.note]
      split
      · exact ⟨rfl, rfl, rfl, rfl, hs⟩
      · refine ⟨rfl, rfl, rfl, rfl, hs.valid, fun h => hs.pen (Bool.and_eq_true_iff.mp h).1, hs.cyc, hs.cons, ?_, hs.scales⟩
        intro c hc
        exact hs.objs c (List.mem_filter.mp hc).1
    exact Inv.act h e.2.2.2.2 e.1 e.2.1 e.2.2.1 e.2.2.2.1 fun ms p _ q hq => (hq.delObj name).1
  | addConstraints name c =>
    obtain ⟨hn, s, ho⟩ := hc
    have e : (b.note J (.addConstraints name c)).scale = b.scale ∧ (b.note J (.addConstraints name c)).params = b.params ∧
        (b.note J (.addConstraints name c)).limits = b.limits ∧ (b.note J (.addConstraints name c)).bounds = b.bounds ∧
        Sane J V (b.note J (.addConstraints name c)) := by
      rw [Book.note]
      split
      · exact ⟨rfl, rfl, rfl, rfl, hs⟩
      · refine ⟨rfl, rfl, rfl, rfl, hs.valid, hs.pen, hs.cyc, ?_, hs.objs, hs.scales⟩
        intro c hc
        rcases List.mem_append.mp hc with hc | hc
        · exact hs.cons c hc
        · rw [List.mem_singleton.mp hc]; exact hn
    exact Inv.act h e.2.2.2.2 e.1 e.2.1 e.2.2.1 e.2.2.2.1 fun ms p _ q hq => (hq.addCon name ho).1
  | deleteConstraints name =>
    have e : (b.note J (.deleteConstraints name)).scale = b.scale ∧ (b.note J (.deleteConstraints name)).params = b.params ∧
        (b.note J (.deleteConstraints name)).limits = b.limits ∧ (b.note J (.deleteConstraints name)).bounds = b.bounds ∧
        Sane J V (b.note J (.deleteConstraints name)) := by
      rw [Book.note]
      split
      · exact ⟨rfl, rfl, rfl, rfl, hs⟩
      · refine ⟨rfl, rfl, rfl, rfl, hs.valid, hs.pen, fun h => hs.cyc (Bool.and_eq_true_iff.mp h).1, ?_, hs.objs, hs.scales⟩
        intro c hc
        exact hs.cons c (List.mem_filter.mp hc).1
    exact Inv.act h e.2.2.2.2 e.1 e.2.1 e.2.2.1 e.2.2.2.1 fun ms p _ q hq => (hq.delCon hc.1 hc.2).1
  | setCons =>
    have hr : u.now.numCon = b.rows J := by
      unfold Use.now
      rw [h.scale, h.params]
      exact rows_fits hJ hs hs.valid (h.fits _ _ hs.valid)
    refine ⟨hk, h.scale, h.params, ⟨hs.valid, hs.pen, hs.cyc, hs.cons, hs.objs, hs.scales⟩,
      fun ms p hv => ⟨(h.fits ms p hv).reach, (h.fits ms p hv).cons, (h.fits ms p hv).objs, (h.fits ms p hv).scales,
        (h.fits ms p hv).mask⟩, ?_, ?_, h.bounds⟩
    · show List.replicate u.now.numCon 0 = List.replicate (b.rows J) 0
      rw [hr]
    · show List.replicate u.now.numCon 0 = List.replicate (b.rows J) 0
      rw [hr]
  | hessianstructure =>
    exact Inv.act h ⟨hs.valid, hs.pen, hs.cyc, hs.cons, hs.objs, hs.scales⟩ rfl rfl rfl rfl fun ms p _ q hq => hq.query false
  | hessian x lam sigma =>
    exact Inv.act h hs rfl rfl rfl rfl fun ms p _ q hq => hq.hessian x lam sigma
  | solve a =>
    refine Inv.act h ⟨hs.valid, hs.pen, hs.cyc, hs.cons, ?_, hs.scales⟩ rfl rfl rfl rfl fun ms p hv q hq => ?_
    · intro c hc
      rw [Book.note] at hc
      dsimp only at hc
      split at hc
      · rw [List.mem_singleton.mp hc]; decide
      · exact hs.objs c hc
    · rw [hk, h.cl, h.cu]
      exact hq.solveNote hJ hs hv _ _ hc

/-- Every history. -/
theorem Inv.run (hJ : J.Good V D) {cs : List (Call P)} : ∀ {u : Use P} {b : Book P}, Inv J V D B0 u b → GoodCalls J V b cs →
    Inv J V D B0 (u.run cs) (b.noteAll J cs) := by
  induction cs with
  | nil => exact fun h _ => h
  | cons c cs ih => exact fun h hc => ih (h.step hJ hc.1) hc.2

end Lumos.Use
