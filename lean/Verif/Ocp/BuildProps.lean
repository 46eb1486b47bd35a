import Verif.Ocp.BuildLemmas
/-!
# C47: what constructing an OCP gives
-/

namespace Lumos.Ocp

open Lumos DecVar DecVar.Layout NLP Bounds OCP

/-- The constraints of the built problem: names in order, sizes and functions. -/
noncomputable def expectedSig (S : Setup) : List (String × Nat × (List ℝ → List ℝ)) :=
  let cyc := if S.isCyclic = true then [("cyclic", (cyclicPairs S).length,
    valueOf (cyclicConstraint S.c.o.L ((cyclicPairs S).map fun p => fullName p.1 p.2)))] else []
  if S.isCondensed = true then cyc ++ [("model_algebra", S.c.numCon, valueOf S.c.constraints)]
  else [("model_algebra", S.c.o.L.numStages * S.c.u.numCon, valueOf (S.c.o.stageConstraints S.c.u S.c.mesh)),
    ("continuity", S.c.o.numContinuity, valueOf S.c.o.contConstraints)] ++ cyc

/-- The objectives of the built problem besides the time. -/
noncomputable def extraObjs (S : Setup) : List (String × (List ℝ → ℝ)) :=
  if S.laptime = true then [("inputs_penalty", scalarOf (inputsPenalty S.c.o.L defaultWeights))] else []

theorem reachable_init (n : Nat) {A : List ℝ → Prop} : Reachable n (Prob.init n) A := ⟨[], trivial, rfl⟩

theorem assemble_ok {S : Setup} {D : List ℝ → ℝ → Prop} (h : S.Good D) :
    ∃ p o, S.assemble = .ok p ∧ S.timeObj = .ok o ∧ Reachable S.c.o.L.numDec p (S.dom D) ∧ consSig p = expectedSig S
      ∧ objsSig p = ("time", o.obj) :: extraObjs S := by
  obtain ⟨o, o1, o2, _⟩ := timeObj_ok h
  obtain ⟨a, a1, a2, a3, a4⟩ := stageCons_ok h
  obtain ⟨b, b1, b2, b3, b4⟩ := contCons_ok h
  obtain ⟨p1, e1, r1, s1', t1'⟩ : ∃ p1, S.buildObjective (Prob.init S.c.o.L.numDec) = .ok p1 ∧ Reachable S.c.o.L.numDec p1 (S.dom D) ∧
      consSig p1 = [] ∧ objsSig p1 = ("time", o.obj) :: extraObjs S := by
    obtain ⟨p1, e1, r1, s1, t1, _⟩ := addObj_ok (reachable_init S.c.o.L.numDec (A := S.dom D)) (name := "time") (o2.mono fun _ _ => trivial) (by simp [objsSig, Prob.init])
    have s1' : consSig p1 = [] := by rw [s1]; rfl
    have t1' : objsSig p1 = [("time", o.obj)] := by rw [t1]; rfl
    unfold Setup.buildObjective extraObjs
    simp only [bind, Except.bind, o1, e1]
    by_cases hl : S.laptime = true
    · obtain ⟨w, w1, w2, w3⟩ := penaltyObj_ok h hl
      obtain ⟨p2, e2, r2, s2, t2, _⟩ := addObj_ok r1 (name := "inputs_penalty") (w2.mono fun _ _ => trivial) (by simp [t1'])
      exact ⟨p2, by simp only [hl, if_true, w1, e2], r2, by rw [s2, s1'], by rw [t2, t1', w3, if_pos hl]; rfl⟩
    · exact ⟨p1, by simp only [hl, if_false, pure, Except.pure, Bool.false_eq_true], r1, s1', by rw [t1', if_neg hl]⟩
  obtain ⟨p2, e2, r2, s2, t2, _⟩ := addCon_ok r1 (name := "model_algebra") a2 (by simp [s1'])
  rw [s1', a3, a4] at s2
  obtain ⟨p3, e3, r3, s3, t3, _⟩ := addCon_ok r2 (name := "continuity") (b2.mono fun _ _ => trivial) (by simp [s2])
  rw [s2, b3, b4] at s3
  have hcyc : ∃ p4, ((S.isCyclic = true → ∃ c, S.cyclicCons = .ok c ∧ orRaise (p3.addConstraints "cyclic" c) = .ok p4)
      ∧ (¬ S.isCyclic = true → p4 = p3)) ∧ Reachable S.c.o.L.numDec p4 (S.dom D) ∧ consSig p4 = consSig p3 ++ (if S.isCyclic = true then
        [("cyclic", (cyclicPairs S).length, valueOf (cyclicConstraint S.c.o.L ((cyclicPairs S).map fun p => fullName p.1 p.2)))]
        else []) ∧ objsSig p4 = objsSig p3 := by
    by_cases hc : S.isCyclic = true
    · obtain ⟨c, c1, c2, c3, c4, _⟩ := cyclicCons_ok h hc
      obtain ⟨p4, e4, r4, s4, t4, _⟩ := addCon_ok r3 (name := "cyclic") (c2.mono fun _ _ => trivial) (by simp [s3])
      rw [c3, c4] at s4
      refine ⟨p4, ?_, r4, ?_, t4⟩
      · exact ⟨fun _ => ⟨c, c1, e4⟩, fun hn => absurd hc hn⟩
      · rw [if_pos hc]; exact s4
    · refine ⟨p3, ?_, r3, ?_, rfl⟩
      · exact ⟨fun hn => absurd hn hc, fun _ => rfl⟩
      · rw [if_neg hc]; simp
  obtain ⟨p4, e4, r4, s4, t4⟩ := hcyc
  have ho4 : objsSig p4 = ("time", o.obj) :: extraObjs S := by rw [t4, t3, t2, t1']
  unfold Setup.assemble
  simp only [bind, Except.bind, e1, a1, e2, b1, e3]
  by_cases hcd : S.isCondensed = true
  · obtain ⟨d, d1, d2, d3, d4⟩ := condCons_ok h hcd
    obtain ⟨p5, e5, r5, s5, t5, _⟩ := delCon_ok r4 (name := "model_algebra") (by rw [s4, s3]; simp)
    obtain ⟨p6, e6, r6, s6, t6, _⟩ := delCon_ok r5 (name := "continuity") (by
      rw [s5, s4, s3]
      simp only [List.mem_map, List.mem_filter]
      exact ⟨("continuity", S.c.o.numContinuity, valueOf S.c.o.contConstraints), ⟨by simp, by simp⟩, rfl⟩)
    have s6' : consSig p6 = if S.isCyclic = true then [("cyclic", (cyclicPairs S).length,
        valueOf (cyclicConstraint S.c.o.L ((cyclicPairs S).map fun p => fullName p.1 p.2)))] else [] := by
      rw [s6, s5, s4, s3]
      by_cases hc : S.isCyclic = true
      · simp [hc]
      · simp [hc]
    obtain ⟨p7, e7, r7, s7, t7, _⟩ := addCon_ok r6 (name := "model_algebra") d2 (by
      rw [s6']
      by_cases hc : S.isCyclic = true
      · simp [hc]
      · simp [hc])
    refine ⟨p7, o, ?_, o1, r7, ?_, by rw [t7, t6, t5, ho4]⟩
    · by_cases hc : S.isCyclic = true
      · obtain ⟨c, c1, c2⟩ := e4.1 hc
        simp only [hc, hcd, if_true, c1, c2, d1, e5, e6, e7]
      · have := e4.2 hc
        subst this
        simp only [hc, hcd, if_true, if_false, Bool.false_eq_true, pure, Except.pure, d1, e5, e6, e7]
    · rw [s7, s6', d3, d4]
      unfold expectedSig
      dsimp only
      rw [if_pos hcd]
  · refine ⟨p4, o, ?_, o1, r4, ?_, ho4⟩
    · by_cases hc : S.isCyclic = true
      · obtain ⟨c, c1, c2⟩ := e4.1 hc
        simp only [hc, hcd, if_true, if_false, Bool.false_eq_true, c1, c2, pure, Except.pure]
      · have := e4.2 hc
        subst this
        simp only [hc, hcd, if_false, Bool.false_eq_true, pure, Except.pure]
    · rw [s4, s3]
      unfold expectedSig
      dsimp only
      rw [if_neg hcd]
      simp

theorem mem_of_sig {p : Prob} {name : String} {m : Nat} {f : List ℝ → List ℝ} (h : (name, m, f) ∈ consSig p) :
    ∃ c, (name, c) ∈ p.cons ∧ c.numCon = m ∧ c.con = f := by
  unfold consSig at h
  obtain ⟨⟨k, c⟩, h1, h2⟩ := List.mem_map.mp h
  simp only [Prod.mk.injEq] at h2
  obtain ⟨rfl, h3, h4⟩ := h2
  exact ⟨c, h1, h3, h4⟩

theorem hasComponents_ok {S : Setup} {D : List ℝ → ℝ → Prop} (h : S.Good D) {p : Prob} (hs : consSig p = expectedSig S) :
    HasComponents S.c.o.L S.c.M.nr S.isCondensed p := by
  have hnr : S.c.M.numRes = S.c.M.nx + S.c.M.ny + S.c.M.nr := rfl
  unfold HasComponents
  unfold expectedSig at hs
  by_cases hcd : S.isCondensed = true
  · rw [if_pos hcd]
    dsimp only at hs
    rw [if_pos hcd] at hs
    obtain ⟨c, h1, h2, _⟩ := mem_of_sig (p := p) (name := "model_algebra") (m := S.c.numCon) (f := valueOf S.c.constraints)
      (by rw [hs]; simp)
    refine ⟨c, h1, h2.trans ?_⟩
    unfold condRows contRows CondOCP.numCon CondOCP.numCont
    rw [h.cond.sizeX, h.cond.sizeY, hnr]
    congr 2
    omega
  · rw [if_neg hcd]
    dsimp only at hs
    rw [if_neg hcd] at hs
    obtain ⟨c, h1, h2, _⟩ := mem_of_sig (p := p) (name := "model_algebra") (m := S.c.o.L.numStages * S.c.u.numCon)
      (f := valueOf (S.c.o.stageConstraints S.c.u S.c.mesh)) (by rw [hs]; simp)
    obtain ⟨d, h3, h4, _⟩ := mem_of_sig (p := p) (name := "continuity") (m := S.c.o.numContinuity)
      (f := valueOf S.c.o.contConstraints) (by rw [hs]; simp)
    refine ⟨⟨c, h1, h2.trans ?_⟩, d, h3, h4.trans ?_⟩
    · unfold algRows
      rw [h.cond.sizeX, h.cond.sizeY, h.cond.numCon, hnr]
      congr 1
      omega
    · rw [← h.cond.numCont]
      unfold contRows CondOCP.numCont
      rw [h.cond.sizeX]

theorem build_ok {S : Setup} {D : List ℝ → ℝ → Prop} (h : S.Good D) :
    ∃ b o s, S.build = .ok b ∧ S.timeObj = .ok o ∧ Reachable S.c.o.L.numDec b.prob (S.dom D) ∧ consSig b.prob = expectedSig S
      ∧ objsSig b.prob = ("time", o.obj) :: extraObjs S
      ∧ b.cl = List.replicate b.prob.numCon 0 ∧ b.cu = List.replicate b.prob.numCon 0
      ∧ (∀ v i, S.c.o.L.IsVar v → S.c.o.L.query v = .ok (.scalar i) →
          b.prob.scales[i]? = some (askedScale S.scales (Var.group v) (Var.name v)))
      ∧ Bounds.updateBounds S.c.o.L (Bounds.fresh S.c.o.L) (S.allBounds (S.c.o.L.namesOf "states_dot")) = (s, none)
      ∧ Bounds.updateBCs S.c.o.L s S.bcs = (b.bounds, none)
      ∧ b.configBounds = S.allBounds (S.c.o.L.namesOf "states_dot") := by
  obtain ⟨p, o, p1, p2, p3, p4, p5⟩ := assemble_ok h
  obtain ⟨s, t, hs, ht⟩ := h.bounds
  obtain ⟨q, q1, q2, q3, q4, _⟩ := C32_set_scales h.cond.ocp.made (group_mem h (g := "states") (by simp))
    (group_mem h (g := "con_outputs") (by simp)) S.c.M.nr S.isCondensed p3 (hasComponents_ok h p4) S.scales h.known h.nonzero
  have q5 : objsSig q = objsSig p := by
    have := objsSig_setScales S.c.o.L S.c.M.nr S.isCondensed p S.scales
    rwa [q1] at this
  have q6 := consSig_of_same q4
  have q7 : p.numCon = q.numCon := by rw [numCon_of_sig, numCon_of_sig, q6]
  refine ⟨⟨q, t, List.replicate p.numCon 0, List.replicate p.numCon 0, S.allBounds (S.c.o.L.namesOf "states_dot")⟩, o, s, ?_, p2,
    q2, q6.trans p4, q5.trans p5, by rw [q7], by rw [q7], q3, hs, ht, rfl⟩
  unfold Setup.build
  simp only [bind, Except.bind, p1, getNames_ok h (g := "states_dot") (by simp), hs, ht, q1, orRaise]
  rfl

/-! ## Reading variables -/

theorem readAt_pos {S : Setup} {D : List ℝ → ℝ → Prop} (h : S.Good D) {x : List ℝ} (hx : x.length = S.c.o.L.numDec) {g : String}
    (hg : g ∈ S.c.o.L.groups) {k : Nat} {n : String} (hk : (S.c.o.L.namesOf g)[k]? = some n) {s : Nat}
    (hs : s < S.c.o.L.numStages) : readAt S.c.o.L x g n s = x.getD (S.c.o.posG g s k) 0 := by
  obtain ⟨hk1, hk2⟩ := List.getElem?_eq_some_iff.mp hk
  have hi := index_posG (o := S.c.o) h.cond.ocp.made hg hk1 hs
  have hlt := posG_lt (o := S.c.o) h.cond.ocp.made hg hk1 hs
  have hle := allStage_le_numDec S.c.o.L
  have hn : (S.c.o.L.namesOf g).getD k "" = n := by
    rw [List.getD_eq_getElem?_getD, hk]; rfl
  rw [hn] at hi
  have hp : S.c.o.posG g s k < x.length := by omega
  unfold readAt
  simp only [getVar, hi, bind, Except.bind, getIdx, getAt]
  simp [List.getD_eq_getElem?_getD, hp, pure, Except.pure]

theorem readAt_posAt {S : Setup} {D : List ℝ → ℝ → Prop} (h : S.Good D) {x : List ℝ} (hx : x.length = S.c.o.L.numDec) {g : String}
    (hg : g ∈ S.c.o.L.groups) {n : String} (hn : n ∈ S.c.o.L.namesOf g) {s : Nat} (hs : s < S.c.o.L.numStages) :
    readAt S.c.o.L x g n s = x.getD (posAt S.c.o.L s (g, n)) 0 := by
  obtain ⟨h1, h2⟩ := posAt_query (p := (g, n)) h.cond.ocp.made (isVar_of_known h.cond.ocp.made hg hn s hs)
  have h1' : S.c.o.L.indexInDec g n (some (s : Int)) = .ok (.scalar (posAt S.c.o.L s (g, n))) := h1
  rw [← hx] at h2
  unfold readAt
  simp only [getVar, h1', bind, Except.bind, getIdx, getAt]
  simp [List.getD_eq_getElem?_getD, h2, pure, Except.pure]

theorem readScale_eq {S : Setup} {D : List ℝ → ℝ → Prop} (h : S.Good D) {x : List ℝ} (hx : x.length = S.c.o.L.numDec) :
    readScale S.c.o x = S.c.o.scaleOf x := by
  have := meshScale_eq h.cond.ocp hx
  unfold readScale
  unfold meshScale at this
  cases hf : S.c.o.fixedScale with
  | some s => simp [scaleOf, hf]
  | none =>
    simp only [hf, bind, Except.bind, pure, Except.pure] at this
    dsimp only
    cases hv : S.c.o.L.getVar x "global" "mesh_scale" none with
    | error e => simp [hv] at this
    | ok v =>
      cases v with
      | array a => simp [hv] at this
      | scalar a => simpa [hv] using this

theorem readGroup_eq {S : Setup} {D : List ℝ → ℝ → Prop} (h : S.Good D) {x : List ℝ} (hx : x.length = S.c.o.L.numDec) {g : String}
    (hg : g ∈ S.c.o.L.groups) {s off : Nat} (hs : s < S.c.o.L.numStages)
    (hoff : ∀ k, S.c.o.posG g s k = s * S.c.o.L.numVarStage + (off + k))
    (hlt : off + S.c.o.L.size g ≤ S.c.o.L.numVarStage) :
    readGroup S.c.o.L x g s = ((S.c.o.stageVars x s).drop off).take (S.c.o.L.size g) := by
  have hl := length_stageVars hx hs
  have hsz : S.c.o.L.size g = (S.c.o.L.namesOf g).length := rfl
  apply List.ext_getElem?
  intro k
  unfold readGroup
  by_cases hk : k < (S.c.o.L.namesOf g).length
  · rw [List.getElem?_map, List.getElem?_eq_getElem hk, List.getElem?_take_of_lt (by omega), List.getElem?_drop]
    simp only [Option.map_some]
    rw [readAt_pos h hx hg (List.getElem?_eq_getElem hk) hs, hoff, ← getD_stageVars S.c.o x s (by omega),
      List.getD_eq_getElem?_getD, List.getElem?_eq_getElem (by omega)]
    rfl
  · rw [List.getElem?_eq_none (by simp; omega), List.getElem?_eq_none (by simp; omega)]

theorem readGroups {S : Setup} {D : List ℝ → ℝ → Prop} (h : S.Good D) {x : List ℝ} (hx : x.length = S.c.o.L.numDec) {s : Nat}
    (hs : s < S.c.o.L.numStages) :
    readGroup S.c.o.L x "states" s = S.c.M.xOf (S.c.o.stageVars x s) ∧
    readGroup S.c.o.L x "inputs" s = S.c.M.uOf (S.c.o.stageVars x s) ∧
    readGroup S.c.o.L x "states_dot" s = (S.c.M.wOf (S.c.o.stageVars x s)).take S.c.M.nx ∧
    readGroup S.c.o.L x "con_outputs" s = (S.c.M.wOf (S.c.o.stageVars x s)).drop S.c.M.nx := by
  have hw := h.cond.width'
  have hl := length_stageVars hx hs
  have hX := h.cond.sizeX
  have hU := h.cond.sizeU
  have hD := h.cond.sizeD
  have hY := h.cond.sizeY
  refine ⟨?_, ?_, ?_, ?_⟩
  · rw [readGroup_eq h hx (group_mem h (by simp)) hs (off := 0)
      (fun k => by rw [CondOCP.posG_states h.cond]; omega) (by omega), hX]
    simp [ExplicitModel.xOf]
  · rw [readGroup_eq h hx (group_mem h (by simp)) hs (off := S.c.M.nx) (fun k => by
        unfold posG offset sizes
        rw [h.cond.groups]
        have : (["states", "inputs", "states_dot", "con_outputs"] : List String).idxOf "inputs" = 1 := by decide
        rw [this]
        simp [hX]; omega) (by omega), hU]
    simp only [ExplicitModel.uOf, List.drop_take]
    congr 1; omega
  · rw [readGroup_eq h hx (group_mem h (by simp)) hs (off := S.c.M.nx + S.c.M.nu)
      (fun k => by rw [CondOCP.posG_dot h.cond]) (by omega), hD]
    rfl
  · rw [readGroup_eq h hx (group_mem h (by simp)) hs (off := S.c.M.nx + S.c.M.nu + S.c.M.nx) (fun k => by
        unfold posG offset sizes
        rw [h.cond.groups]
        have : (["states", "inputs", "states_dot", "con_outputs"] : List String).idxOf "con_outputs" = 3 := by decide
        rw [this]
        simp [hX, hU, hD]; omega) (by omega), hY]
    simp only [ExplicitModel.wOf, List.drop_drop]
    rw [List.take_of_length_le (by simp only [List.length_drop]; omega)]

/-! ## Zero constraints are the equations of a solution -/

theorem zipWith_sub_zero_iff {a b : List ℝ} (hl : a.length = b.length) :
    (∀ v ∈ List.zipWith (· - ·) a b, v = 0) ↔ a = b := by
  induction a generalizing b with
  | nil =>
    cases b with
    | nil => simp
    | cons y b => simp at hl
  | cons x a ih =>
    cases b with
    | nil => simp at hl
    | cons y b =>
      simp only [List.length_cons, Nat.add_right_cancel_iff] at hl
      simp only [List.zipWith_cons_cons, List.forall_mem_cons, ih hl, sub_eq_zero, List.cons.injEq]

theorem cont_zero_iff {S : Setup} {D : List ℝ → ℝ → Prop} (h : S.Good D) {x : List ℝ} (hx : x.length = S.c.o.L.numDec) :
    (∀ v ∈ S.c.o.contFun x, v = 0) ↔
    ∀ i l k : Nat, i < S.c.o.L.numIntervals → l < S.c.o.L.nspi - 1 → ∀ n nd, (S.c.o.L.namesOf "states")[k]? = some n →
    (S.c.o.L.namesOf "states_dot")[k]? = some nd →
    ∑ j ∈ Finset.range S.c.o.L.nspi, S.c.o.A l j * readAt S.c.o.L x "states" n (i * (S.c.o.L.nspi - 1) + j)
      = S.c.o.normLen.getD i 0 * readScale S.c.o x *
        ∑ j ∈ Finset.range S.c.o.L.nspi, S.c.o.B l j * readAt S.c.o.L x "states_dot" nd (i * (S.c.o.L.nspi - 1) + j) := by
  have hst := group_mem h (g := "states") (by simp)
  have hsd := group_mem h (g := "states_dot") (by simp)
  have key : ∀ i l k : Nat, i < S.c.o.L.numIntervals → l < S.c.o.L.nspi - 1 → ∀ n nd, (S.c.o.L.namesOf "states")[k]? = some n →
      (S.c.o.L.namesOf "states_dot")[k]? = some nd →
      S.c.o.defect x i l k = ∑ j ∈ Finset.range S.c.o.L.nspi, S.c.o.A l j * readAt S.c.o.L x "states" n (i * (S.c.o.L.nspi - 1) + j)
      - S.c.o.normLen.getD i 0 * readScale S.c.o x *
        ∑ j ∈ Finset.range S.c.o.L.nspi, S.c.o.B l j * readAt S.c.o.L x "states_dot" nd (i * (S.c.o.L.nspi - 1) + j) := by
    intro i l k hi hl n nd hn hnd
    unfold defect
    rw [Finset.mul_sum]
    congr 1
    · refine Finset.sum_congr rfl fun j hj => ?_
      have hs := stage_lt h.cond.ocp hi (Finset.mem_range.mp hj)
      rw [readAt_pos h hx hst hn hs, posS, mul_comm]
    · refine Finset.sum_congr rfl fun j hj => ?_
      have hs := stage_lt h.cond.ocp hi (Finset.mem_range.mp hj)
      rw [readAt_pos h hx hsd hnd hs, posD, readScale_eq h hx]
      ring
  constructor
  · intro hz i l k hi hl n nd hn hnd
    have hk : k < S.c.o.numStates := (List.getElem?_eq_some_iff.mp hn).1
    have := hz _ (List.mem_of_getElem? (contFun_at S.c.o x hi hl hk))
    rw [key i l k hi hl n nd hn hnd] at this
    linarith
  · intro hz v hv
    unfold contFun at hv
    obtain ⟨t, ht, rfl⟩ := List.mem_map.mp hv
    obtain ⟨i, l, k, rfl, hi, hl, hk⟩ := mem_multi3 ht
    have hk1 : k < (S.c.o.L.namesOf "states").length := hk
    have hk2 : k < (S.c.o.L.namesOf "states_dot").length := by
      have := h.cond.ocp.same
      unfold size at this
      omega
    have e1 := List.getElem?_eq_getElem hk1
    have e2 := List.getElem?_eq_getElem hk2
    have := hz i l k hi hl _ _ e1 e2
    show S.c.o.defect x i l k = 0
    rw [key i l k hi hl _ _ e1 e2]
    linarith

theorem alg_zero_iff {S : Setup} {D : List ℝ → ℝ → Prop} (h : S.Good D) {x : List ℝ} (hx : x.length = S.c.o.L.numDec) :
    (∀ v ∈ S.c.o.stageFun S.c.u S.c.mesh x, v = 0) ↔ ∀ s, s < S.c.o.L.numStages →
      S.c.M.f (readGroup S.c.o.L x "states" s) (readGroup S.c.o.L x "inputs" s) (S.c.mesh.getD s 0 * readScale S.c.o x)
        = readGroup S.c.o.L x "states_dot" s ∧
      S.c.M.h (readGroup S.c.o.L x "states" s) (readGroup S.c.o.L x "inputs" s) (S.c.mesh.getD s 0 * readScale S.c.o x)
        = readGroup S.c.o.L x "con_outputs" s ∧
      ∀ v ∈ S.c.M.r (readGroup S.c.o.L x "states" s) (readGroup S.c.o.L x "inputs" s)
        (S.c.mesh.getD s 0 * readScale S.c.o x), v = 0 := by
  unfold stageFun
  rw [h.cond.con]
  simp only [List.mem_flatMap, List.mem_range]
  have key : ∀ s, s < S.c.o.L.numStages →
      ((∀ v ∈ S.c.M.flatImplicit (S.c.o.stageVars x s) (S.c.mesh.getD s 0 * S.c.o.scaleOf x), v = 0) ↔
      (S.c.M.f (readGroup S.c.o.L x "states" s) (readGroup S.c.o.L x "inputs" s) (S.c.mesh.getD s 0 * readScale S.c.o x)
        = readGroup S.c.o.L x "states_dot" s ∧
      S.c.M.h (readGroup S.c.o.L x "states" s) (readGroup S.c.o.L x "inputs" s) (S.c.mesh.getD s 0 * readScale S.c.o x)
        = readGroup S.c.o.L x "con_outputs" s ∧
      ∀ v ∈ S.c.M.r (readGroup S.c.o.L x "states" s) (readGroup S.c.o.L x "inputs" s)
        (S.c.mesh.getD s 0 * readScale S.c.o x), v = 0)) := by
    intro s hs
    obtain ⟨e1, e2, e3, e4⟩ := readGroups h hx hs
    have hl := CondOCP.len_v h.cond hx hs
    have hnv := ExplicitModel.numVar_eq S.c.M
    have lx := ExplicitModel.length_xOf hl
    have lu := ExplicitModel.length_uOf hl
    have hw : (S.c.M.wOf (S.c.o.stageVars x s)).length = S.c.M.nx + S.c.M.ny := by
      simp only [ExplicitModel.wOf, List.length_drop]; omega
    have hpr := CondOCP.flatImplicit_parts (c := S.c) h.cond.model lx lu
      (d := (S.c.M.wOf (S.c.o.stageVars x s)).take S.c.M.nx) (y := (S.c.M.wOf (S.c.o.stageVars x s)).drop S.c.M.nx)
      (by simp only [List.length_take]; omega) (by simp only [List.length_drop]; omega) (S.c.mesh.getD s 0 * S.c.o.scaleOf x)
    rw [← CondOCP.parts_of] at hpr
    rw [hpr]
    simp only [List.forall_mem_append]
    rw [zipWith_sub_zero_iff (by
        rw [CondOCP.lenF h.cond hx hs]; simp only [List.length_take]; omega),
      zipWith_sub_zero_iff (by
        rw [h.cond.model.lenH _ _ _ lx lu]; simp only [List.length_drop]; omega)]
    rw [← e1, ← e2, ← e3, ← e4, ← readScale_eq h hx]
  constructor
  · intro hz s hs
    exact (key s hs).mp fun v hv => hz v ⟨s, hs, hv⟩
  · rintro hz v ⟨s, hs, hv⟩
    exact (key s hs).mpr (hz s hs) v hv

theorem cyclic_zero_iff {S : Setup} {D : List ℝ → ℝ → Prop} (h : S.Good D) (hc : S.isCyclic = true) {x : List ℝ} (hx : x.length = S.c.o.L.numDec) :
    (∀ v ∈ valueOf (cyclicConstraint S.c.o.L ((cyclicPairs S).map fun p => fullName p.1 p.2)) x, v = 0) ↔
    ∀ g n, (g = "states" ∨ g = "inputs") → n ∈ S.c.o.L.namesOf g → (g ++ "." ++ n) ∉ S.nonCyclic →
      readAt S.c.o.L x g n 0 = readAt S.c.o.L x g n (S.c.o.L.numStages - 1) := by
  obtain ⟨c, _, _, _, c4, c5⟩ := cyclicCons_ok h hc
  have hN := numStages_pos S.c.o.L
  rw [← c4, c5 x hx]
  simp only [List.mem_map]
  have hg : ∀ g, (g = "states" ∨ g = "inputs") → g ∈ S.c.o.L.groups := by
    rintro g (rfl | rfl)
    · exact group_mem h (by simp)
    · exact group_mem h (by simp)
  constructor
  · intro hz g n h1 h2 h3
    have := hz _ ⟨(g, n), mem_cyclicPairs.mpr ⟨h1, h2, h3⟩, rfl⟩
    rw [readAt_posAt h hx (hg g h1) h2 hN, readAt_posAt h hx (hg g h1) h2 (by omega)]
    linarith
  · rintro hz v ⟨⟨g, n⟩, hp, rfl⟩
    obtain ⟨h1, h2, h3⟩ := mem_cyclicPairs.mp hp
    have := hz g n h1 h2 h3
    rw [readAt_posAt h hx (hg g h1) h2 hN, readAt_posAt h hx (hg g h1) h2 (by omega)] at this
    linarith

theorem sig_zero_iff (p : Prob) (x : List ℝ) :
    (∀ c ∈ p.cons, ∀ v ∈ c.2.con x, v = 0) ↔ ∀ c ∈ consSig p, ∀ v ∈ c.2.2 x, v = 0 := by
  unfold consSig
  simp only [List.mem_map]
  constructor
  · rintro h _ ⟨c, hc, rfl⟩
    exact h c hc
  · intro h c hc
    exact h _ ⟨c, hc, rfl⟩

/-! ## C47 -/

/-- What a solver enforces: the constraints at the scaled point are between `cl` and `cu`. -/
def Built.Feasible (b : Built) (z : List ℝ) : Prop :=
  ∃ g, b.prob.constraints z = .ok g ∧ List.Forall₂ (· ≤ ·) b.cl g ∧ List.Forall₂ (· ≤ ·) g b.cu

theorem forall₂_zero_iff (g : List ℝ) (n : Nat) (hg : g.length = n) :
    (List.Forall₂ (· ≤ ·) (List.replicate n 0) g ∧ List.Forall₂ (· ≤ ·) g (List.replicate n 0)) ↔ ∀ v ∈ g, v = 0 := by
  subst hg
  induction g with
  | nil => simp
  | cons a g ih =>
    simp only [List.length_cons, List.replicate_succ, List.forall₂_cons, List.forall_mem_cons, ← ih]
    constructor
    · rintro ⟨⟨h1, h2⟩, h3, h4⟩
      exact ⟨le_antisymm h3 h1, h2, h4⟩
    · rintro ⟨h1, h2, h3⟩
      exact ⟨⟨h1.ge, h2⟩, h1.le, h3⟩

theorem expectedSig_ne (S : Setup) : expectedSig S ≠ [] := by
  unfold expectedSig
  dsimp only
  split <;> simp

theorem feasible_iff {S : Setup} {D : List ℝ → ℝ → Prop} (h : S.Good D) {b : Built} (hb : S.build = .ok b) {x : List ℝ}
    (hx : x.length = S.c.o.L.numDec) :
    b.Feasible (vdiv x b.prob.scales) ↔ ∀ c ∈ expectedSig S, ∀ v ∈ c.2.2 x, v = 0 := by
  obtain ⟨b', o, s, h1, _, h2, h3, _, h4, h5, _⟩ := build_ok h
  rw [hb] at h1
  simp only [Except.ok.injEq] at h1
  subst h1
  have hne : b.prob.cons ≠ [] := by
    intro e
    apply expectedSig_ne S
    rw [← h3]
    simp [consSig, e]
  obtain ⟨g, g1, g2⟩ := C32_feasible_set_unchanged h2 hne x hx
  have hsl := h2.inv.scales.1
  obtain ⟨v, v1, v2, _⟩ := C12_constraints_and_split h2 hne (vdiv x b.prob.scales) (by simp [vdiv, hx, hsl])
  rw [g1] at v1
  simp only [Except.ok.injEq] at v1
  subst v1
  rw [← h3, ← sig_zero_iff, ← g2]
  unfold Built.Feasible
  rw [h4, h5]
  constructor
  · rintro ⟨g', e, k1, k2⟩
    rw [g1] at e
    simp only [Except.ok.injEq] at e
    subst e
    exact (forall₂_zero_iff g _ v2).mp ⟨k1, k2⟩
  · intro hz
    exact ⟨g, g1, (forall₂_zero_iff g _ v2).mpr hz⟩

theorem isSolution_iff {S : Setup} {D : List ℝ → ℝ → Prop} (h : S.Good D) {x : List ℝ} (hx : x.length = S.c.o.L.numDec) :
    IsSolution S x ↔ (∀ v ∈ S.c.o.stageFun S.c.u S.c.mesh x, v = 0) ∧ (∀ v ∈ S.c.o.contFun x, v = 0) ∧
      (S.isCyclic = true → ∀ v ∈ valueOf (cyclicConstraint S.c.o.L ((cyclicPairs S).map fun p => fullName p.1 p.2)) x, v = 0) := by
  rw [alg_zero_iff h hx, cont_zero_iff h hx]
  constructor
  · rintro ⟨h1, h2, h3, h4, h5⟩
    exact ⟨fun s hs => ⟨h2 s hs, h3 s hs, h4 s hs⟩, h1, fun hc => (cyclic_zero_iff h hc hx).mpr (h5 hc)⟩
  · rintro ⟨h1, h2, h3⟩
    exact ⟨h2, fun s hs => (h1 s hs).1, fun s hs => (h1 s hs).2.1, fun s hs => (h1 s hs).2.2,
      fun hc => (cyclic_zero_iff h hc hx).mp (h3 hc)⟩

/-- **C47 (what is built).** Construction succeeds; the problem is one to which C12-C17 apply; its constraints are, in
this order, the model algebra, the continuity and (for a cyclic problem) the cyclic constraints, or for a condensed problem
the cyclic constraints and the condensed algebra; its only objective is the time (a laptime simulation has also the inputs
penalty); the constraint limits are zero, one
for each constraint; the scale of every variable is the last one configured, or 1. -/
theorem C47_build {S : Setup} {D : List ℝ → ℝ → Prop} (h : S.Good D) :
    ∃ b, S.build = .ok b ∧ Reachable S.c.o.L.numDec b.prob (S.dom D)
      ∧ b.prob.cons.map Prod.fst = (if S.isCondensed = true then (if S.isCyclic = true then ["cyclic"] else []) ++ ["model_algebra"]
          else ["model_algebra", "continuity"] ++ if S.isCyclic = true then ["cyclic"] else [])
      ∧ b.prob.objs.map Prod.fst = "time" :: (if S.laptime = true then ["inputs_penalty"] else [])
      ∧ b.cl = List.replicate b.prob.numCon 0 ∧ b.cu = List.replicate b.prob.numCon 0
      ∧ (∀ v i, S.c.o.L.IsVar v → S.c.o.L.query v = .ok (.scalar i) →
          b.prob.scales[i]? = some (askedScale S.scales (Var.group v) (Var.name v))) := by
  obtain ⟨b, o, s, h1, _, h2, h3, h4, h5, h6, h7, _⟩ := build_ok h
  refine ⟨b, h1, h2, ?_, ?_, h5, h6, h7⟩
  · rw [names_of_sig, h3]
    unfold expectedSig
    by_cases hcd : S.isCondensed = true <;> by_cases hc : S.isCyclic = true <;> simp [hcd, hc]
  · rw [objNames_of_sig, h4]
    unfold extraObjs
    split <;> rfl

/-- **C47 (meaning of the constraints).** A point satisfies the constraints handed to the solver exactly when it solves the
discretised problem. -/
theorem C47_lifted {S : Setup} {D : List ℝ → ℝ → Prop} (h : S.Good D) (hcd : S.isCondensed = false) {b : Built} (hb : S.build = .ok b) {x : List ℝ}
    (hx : x.length = S.c.o.L.numDec) : b.Feasible (vdiv x b.prob.scales) ↔ IsSolution S x := by
  rw [feasible_iff h hb hx, isSolution_iff h hx]
  have e1 : valueOf (S.c.o.stageConstraints S.c.u S.c.mesh) x = S.c.o.stageFun S.c.u S.c.mesh x := by
    simp only [valueOf, stageConstraints_eq h.cond.stage hx]
  have e2 : valueOf S.c.o.contConstraints x = S.c.o.contFun x := by
    simp only [valueOf, contConstraints_eq h.cond.ocp hx]
  unfold expectedSig
  dsimp only
  rw [if_neg (by simp [hcd])]
  by_cases hc : S.isCyclic = true
  · simp only [hc, if_true, List.forall_mem_append, List.forall_mem_cons, List.not_mem_nil, false_imp_iff, implies_true, and_true,
      true_imp_iff, e1, e2, and_assoc]
  · simp only [hc, if_false, Bool.false_eq_true, List.forall_mem_append, List.forall_mem_cons, List.not_mem_nil, false_imp_iff, implies_true,
      and_true, e1, e2]

/-- **C47 (condensed problem).** A point satisfies the constraints of a condensed problem exactly when replacing its
`states_dot` by suitable values gives a solution of the discretised problem. -/
theorem C47_condensed {S : Setup} {D : List ℝ → ℝ → Prop} (h : S.Good D) (hcd : S.isCondensed = true) {b : Built} (hb : S.build = .ok b) {x : List ℝ}
    (hx : x.length = S.c.o.L.numDec) :
    b.Feasible (vdiv x b.prob.scales) ↔ ∃ y : List ℝ, y.length = S.c.o.L.numDec ∧ S.c.SameButDot x y ∧ IsSolution S y := by
  rw [feasible_iff h hb hx]
  have hC := CondOCP.C28_same_solutions h.cond hx
  have hval : S.c.constraints x = .ok (valueOf S.c.constraints x) := by
    obtain ⟨con, _, _, _, e, _⟩ := CondOCP.C28_condensed_value h.cond hx
    simp only [valueOf, e]
  have hper : ∀ y : List ℝ, y.length = S.c.o.L.numDec → S.c.SameButDot x y → ∀ g n, (g = "states" ∨ g = "inputs") →
      n ∈ S.c.o.L.namesOf g → ∀ s, s < S.c.o.L.numStages → readAt S.c.o.L y g n s = readAt S.c.o.L x g n s := by
    intro y hy hxy g n hg hn s hs
    obtain ⟨k, hk⟩ := List.mem_iff_getElem?.mp hn
    have hk1 := (List.getElem?_eq_some_iff.mp hk).1
    have hgm : g ∈ S.c.o.L.groups := by rcases hg with rfl | rfl <;> exact group_mem h (by simp)
    obtain ⟨x1, x2, _, _⟩ := readGroups h hx hs
    obtain ⟨y1, y2, _, _⟩ := readGroups h hy hs
    obtain ⟨e1, e2, _⟩ := CondOCP.same_parts h.cond hx hy hxy hs
    have : readGroup S.c.o.L y g s = readGroup S.c.o.L x g s := by
      rcases hg with rfl | rfl
      · rw [x1, y1, e1]
      · rw [x2, y2, e2]
    have := congrArg (fun l : List ℝ => l[k]?) this
    simpa [readGroup, hk] using this
  have hN := numStages_pos S.c.o.L
  have hcyc : S.isCyclic = true → ∀ y : List ℝ, y.length = S.c.o.L.numDec → S.c.SameButDot x y →
      ((∀ v ∈ valueOf (cyclicConstraint S.c.o.L ((cyclicPairs S).map fun p => fullName p.1 p.2)) y, v = 0) ↔
      ∀ v ∈ valueOf (cyclicConstraint S.c.o.L ((cyclicPairs S).map fun p => fullName p.1 p.2)) x, v = 0) := by
    intro hc y hy hxy
    rw [cyclic_zero_iff h hc hy, cyclic_zero_iff h hc hx]
    constructor
    · intro hz g n h1 h2 h3
      rw [← hper y hy hxy g n h1 h2 0 hN, ← hper y hy hxy g n h1 h2 _ (by omega)]
      exact hz g n h1 h2 h3
    · intro hz g n h1 h2 h3
      rw [hper y hy hxy g n h1 h2 0 hN, hper y hy hxy g n h1 h2 _ (by omega)]
      exact hz g n h1 h2 h3
  have hsig : (∀ c ∈ expectedSig S, ∀ v ∈ c.2.2 x, v = 0) ↔ (∀ v ∈ valueOf S.c.constraints x, v = 0) ∧
      (S.isCyclic = true → ∀ v ∈ valueOf (cyclicConstraint S.c.o.L ((cyclicPairs S).map fun p => fullName p.1 p.2)) x, v = 0) := by
    unfold expectedSig
    dsimp only
    rw [if_pos hcd]
    by_cases hc : S.isCyclic = true
    · simp only [hc, if_true, List.forall_mem_append, List.forall_mem_cons, List.not_mem_nil, false_imp_iff, implies_true, and_true,
        true_imp_iff]
      exact and_comm
    · simp only [hc, if_false, Bool.false_eq_true, List.forall_mem_append, List.forall_mem_cons, List.not_mem_nil, false_imp_iff,
        implies_true, and_true, true_and]
  rw [hsig]
  constructor
  · rintro ⟨hz, hzc⟩
    obtain ⟨y, cc, lift, y1, y2, y3, y4, y5, y6⟩ := hC.mp ⟨_, hval, hz⟩
    rw [contConstraints_eq h.cond.ocp y1] at y3
    rw [stageConstraints_eq h.cond.stage y1] at y4
    simp only [Except.ok.injEq] at y3 y4
    subst y3 y4
    exact ⟨y, y1, y2, (isSolution_iff h y1).mpr ⟨y6, y5, fun hc => (hcyc hc y y1 y2).mpr (hzc hc)⟩⟩
  · rintro ⟨y, y1, y2, y3⟩
    obtain ⟨z1, z2, z3⟩ := (isSolution_iff h y1).mp y3
    obtain ⟨con, e, hz⟩ := hC.mpr ⟨y, _, _, y1, y2, contConstraints_eq h.cond.ocp y1, stageConstraints_eq h.cond.stage y1, z2, z1⟩
    rw [hval] at e
    simp only [Except.ok.injEq] at e
    refine ⟨?_, fun hc => (hcyc hc y y1 y2).mp (z3 hc)⟩
    rw [e]
    exact hz

end Lumos.Ocp
