import Verif.Log.Table
/-!
# Scales and blocks of the constraints of a built problem
-/

namespace Lumos.Log

open Lumos DecVar DecVar.Layout NLP Ocp OCP Bounds

/-! ## Constraint scales are 1 until they are set -/

theorem updateJacScales_keeps {c d : Cons} (h : c.updateJacScales = .ok d) : d.conScales = c.conScales ∧ d.numCon = c.numCon := by
  unfold Cons.updateJacScales at h
  simp only [bind, Except.bind, pure, Except.pure] at h
  cases h1 : gather c.conScales c.jacStruct.1 with
  | error e => simp [h1] at h
  | ok k =>
    cases h2 : gather c.inScales c.jacStruct.2 with
    | error e => simp [h1, h2] at h
    | ok s =>
      simp only [h1, h2, Except.ok.injEq] at h
      subst h
      exact ⟨rfl, rfl⟩

theorem updateHessScales_keeps {c d : Cons} (h : c.updateHessScales = .ok d) : d.conScales = c.conScales ∧ d.numCon = c.numCon := by
  unfold Cons.updateHessScales at h
  simp only [bind, Except.bind, pure, Except.pure] at h
  cases h1 : gather c.inScales c.hessStruct.1 with
  | error e => simp [h1] at h
  | ok k =>
    cases h2 : gather c.inScales c.hessStruct.2 with
    | error e => simp [h1, h2] at h
    | ok s =>
      simp only [h1, h2, Except.ok.injEq] at h
      subst h
      exact ⟨rfl, rfl⟩

/-- All constraint scales are 1. -/
def Plain (c : Cons) : Prop := c.conScales = List.replicate c.numCon 1

theorem make_plain {n m : Nat} {con jac : List ℝ → List ℝ} {hess : List ℝ → List ℝ → List ℝ} {js hs : Option (List Nat × List Nat)}
    {c : Cons} (h : Cons.make n m con jac hess js hs = .ok c) : Plain c := by
  unfold Cons.make at h
  simp only [bind, Except.bind] at h
  generalize hc0 : Cons.mk n m con jac hess _ _ (List.replicate n 1) (List.replicate m 1) [] [] = c0 at h
  cases h1 : c0.updateJacScales with
  | error e => simp [h1] at h
  | ok d =>
    simp only [h1] at h
    have a1 := updateJacScales_keeps h1
    have a2 := updateHessScales_keeps h
    unfold Plain
    rw [a2.1, a1.1, a2.2, a1.2, ← hc0]

theorem makeLinear_plain {n m : Nat} {con jac : List ℝ → List ℝ} {js : List Nat × List Nat} {b : Bool} {c : Cons}
    (h : Cons.makeLinear n m con jac js b = .ok c) : Plain c := by
  unfold Cons.makeLinear at h
  exact make_plain h

theorem setInputScales_plain {c d : Cons} {s : List ℝ} (h : c.setInputScales s = (d, none)) (hc : Plain c) : Plain d := by
  unfold Cons.setInputScales at h
  dsimp only at h
  generalize hc1 : ({ c with inScales := s } : Cons) = c1 at h
  have hp : Plain c1 := by rw [← hc1]; exact hc
  cases h1 : c1.updateJacScales with
  | error e => simp [h1] at h
  | ok c2 =>
    simp only [h1] at h
    cases h2 : c2.updateHessScales with
    | error e => simp [h2] at h
    | ok c3 =>
      simp only [h2, Prod.mk.injEq] at h
      have a1 := updateJacScales_keeps h1
      have a2 := updateHessScales_keeps h2
      rw [← h.1]
      unfold Plain at hp ⊢
      rw [a2.1, a1.1, a2.2, a1.2]
      exact hp

/-- All components of a problem have constraint scales 1. -/
def AllPlain (p : Prob) : Prop := ∀ c ∈ p.cons, Plain c.2

theorem addConstraints_plain {p q : Prob} {name : String} {c : Cons} (h : orRaise (p.addConstraints name c) = .ok q)
    (hp : AllPlain p) (hc : Plain c) : AllPlain q := by
  unfold Prob.addConstraints orRaise at h
  by_cases h1 : hasKey p.cons name = true
  · simp [h1] at h
  · by_cases h2 : c.numIn ≠ p.numDec
    · simp [h1, h2] at h
    · simp only [h1, h2, if_false, Bool.false_eq_true] at h
      cases hs : c.setInputScales p.scales with
      | mk d e =>
        cases e with
        | some e => simp [hs] at h
        | none =>
          simp only [hs, Except.ok.injEq] at h
          subst h
          intro c' hc'
          rcases List.mem_append.1 hc' with hc' | hc'
          · exact hp c' hc'
          · rw [List.mem_singleton] at hc'
            rw [hc']
            exact setInputScales_plain hs hc

theorem deleteConstraints_plain {p q : Prob} {name : String} (h : orRaise (p.deleteConstraints name) = .ok q)
    (hp : AllPlain p) : AllPlain q := by
  unfold Prob.deleteConstraints orRaise at h
  by_cases h1 : hasKey p.cons name = true
  · simp only [h1, if_true, Except.ok.injEq] at h
    subst h
    intro c hc
    exact hp c (List.mem_filter.1 hc).1
  · simp [h1] at h

theorem addObjective_cons {p q : Prob} {name : String} {o : Obj} (h : orRaise (p.addObjective name o) = .ok q) :
    q.cons = p.cons := by
  unfold Prob.addObjective orRaise at h
  by_cases h1 : hasKey p.objs name = true
  · simp [h1] at h
  · simp only [h1, if_false, Bool.false_eq_true] at h
    cases hs : o.setInputScales p.scales with
    | mk d e =>
      cases e with
      | some e => simp [hs] at h
      | none =>
        simp only [hs, Except.ok.injEq] at h
        subst h
        rfl

theorem bind_ok {α β : Type} {a : Py α} {f : α → Py β} {b : β} (h : (a >>= f) = .ok b) : ∃ x, a = .ok x ∧ f x = .ok b := by
  cases a with
  | error e => cases h
  | ok x => exact ⟨x, rfl, h⟩

/-- Before `set_scales` all constraint scales are 1. -/
theorem assemble_plain {S : Setup} {p : Prob} (h : S.assemble = .ok p) : AllPlain p := by
  have hstage : ∀ c, S.stageCons = .ok c → Plain c := by
    intro c hc
    unfold Setup.stageCons at hc
    obtain ⟨_, _, hc⟩ := bind_ok hc
    obtain ⟨_, _, hc⟩ := bind_ok hc
    exact make_plain hc
  have hcont : ∀ c, S.contCons = .ok c → Plain c := by
    intro c hc
    unfold Setup.contCons at hc
    obtain ⟨_, _, hc⟩ := bind_ok hc
    dsimp only at hc
    cases hf : S.c.o.fixedScale with
    | none =>
      rw [hf] at hc
      obtain ⟨_, _, hc⟩ := bind_ok hc
      exact make_plain hc
    | some s =>
      rw [hf] at hc
      exact makeLinear_plain hc
  have hcyc : ∀ c, S.cyclicCons = .ok c → Plain c := by
    intro c hc
    unfold Setup.cyclicCons at hc
    obtain ⟨_, _, hc⟩ := bind_ok hc
    obtain ⟨_, _, hc⟩ := bind_ok hc
    obtain ⟨_, _, hc⟩ := bind_ok hc
    obtain ⟨_, _, hc⟩ := bind_ok hc
    exact makeLinear_plain hc
  have hcond : ∀ c, S.condCons = .ok c → Plain c := by
    intro c hc
    unfold Setup.condCons at hc
    obtain ⟨_, _, hc⟩ := bind_ok hc
    obtain ⟨_, _, hc⟩ := bind_ok hc
    exact make_plain hc
  unfold Setup.assemble at h
  obtain ⟨p1, h1, h⟩ := bind_ok h
  have a1 : AllPlain p1 := by
    unfold Setup.buildObjective at h1
    obtain ⟨o, _, h1⟩ := bind_ok h1
    obtain ⟨p0, h0, h1⟩ := bind_ok h1
    have e0 := addObjective_cons h0
    have : p1.cons = [] := by
      by_cases hl : S.laptime = true
      · rw [if_pos hl] at h1
        obtain ⟨w, _, h1⟩ := bind_ok h1
        rw [addObjective_cons h1, e0]
        rfl
      · rw [if_neg hl] at h1
        cases h1
        rw [e0]
        rfl
    intro c hc
    rw [this] at hc
    cases hc
  obtain ⟨cs, hcs, h⟩ := bind_ok h
  obtain ⟨p2, h2, h⟩ := bind_ok h
  have a2 := addConstraints_plain h2 a1 (hstage cs hcs)
  obtain ⟨cc, hcc, h⟩ := bind_ok h
  obtain ⟨p3, h3, h⟩ := bind_ok h
  have a3 := addConstraints_plain h3 a2 (hcont cc hcc)
  have fin : ∀ p4, AllPlain p4 → (if S.isCondensed = true then do
      let cc ← S.condCons
      let p ← orRaise (p4.deleteConstraints "model_algebra")
      let p ← orRaise (p.deleteConstraints "continuity")
      orRaise (p.addConstraints "model_algebra" cc)
    else pure p4) = .ok p → AllPlain p := by
    intro p4 a4 h
    by_cases hc : S.isCondensed = true
    · rw [if_pos hc] at h
      obtain ⟨d, hd, h⟩ := bind_ok h
      obtain ⟨p5, h5, h⟩ := bind_ok h
      obtain ⟨p6, h6, h⟩ := bind_ok h
      exact addConstraints_plain h (deleteConstraints_plain h6 (deleteConstraints_plain h5 a4)) (hcond d hd)
    · rw [if_neg hc] at h
      cases h
      exact a4
  by_cases hc : S.isCyclic = true
  · rw [if_pos hc] at h
    obtain ⟨y, hy, h⟩ := bind_ok h
    obtain ⟨p4, h4, h⟩ := bind_ok h
    exact fin p4 (addConstraints_plain h4 a3 (hcyc y hy)) h
  · rw [if_neg hc] at h
    exact fin p3 a3 h

/-- The constraint scales of a built problem. -/
theorem build_conScales {S : Setup} {D : List ℝ → ℝ → Prop} (h : S.Good D) {b : Built} (hb : S.build = .ok b) :
    (∀ c, ("continuity", c) ∈ b.prob.cons → S.isCondensed = false →
        ∀ i l k, i < S.c.o.L.numIntervals → l < S.c.o.L.nspi - 1 → k < S.c.o.L.size "states" →
          c.conScales[(i * (S.c.o.L.nspi - 1) + l) * S.c.o.L.size "states" + k]?
            = ((S.c.o.L.namesOf "states").map (askedScale S.scales "states"))[k]?)
    ∧ (∀ c, ("model_algebra", c) ∈ b.prob.cons → S.isCondensed = false →
        ∀ s r, s < S.c.o.L.numStages → r < (stageRowScales S.c.o.L S.c.M.nr S.scales).length →
          c.conScales[s * (stageRowScales S.c.o.L S.c.M.nr S.scales).length + r]? = (stageRowScales S.c.o.L S.c.M.nr S.scales)[r]?)
    ∧ (∀ c, ("model_algebra", c) ∈ b.prob.cons → S.isCondensed = true →
        (∀ i l k, i < S.c.o.L.numIntervals → l < S.c.o.L.nspi - 1 → k < S.c.o.L.size "states" →
          c.conScales[(i * (S.c.o.L.nspi - 1) + l) * S.c.o.L.size "states" + k]?
            = ((S.c.o.L.namesOf "states").map (askedScale S.scales "states"))[k]?)
        ∧ ∀ s r, s < S.c.o.L.numStages → r < S.c.o.L.size "con_outputs" + S.c.M.nr →
          c.conScales[contRows S.c.o.L + s * (S.c.o.L.size "con_outputs" + S.c.M.nr) + r]?
            = (stageRowScales S.c.o.L S.c.M.nr S.scales)[S.c.o.L.size "states" + r]?)
    ∧ (∀ c, ("cyclic", c) ∈ b.prob.cons → c.conScales = List.replicate c.numCon 1) := by
  obtain ⟨p, o, p1, p2, p3, p4, p5⟩ := assemble_ok h
  obtain ⟨q, q1, q2, q3, q4, q5, q6, q7, q8⟩ := C32_set_scales h.cond.ocp.made (group_mem h (g := "states") (by simp))
    (group_mem h (g := "con_outputs") (by simp)) S.c.M.nr S.isCondensed p3 (hasComponents_ok h p4) S.scales h.known h.nonzero
  have hq : b.prob = q := by
    obtain ⟨s, t, hs, ht⟩ := h.bounds
    unfold Setup.build at hb
    simp only [bind, Except.bind, p1, getNames_ok h (g := "states_dot") (by simp), hs, ht, q1, orRaise, pure, Except.pure,
      Except.ok.injEq] at hb
    rw [← hb]
  rw [hq]
  refine ⟨q5, q6, q7, ?_⟩
  intro d hd
  have hsig := consSig_of_same q4
  have hmem : ("cyclic", d.numCon, d.con) ∈ consSig p := by
    rw [← hsig]
    exact List.mem_map.2 ⟨_, hd, rfl⟩
  obtain ⟨c, c1, c2, c3⟩ := mem_of_sig hmem
  rw [q8 "cyclic" c d (by simp) (by simp) c1 hd, ← c2]
  exact assemble_plain p1 _ c1

end Lumos.Log
