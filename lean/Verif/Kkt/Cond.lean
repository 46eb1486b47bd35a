import Verif.Kkt.Ocp
import Verif.Ocp.BuildExample
/-!
# C94: the condensed form has the same optimum as the full form
-/

namespace Lumos.Kkt

open Lumos Lumos.NLP Lumos.Ocp Lumos.Ocp.OCP Lumos.DecVar Lumos.DecVar.Layout Lumos.Bounds

variable {S : Setup} {D D' : List ℝ → ℝ → Prop} {b b' : Built}

/-- The same problem, not condensed. -/
def full (S : Setup) : Setup := { S with isCondensed := false }

theorem mem_dots (h : S.Good D) {i : Nat} : i ∈ S.c.idxSd ↔ ∃ s n, s < S.c.o.L.numStages ∧ n ∈ S.c.o.L.namesOf "states_dot" ∧
    S.c.o.L.indexInDec "states_dot" n (some (s : Int)) = .ok (.scalar i) := by
  have hsd : "states_dot" ∈ S.c.o.L.groups := h.cond.ocp.statesDot
  have hsz : S.c.o.L.size "states_dot" = S.c.M.nx := h.cond.sizeD
  rw [CondOCP.mem_idxSd]
  constructor
  · rintro ⟨s, k, hs, hk, rfl⟩
    refine ⟨s, _, hs, ?_, index_posG h.cond.ocp.made hsd (hsz ▸ hk) hs⟩
    have hk' : k < (S.c.o.L.namesOf "states_dot").length := by
      rw [← hsz] at hk
      exact hk
    rw [List.getD_eq_getElem?_getD, List.getElem?_eq_getElem hk']
    exact List.getElem_mem _
  · rintro ⟨s, n, hs, hn, hi⟩
    obtain ⟨k, hk⟩ := List.mem_iff_getElem?.mp hn
    have hk' := (List.getElem?_eq_some_iff.mp hk).1
    have e := index_posG (o := S.c.o) h.cond.ocp.made hsd hk' hs
    rw [List.getD_eq_getElem?_getD, hk] at e
    have e' := hi.symm.trans e
    simp only [Except.ok.injEq, Idx.scalar.injEq] at e'
    refine ⟨s, k, hs, ?_, e'⟩
    rw [← hsz]
    exact hk'

/-- Outside the state derivatives, the two forms have the same bounds. -/
theorem same_bounds (h : S.Good D) (h' : (full S).Good D') (hcd : S.isCondensed = true) (hb : S.build = .ok b) (hb' : (full S).build = .ok b') {i : Nat}
    (hi : i < S.c.o.L.numDec) (hn : i ∉ S.c.idxSd) : b'.bounds.lb[i]? = b.bounds.lb[i]? ∧ b'.bounds.ub[i]? = b.bounds.ub[i]? := by
  obtain ⟨v, hv, hq⟩ := C01_index_surjective h.cond.ocp.made i hi
  obtain ⟨l1, u1, c1⟩ := C48_bounds h hb hv hq
  obtain ⟨l2, u2, c2⟩ := C48_bounds h' hb' (show (full S).c.o.L.IsVar v from hv) hq
  have hf : (full S).isCondensed = false := rfl
  rw [if_pos hcd] at c1
  rw [hf, if_neg (by simp), List.append_nil] at c2
  have hnone : lastMention S.c.o.L (((S.c.o.L.namesOf "states_dot").map fun n =>
      (⟨"states_dot", n, .scalar 0, .scalar 0⟩ : BoundConfig EReal)).map BoundConfig.req) v = none := by
    unfold lastMention
    rw [List.find?_eq_none]
    intro r hr
    rw [List.mem_reverse, List.mem_map] at hr
    obtain ⟨c, hc, rfl⟩ := hr
    obtain ⟨n, hn', rfl⟩ := List.mem_map.mp hc
    intro hm
    have hm := of_decide_eq_true hm
    cases v with
    | glob m => exact absurd hm.1 (by show ¬"states_dot" = "global"; decide)
    | stage s g m =>
      obtain ⟨-, e, -⟩ := hm
      obtain ⟨-, hs, ei⟩ := query_stage_pos h.cond.ocp.made hv hq
      have hw := isVar_of_known h.cond.ocp.made h.cond.ocp.statesDot hn' s hs
      obtain ⟨j, hj, -⟩ := C01_index_in_range h.cond.ocp.made hw
      obtain ⟨-, -, ej⟩ := query_stage_pos h.cond.ocp.made hw hj
      have e' : fullName "states_dot" n = fullName g m := e
      apply hn
      rw [mem_dots h]
      refine ⟨s, n, hs, hn', ?_⟩
      have : j = i := by rw [ej, ei, e']
      rw [← this]
      exact hj
  have hlast : lastMention S.c.o.L (b.configBounds.map BoundConfig.req) v = lastMention S.c.o.L (b'.configBounds.map BoundConfig.req) v := by
    rw [c1, c2, List.map_append, lastMention_append, hnone]
    rfl
  rw [hlast] at l1 u1
  exact ⟨l2.trans l1.symm, u2.trans u1.symm⟩

/-- On the state derivatives, the condensed form has the bounds zero and the full form has none. -/
theorem dot_bounds (h : S.Good D) (h' : (full S).Good D') (hfree : DotsFree S) (hcd : S.isCondensed = true) (hb : S.build = .ok b)
    (hb' : (full S).build = .ok b') {i : Nat} (hi : i ∈ S.c.idxSd) :
    b.bounds.lb[i]? = some 0 ∧ b.bounds.ub[i]? = some 0 ∧ b'.bounds.lb[i]? = some ⊥ ∧ b'.bounds.ub[i]? = some ⊤ := by
  obtain ⟨s, n, hs, hn, hq⟩ := (mem_dots h).mp hi
  obtain ⟨f1, f2⟩ := hfree n hn
  obtain ⟨a1, a2⟩ := C48_condensed_states_dot h hcd hb hs hn hq f2
  have hv := isVar_of_known h.cond.ocp.made h.cond.ocp.statesDot hn s hs
  obtain ⟨l2, u2, c2⟩ := C48_bounds h' hb' (show (full S).c.o.L.IsVar _ from hv) hq
  have hf : (full S).isCondensed = false := rfl
  rw [hf, if_neg (by simp), List.append_nil] at c2
  have n1 : lastMention (full S).c.o.L ((full S).bcs.map BC.req) (.stage s "states_dot" n) = none := no_mention f2
  have n2 : lastMention (full S).c.o.L (b'.configBounds.map BoundConfig.req) (.stage s "states_dot" n) = none := by
    rw [c2]
    unfold lastMention
    rw [List.find?_eq_none]
    intro r hr
    rw [List.mem_reverse, List.mem_map] at hr
    obtain ⟨c, hc, rfl⟩ := hr
    intro hm
    obtain ⟨_, e, _⟩ := of_decide_eq_true hm
    exact f1 c hc e
  rw [n1, n2] at l2 u2
  exact ⟨a1, a2, l2, u2⟩

theorem readAt_dot {x : List ℝ} (hx : x.length = S.c.o.L.numDec) {s i : Nat} {n : String}
    (hq : S.c.o.L.indexInDec "states_dot" n (some (s : Int)) = .ok (.scalar i)) (hi : i < S.c.o.L.numDec) :
    readAt S.c.o.L x "states_dot" n s = x.getD i 0 := by
  rw [← hx] at hi
  unfold readAt
  simp only [getVar, hq, bind, Except.bind, getIdx, getAt]
  simp [List.getD_eq_getElem?_getD, hi, pure, Except.pure]

theorem dots_lt (h : S.Good D) {i : Nat} (hi : i ∈ S.c.idxSd) : i < S.c.o.L.numDec := by
  obtain ⟨s, n, hs, hn, hq⟩ := (mem_dots h).mp hi
  obtain ⟨j, hj, hlt⟩ := C01_index_in_range h.cond.ocp.made (isVar_of_known h.cond.ocp.made h.cond.ocp.statesDot hn s hs)
  have : S.c.o.L.query (.stage s "states_dot" n) = .ok (.scalar i) := hq
  rw [this] at hj
  simp only [Except.ok.injEq, Idx.scalar.injEq] at hj
  omega

theorem dotsZero_iff (h : S.Good D) {x : List ℝ} (hx : x.length = S.c.o.L.numDec) : DotsZero S x ↔ ∀ i ∈ S.c.idxSd, x.getD i 0 = 0 := by
  constructor
  · intro hd i hi
    obtain ⟨s, n, hs, hn, hq⟩ := (mem_dots h).mp hi
    rw [← readAt_dot hx hq (dots_lt h hi)]
    exact hd n hn s hs
  · intro hd n hn s hs
    obtain ⟨j, hj, hlt⟩ := C01_index_in_range h.cond.ocp.made (isVar_of_known h.cond.ocp.made h.cond.ocp.statesDot hn s hs)
    rw [readAt_dot hx hj hlt]
    exact hd j ((mem_dots h).mpr ⟨s, n, hs, hn, hj⟩)

/-- Read a bound. -/
theorem getD_some {α : Type} {l : List α} {i : Nat} {a d : α} (h : l[i]? = some a) : l.getD i d = a := by
  rw [List.getD_eq_getElem?_getD, h]
  rfl

theorem within_cond (h : S.Good D) (h' : (full S).Good D') (hfree : DotsFree S) (hcd : S.isCondensed = true) (hb : S.build = .ok b)
    (hb' : (full S).build = .ok b') {x y : List ℝ} (hx : x.length = S.c.o.L.numDec) (hy : y.length = S.c.o.L.numDec) (hxy : S.c.SameButDot x y) :
    Within b.bounds.lb b.bounds.ub x ↔ DotsZero S x ∧ Within b'.bounds.lb b'.bounds.ub y := by
  rw [CondOCP.sameButDot_iff h.cond] at hxy
  rw [dotsZero_iff h hx]
  constructor
  · intro hw
    constructor
    · intro i hi
      obtain ⟨a1, a2, -⟩ := dot_bounds h h' hfree hcd hb hb' hi
      obtain ⟨w1, w2⟩ := hw i (by rw [hx]; exact dots_lt h hi)
      rw [getD_some a1] at w1
      rw [getD_some a2] at w2
      have w1' : (0 : ℝ) ≤ x.getD i 0 := by exact_mod_cast w1
      have w2' : x.getD i 0 ≤ (0 : ℝ) := by exact_mod_cast w2
      exact le_antisymm w2' w1'
    · intro i hi
      rw [hy] at hi
      by_cases hm : i ∈ S.c.idxSd
      · obtain ⟨-, -, a3, a4⟩ := dot_bounds h h' hfree hcd hb hb' hm
        rw [getD_some a3, getD_some a4]
        exact ⟨bot_le, le_top⟩
      · obtain ⟨e1, e2⟩ := same_bounds h h' hcd hb hb' hi hm
        rw [List.getD_eq_getElem?_getD, e1, ← List.getD_eq_getElem?_getD, List.getD_eq_getElem?_getD (l := b'.bounds.ub), e2,
          ← List.getD_eq_getElem?_getD (l := b.bounds.ub), hxy i hm]
        exact hw i (by rw [hx]; exact hi)
  · rintro ⟨hd, hw⟩ i hi
    rw [hx] at hi
    by_cases hm : i ∈ S.c.idxSd
    · obtain ⟨a1, a2, -⟩ := dot_bounds h h' hfree hcd hb hb' hm
      rw [getD_some a1, getD_some a2, hd i hm]
      exact ⟨le_rfl, le_rfl⟩
    · obtain ⟨e1, e2⟩ := same_bounds h h' hcd hb hb' hi hm
      have := hw i (by rw [hy]; exact hi)
      rw [List.getD_eq_getElem?_getD, e1, ← List.getD_eq_getElem?_getD, List.getD_eq_getElem?_getD (l := b'.bounds.ub), e2,
          ← List.getD_eq_getElem?_getD (l := b.bounds.ub), hxy i hm] at this
      exact this

/-- The objective does not look at the state derivatives. -/
theorem cost_same (h : S.Good D) {x y : List ℝ} (hx : x.length = S.c.o.L.numDec) (hy : y.length = S.c.o.L.numDec) (hxy : S.c.SameButDot x y) :
    taskCost S y = taskCost S x := by
  rw [CondOCP.sameButDot_iff h.cond] at hxy
  have hread : ∀ g n, (g = "states" ∨ g = "inputs") → n ∈ S.c.o.L.namesOf g → ∀ s, s < S.c.o.L.numStages →
      readAt S.c.o.L y g n s = readAt S.c.o.L x g n s := by
    intro g n hg hn s hs
    have hgm : g ∈ S.c.o.L.groups := group_mem h (by rcases hg with rfl | rfl <;> simp)
    have hv := isVar_of_known h.cond.ocp.made hgm hn s hs
    rw [readAt_posAt h hx hgm hn hs, readAt_posAt h hy hgm hn hs]
    apply hxy
    intro hm
    obtain ⟨s', n', hs', hn', hq⟩ := (mem_dots h).mp hm
    have hv' := isVar_of_known h.cond.ocp.made h.cond.ocp.statesDot hn' s' hs'
    have e := C01_index_injective h.cond.ocp.made hv hv'
      ((posAt_query (p := (g, n)) h.cond.ocp.made hv).1.trans (show S.c.o.L.query (.stage s' "states_dot" n') = _ from hq).symm)
    simp only [Var.stage.injEq] at e
    rcases hg with rfl | rfl
    · exact absurd e.2.1 (by decide)
    · exact absurd e.2.1 (by decide)
  have hst := numStages_pos S.c.o.L
  unfold taskCost
  congr 1
  · split
    · rename_i hf
      have e := CondOCP.same_scale h.cond ((CondOCP.sameButDot_iff h.cond).mpr hxy)
      rw [readScale_eq h hy, readScale_eq h hx]
      exact e
    · rename_i hf
      have ht := h.time hf
      rw [hread _ _ (Or.inl rfl) ht _ (by omega), hread _ _ (Or.inl rfl) ht _ hst]
  · split
    · rename_i hl
      have ht := (h.lap hl).2
      congr 1
      refine Finset.sum_congr rfl fun s hs => ?_
      rw [hread _ _ (Or.inr rfl) ht _ (Finset.mem_range.mp hs)]
    · rfl

theorem solution_full {x : List ℝ} : IsSolution (full S) x ↔ IsSolution S x :=
  ⟨fun h => ⟨h.defects, h.dynamics, h.outputs, h.residuals, h.periodic⟩, fun h => ⟨h.defects, h.dynamics, h.outputs, h.residuals, h.periodic⟩⟩

/-- A decision vector with the state derivatives set to zero. -/
def blank (S : Setup) (y : List ℝ) : List ℝ := (List.range S.c.o.L.numDec).map fun i => if i ∈ S.c.idxSd then 0 else y.getD i 0

theorem blank_len (y : List ℝ) : (blank S y).length = S.c.o.L.numDec := by simp [blank]

theorem blank_get {y : List ℝ} {i : Nat} (hi : i < S.c.o.L.numDec) : (blank S y).getD i 0 = if i ∈ S.c.idxSd then 0 else y.getD i 0 := by
  simp [blank, List.getD_eq_getElem?_getD, hi]

theorem blank_same (h : S.Good D) {y : List ℝ} (hy : y.length = S.c.o.L.numDec) : S.c.SameButDot (blank S y) y ∧ DotsZero S (blank S y) := by
  rw [CondOCP.sameButDot_iff h.cond, dotsZero_iff h (blank_len y)]
  refine ⟨fun i hi => ?_, fun i hi => ?_⟩
  · by_cases hlt : i < S.c.o.L.numDec
    · rw [blank_get hlt, if_neg hi]
    · rw [List.getD_eq_getElem?_getD, List.getD_eq_getElem?_getD, List.getElem?_eq_none (by omega), List.getElem?_eq_none (by rw [blank_len]; omega)]
  · rw [blank_get (dots_lt h hi), if_pos hi]

/-- What the solver looks for in the condensed form, and the best solution of the full form: the link. -/
theorem best_cond (h : S.Good D) (h' : (full S).Good D') (hfree : DotsFree S) (hcd : S.isCondensed = true) (hb : S.build = .ok b)
    (hb' : (full S).build = .ok b') (x : List ℝ) :
    Best S.c.o.L.numDec (taskCost S) (fun x => (∃ y : List ℝ, y.length = S.c.o.L.numDec ∧ S.c.SameButDot x y ∧ IsSolution S y) ∧
      Within b.bounds.lb b.bounds.ub x) x ↔
    x.length = S.c.o.L.numDec ∧ DotsZero S x ∧ ∃ y : List ℝ, S.c.SameButDot x y ∧ Best S.c.o.L.numDec (taskCost S) (Task (full S) b') y := by
  have key : ∀ x : List ℝ, x.length = S.c.o.L.numDec →
      (((∃ y : List ℝ, y.length = S.c.o.L.numDec ∧ S.c.SameButDot x y ∧ IsSolution S y) ∧ Within b.bounds.lb b.bounds.ub x) ↔
      DotsZero S x ∧ ∃ y : List ℝ, y.length = S.c.o.L.numDec ∧ S.c.SameButDot x y ∧ Task (full S) b' y) := by
    intro x hx
    constructor
    · rintro ⟨⟨y, hy, hxy, hs⟩, hw⟩
      obtain ⟨h1, h2⟩ := (within_cond h h' hfree hcd hb hb' hx hy hxy).mp hw
      exact ⟨h1, y, hy, hxy, solution_full.mpr hs, h2⟩
    · rintro ⟨h1, y, hy, hxy, hs, h2⟩
      exact ⟨⟨y, hy, hxy, solution_full.mp hs⟩, (within_cond h h' hfree hcd hb hb' hx hy hxy).mpr ⟨h1, h2⟩⟩
  constructor
  · rintro ⟨⟨hx, hP⟩, hmin⟩
    obtain ⟨hd, y, hy, hxy, ht⟩ := (key x hx).mp hP
    refine ⟨hx, hd, y, hxy, ⟨hy, ht⟩, fun y' hy' ht' => ?_⟩
    obtain ⟨e1, e2⟩ := blank_same h hy'
    have := hmin (blank S y') (blank_len y') ((key _ (blank_len y')).mpr ⟨e2, y', hy', e1, ht'⟩)
    rwa [← cost_same h hx hy hxy, ← cost_same h (blank_len y') hy' e1] at this
  · rintro ⟨hx, hd, y, hxy, ⟨hy, ht⟩, hmin⟩
    refine ⟨⟨hx, (key x hx).mpr ⟨hd, y, hy, hxy, ht⟩⟩, fun x' hx' hP' => ?_⟩
    obtain ⟨-, y', hy', hxy', ht'⟩ := (key x' hx').mp hP'
    have := hmin y' hy' ht'
    rwa [cost_same h hx hy hxy, cost_same h hx' hy' hxy'] at this

/-- **C94** (the condensed problem). When no bound or boundary condition is set on a state derivative, a point is optimal for the callbacks and bounds of the
condensed problem if and only if its state derivatives are zero and, with other state derivatives, it is the optimum of the full problem: condensing
changes neither the best cost nor the best states, inputs, outputs and mesh scale. -/
theorem C94_condensed (h : S.Good D) (h' : (full S).Good D') (hfree : DotsFree S) (hcd : S.isCondensed = true) (hpos : ∀ c ∈ S.scales, 0 < c.value)
    (hb : S.build = .ok b) (hb' : (full S).build = .ok b') {z : List ℝ} (hz : z.length = S.c.o.L.numDec) :
    ∃ f : List ℝ → ℝ, (∀ y, b.prob.objective y = .ok (f y)) ∧
      (Best S.c.o.L.numDec f (Admitted b.prob b.bounds.lb b.bounds.ub) z ↔
        DotsZero S (vmul z b.prob.scales) ∧ ∃ y : List ℝ, S.c.SameButDot (vmul z b.prob.scales) y ∧
          Best S.c.o.L.numDec (taskCost (full S)) (Task (full S) b') y) := by
  obtain ⟨hp, hc, ho, hl, hu⟩ := built_facts h hb
  obtain ⟨f, f1, f2, -⟩ := C94_best hp (scales_pos h hpos hb) hc ho hl hu hz
  obtain ⟨g1, -⟩ := best_congr (f := cost b.prob) (g := taskCost S) (P := Wanted b.prob b.bounds.lb b.bounds.ub)
    (Q := fun x => (∃ y : List ℝ, y.length = S.c.o.L.numDec ∧ S.c.SameButDot x y ∧ IsSolution S y) ∧ Within b.bounds.lb b.bounds.ub x)
    (fun x hx => cost_eq h hb hx) (fun x hx => and_congr_left fun _ => by rw [← feasible_residual h hb hx, C47_condensed h hcd hb hx])
    (vmul z b.prob.scales)
  refine ⟨f, f1, f2.trans (g1.trans ((best_cond h h' hfree hcd hb hb' _).trans ?_))⟩
  have hx : (vmul z b.prob.scales).length = S.c.o.L.numDec := len_vmul hz hp.inv.scales.1
  exact ⟨fun k => k.2, fun k => ⟨hx, k⟩⟩

/-- **C94** (same best cost). The condensed and the full problem have the same optimal cost, if they have one. -/
theorem C94_condensed_cost (h : S.Good D) (h' : (full S).Good D') (hfree : DotsFree S) (hcd : S.isCondensed = true) (hpos : ∀ c ∈ S.scales, 0 < c.value)
    (hb : S.build = .ok b) (hb' : (full S).build = .ok b') :
    ∃ f f' : List ℝ → ℝ, (∀ y, b.prob.objective y = .ok (f y)) ∧ (∀ y, b'.prob.objective y = .ok (f' y)) ∧ ∀ v : ℝ,
      (∃ z, Best S.c.o.L.numDec f (Admitted b.prob b.bounds.lb b.bounds.ub) z ∧ f z = v) ↔
      ∃ z, Best S.c.o.L.numDec f' (Admitted b'.prob b'.bounds.lb b'.bounds.ub) z ∧ f' z = v := by
  obtain ⟨hp, hc, ho, hl, hu⟩ := built_facts h hb
  obtain ⟨hp', hc', ho', hl', hu'⟩ := built_facts h' hb'
  have hpos' : ∀ c ∈ (full S).scales, 0 < c.value := hpos
  have hS : ∀ y, taskCost (full S) y = taskCost S y := fun _ => rfl
  refine ⟨_, _, fun y => objective_eq hp ho y, fun y => objective_eq hp' ho' y, fun v => ⟨?_, ?_⟩⟩
  · rintro ⟨z, hz, rfl⟩
    have hzl := hz.1.1
    obtain ⟨f, f1, f2⟩ := C94_condensed h h' hfree hcd hpos hb hb' hzl
    have ef : f = fun y => cost b.prob (vmul y b.prob.scales) := funext fun y => Except.ok.inj ((f1 y).symm.trans (objective_eq hp ho y))
    rw [ef] at f2
    obtain ⟨-, y, hxy, hy⟩ := f2.mp hz
    have hyl : y.length = S.c.o.L.numDec := hy.1.1
    have hw : (vdiv y b'.prob.scales).length = (full S).c.o.L.numDec := len_vdiv hyl hp'.inv.scales.1
    obtain ⟨k, k1, k2, -⟩ := C94_lifted h' rfl hpos' hb' hw
    have ek : k = fun y => cost b'.prob (vmul y b'.prob.scales) := funext fun y => Except.ok.inj ((k1 y).symm.trans (objective_eq hp' ho' y))
    rw [ek, back hp' hyl] at k2
    have hx : (vmul z b.prob.scales).length = S.c.o.L.numDec := len_vmul hzl hp.inv.scales.1
    refine ⟨_, k2.mpr hy, ?_⟩
    rw [back hp' hyl, cost_eq h' hb' hyl, cost_eq h hb hx, hS, cost_same h hx hyl hxy]
  · rintro ⟨z, hz, rfl⟩
    have hzl := hz.1.1
    obtain ⟨k, k1, k2, -⟩ := C94_lifted h' rfl hpos' hb' hzl
    have ek : k = fun y => cost b'.prob (vmul y b'.prob.scales) := funext fun y => Except.ok.inj ((k1 y).symm.trans (objective_eq hp' ho' y))
    rw [ek] at k2
    have hy := k2.mp hz
    have hyl : (vmul z b'.prob.scales).length = S.c.o.L.numDec := hy.1.1
    obtain ⟨e1, e2⟩ := blank_same h hyl
    have hxl := blank_len (S := S) (vmul z b'.prob.scales)
    have hw : (vdiv (blank S (vmul z b'.prob.scales)) b.prob.scales).length = S.c.o.L.numDec := len_vdiv hxl hp.inv.scales.1
    obtain ⟨f, f1, f2⟩ := C94_condensed h h' hfree hcd hpos hb hb' hw
    have ef : f = fun y => cost b.prob (vmul y b.prob.scales) := funext fun y => Except.ok.inj ((f1 y).symm.trans (objective_eq hp ho y))
    rw [ef, back hp hxl] at f2
    refine ⟨_, f2.mpr ⟨e2, _, e1, hy⟩, ?_⟩
    rw [back hp hxl, cost_eq h hb hxl, cost_eq h' hb' hyl, hS, cost_same h hxl hyl e1]

/-- A condensed cyclic problem with bounds, a boundary condition and scales that meets the hypotheses: its best cost is the best cost of the full problem. -/
example : ∃ b b', (exSetup true).build = .ok b ∧ (full (exSetup true)).build = .ok b' ∧ DotsFree (exSetup true) ∧
    ∃ f f' : List ℝ → ℝ, (∀ y, b.prob.objective y = .ok (f y)) ∧ (∀ y, b'.prob.objective y = .ok (f' y)) ∧ ∀ v : ℝ,
      (∃ z, Best 28 f (Admitted b.prob b.bounds.lb b.bounds.ub) z ∧ f z = v) ↔
      ∃ z, Best 28 f' (Admitted b'.prob b'.bounds.lb b'.bounds.ub) z ∧ f' z = v := by
  have hg : (full (exSetup true)).Good := exSetup_good false
  obtain ⟨b, hb, _⟩ := C47_build (exSetup_good true)
  obtain ⟨b', hb', _⟩ := C47_build hg
  have hfree : DotsFree (exSetup true) := by
    intro n hn
    have e : (exSetup true).c.o.L.namesOf "states_dot" = ["time"] := rfl
    rw [e, List.mem_singleton] at hn
    subst hn
    refine ⟨fun c hc => ?_, fun c hc => ?_⟩
    · have hc' : c ∈ [(⟨"inputs", "u", .scalar 0, .scalar 5⟩ : BoundConfig EReal)] := hc
      rw [List.mem_singleton] at hc'
      subst hc'
      decide
    · have hc' : c ∈ [(⟨some 0, "states", "time", .single (.scalar 0)⟩ : BC EReal)] := hc
      rw [List.mem_singleton] at hc'
      subst hc'
      decide
  refine ⟨b, b', hb, hb', hfree, ?_⟩
  exact C94_condensed_cost (exSetup_good true) hg hfree rfl (by
    intro c hc
    have hc' : c ∈ [(⟨"states", "time", 10⟩ : ScaleConfig)] := hc
    rw [List.mem_singleton] at hc'
    subst hc'
    norm_num) hb hb'

end Lumos.Kkt
