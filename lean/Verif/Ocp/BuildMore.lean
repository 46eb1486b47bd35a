import Verif.Ocp.BuildProps
import Verif.Ocp.PenaltySpec
/-!
# C47, C48: objective, bounds and solutions of a built OCP; examples
-/

namespace Lumos.Ocp

open Lumos DecVar DecVar.Layout NLP Bounds OCP

/-- **C47 (objective).** The objective handed to the solver is the mesh scale, or on a fixed mesh the state `time` at the
last stage minus the state `time` at the first stage; in a laptime simulation the mean square of the steering is added. -/
theorem C47_objective {S : Setup} {D : List ℝ → ℝ → Prop} (h : S.Good D) {b : Built} (hb : S.build = .ok b) {x : List ℝ} (hx : x.length = S.c.o.L.numDec) :
    b.prob.objective (vdiv x b.prob.scales) = .ok ((match S.c.o.fixedScale with
      | none => readScale S.c.o x
      | some _ => readAt S.c.o.L x "states" "time" (S.c.o.L.numStages - 1) - readAt S.c.o.L x "states" "time" 0) +
      if S.laptime = true then
        (∑ s ∈ Finset.range S.c.o.L.numStages, readAt S.c.o.L x "inputs" "steer" s ^ 2) / (S.c.o.L.numStages : ℝ) else 0) := by
  obtain ⟨b', o, s, h1, h1', h2, _, h3, _⟩ := build_ok h
  rw [hb] at h1
  simp only [Except.ok.injEq] at h1
  subst h1
  obtain ⟨o', o1, _, o3⟩ := timeObj_ok h
  rw [o1] at h1'
  simp only [Except.ok.injEq] at h1'
  subst h1'
  obtain ⟨hsl, hsn⟩ := h2.inv.scales
  have hone : b.prob.objs ≠ [] := by
    intro e
    simp [objsSig, e] at h3
  obtain ⟨f, g, k1, k2, _⟩ := C15_objective_and_gradient h2 hone (vdiv x b.prob.scales) (by simp [vdiv, hx, hsl])
  have hsum : (b.prob.objs.map fun c => c.2.objective (vdiv x b.prob.scales)).sum = ((objsSig b.prob).map fun c => c.2 x).sum := by
    unfold objsSig
    rw [List.map_map]
    congr 1
    apply List.map_congr_left
    intro c hc
    have hin : c.2.inScales = b.prob.scales := ((h2.inv.objs c hc).facts).2.1
    simp only [Function.comp, Obj.objective, hin]
    rw [vmul_vdiv_cancel (by rw [hx, hsl]) hsn]
  rw [k1, k2, hsum, h3]
  rw [List.map_cons, List.sum_cons]
  have hextra : ((extraObjs S).map fun c => c.2 x).sum = if S.laptime = true then
        (∑ s ∈ Finset.range S.c.o.L.numStages, readAt S.c.o.L x "inputs" "steer" s ^ 2) / (S.c.o.L.numStages : ℝ) else 0 := by
    unfold extraObjs
    by_cases hl : S.laptime = true
    · obtain ⟨v, v1, v2, _⟩ := C67_steer h.cond.ocp.made h.cond.ocp.fields (group_mem h (by simp)) (h.lap hl).2 hx
      rw [if_pos hl, if_pos hl]
      simp only [List.map_cons, List.map_nil, List.sum_cons, List.sum_nil, add_zero, scalarOf, v1, v2]
    · rw [if_neg hl, if_neg hl]
      rfl
  rw [hextra]
  congr 2
  show o'.obj x = _
  rcases hf : S.c.o.fixedScale with _ | ms
  · obtain ⟨ft, t1, _⟩ := C27_scaled_time_objective h.cond.ocp hf
    rw [(o3 x hx).1 hf]
    obtain ⟨t2, t3⟩ := t1 x hx
    simp only [scalarOf, t2, readScale, hf, t3]
  · have ht := h.time (by rw [hf]; simp)
    obtain ⟨k, hk⟩ := List.mem_iff_getElem?.mp ht
    obtain ⟨ft, t1, _⟩ := C27_fixed_time_objective h.cond.ocp hk
    rw [(o3 x hx).2 (by rw [hf]; simp)]
    obtain ⟨t2, a, c, t3, t4, t5⟩ := t1 x hx
    have hN := numStages_pos S.c.o.L
    have e : S.c.o.L.getVar x "states" "time" (some ((S.c.o.L.numStages - 1 : Nat) : Int)) = .ok (.scalar a) := by
      rw [← t3]
      unfold getVar
      rw [C02_negative_stage S.c.o.L "states" "time" (-1) (by omega) (by omega)]
      congr 3
      omega
    simp only [scalarOf, t2, t5, readAt, e]
    have t4' : S.c.o.L.getVar x "states" "time" (some ((0 : Nat) : Int)) = .ok (.scalar c) := t4
    rw [t4']

/-- A model that is right everywhere gives a problem that is. -/
theorem Setup.dom_true (S : Setup) (y : List ℝ) : S.dom (fun _ _ => True) y :=
  ⟨fun _ _ => trivial, fun _ _ => Filter.Eventually.of_forall fun _ _ _ => trivial⟩

/-- **C47 (derivatives).** The derivatives handed to the solver are those of the functions handed to it, at every point whose
unscaled variables lie where the model's derivatives are right (`S.dom D`: at every stage the point and a neighbourhood along each
coordinate is in `D`; everywhere for a model right everywhere), and for all multipliers: the Jacobian of the constraints, the gradient of the objective and the upper triangle of the Hessian of
the Lagrangian. -/
theorem C47_derivatives {S : Setup} {D : List ℝ → ℝ → Prop} (h : S.Good D) {b : Built} (hb : S.build = .ok b) {z : List ℝ}
    (hz : z.length = S.c.o.L.numDec) (hD : S.dom D (vmul z b.prob.scales)) (lam : List ℝ) (hlam : lam.length = b.prob.numCon) (sigma : ℝ) :
    ∃ (F : List ℝ → List ℝ) (f : List ℝ → ℝ) (jr jc hr hc : List Nat) (jv hv g : List ℝ),
      (∀ y, b.prob.constraints y = .ok (F y)) ∧ (∀ y, b.prob.objective y = .ok (f y))
      ∧ b.prob.jacobianstructure = .ok (jr, jc) ∧ b.prob.jacobian z = .ok jv ∧ jr.length = jc.length ∧ jv.length = jr.length
      ∧ IsJacobianAt S.c.o.L.numDec b.prob.numCon F z (assemble jr jc jv)
      ∧ b.prob.gradient z = .ok g ∧ g.length = S.c.o.L.numDec ∧ IsGradientAt S.c.o.L.numDec f z (fun j => g.getD j 0)
      ∧ b.prob.hessianstructure.2 = .ok (hr, hc)
      ∧ b.prob.hessianstructure.1.hessian z lam sigma = (b.prob.hessianstructure.1, .ok hv)
      ∧ hr.length = hc.length ∧ hv.length = hr.length
      ∧ IsHessianAt S.c.o.L.numDec (fun y => f y * sigma + dot lam (F y)) z Upper (assemble hr hc hv) := by
  obtain ⟨b', _, _, h1, _, h2, h3, h4, _⟩ := build_ok h
  rw [hb] at h1
  simp only [Except.ok.injEq] at h1
  subst h1
  have hne : b.prob.cons ≠ [] := by
    intro e
    apply expectedSig_ne S
    rw [← h3]
    simp [consSig, e]
  have hno : b.prob.objs ≠ [] := by
    intro e
    simp [objsSig, e] at h4
  obtain ⟨F, jr, jc, jv, j1, j2, j3, j4, j5, _, _, j8⟩ := C13_jacobian h2 hne z hz
  obtain ⟨f, g, g1, _, g3, g4, _, g6⟩ := C15_objective_and_gradient h2 hno z hz
  obtain ⟨F', f', hr, hc, hv, k1, _, k3, _, k5, k6, k7, k8, _, k10, _⟩ := C14_hessian h2 (Or.inl hne) z lam sigma hz hlam
  have eF : F' = F := funext fun y => by
    have := k1 hne y
    rw [j1 y] at this
    simpa using this.symm
  have ef : f' = f := funext fun y => by
    have := k3 hno y
    rw [g1 y] at this
    simpa using this.symm
  subst eF ef
  exact ⟨_, _, jr, jc, hr, hc, jv, hv, g, j1, g1, j2, j3, j4, j5, j8 hD, g3, g4, g6 hD, k5, k6, k7, k8, k10 hD⟩

/-- **C48 (bounds).** Every variable of a built problem has the bounds of the last boundary condition that mentions it, else of
the last bound that mentions it, else none; in a condensed problem the list of bounds ends with zero bounds for
`states_dot`. -/
theorem C48_bounds {S : Setup} {D : List ℝ → ℝ → Prop} (h : S.Good D) {b : Built} (hb : S.build = .ok b) {v : Var} (hv : S.c.o.L.IsVar v) {i : Nat}
    (hq : S.c.o.L.query v = .ok (.scalar i)) :
    b.bounds.lb[i]? =
      (match lastMention S.c.o.L (S.bcs.map BC.req) v with
       | some r => r.arg.lb.at (r.slot v)
       | none =>
         match lastMention S.c.o.L (b.configBounds.map BoundConfig.req) v with
         | some r => r.arg.lb.at (r.slot v)
         | none => some ⊥) ∧
    b.bounds.ub[i]? =
      (match lastMention S.c.o.L (S.bcs.map BC.req) v with
       | some r => r.arg.ub.at (r.slot v)
       | none =>
         match lastMention S.c.o.L (b.configBounds.map BoundConfig.req) v with
         | some r => r.arg.ub.at (r.slot v)
         | none => some ⊤) ∧
    b.configBounds = S.bounds ++ (if S.isCondensed = true then
      (S.c.o.L.namesOf "states_dot").map fun n => ⟨"states_dot", n, .scalar 0, .scalar 0⟩ else []) := by
  obtain ⟨b', o, s, h1, _, _, _, _, _, _, _, h2, h3, h4⟩ := build_ok h
  rw [hb] at h1
  simp only [Except.ok.injEq] at h1
  subst h1
  have hlt : i < S.c.o.L.numDec := by
    obtain ⟨j, hj, hjl⟩ := C01_index_in_range h.cond.ocp.made hv
    rw [hq] at hj
    simp only [Except.ok.injEq, Idx.scalar.injEq] at hj
    omega
  have hL := h.cond.ocp.made
  have h3' : updateBounds S.c.o.L { s with bcs := s.bcs ++ S.bcs } [] = (b.bounds, none) := h3
  have hs0 : s.lb.length = S.c.o.L.numDec ∧ s.ub.length = S.c.o.L.numDec ∧ s.bcs = [] := by
    unfold Bounds.updateBounds at h2
    cases e1 : setAll S.c.o.L (Bounds.fresh S.c.o.L) ((S.allBounds (S.c.o.L.namesOf "states_dot")).map BoundConfig.req) with
    | mk s1 e =>
      rw [e1] at h2
      cases e with
      | some e => simp at h2
      | none =>
        obtain ⟨_, _, a3, a4, a5⟩ := setAll_at hL _ (by simp [Bounds.fresh]) (by simp [Bounds.fresh]) e1 hv hq
        have : s1.bcs = [] := a5
        simp only [applyBCs, this, List.map_nil, setAll, Prod.mk.injEq, and_true] at h2
        subst h2
        exact ⟨a3, a4, this⟩
  obtain ⟨u1, u2⟩ := C20_last_bound_wins hL (by simp [Bounds.fresh]) (by simp [Bounds.fresh]) h2 hv hq
  obtain ⟨w1, w2⟩ := C20_last_bound_wins hL (s := { s with bcs := s.bcs ++ S.bcs }) hs0.1 hs0.2.1 h3' hv hq
  have hm : lastMention S.c.o.L ((Bounds.fresh (V := EReal) S.c.o.L).bcs.map BC.req) v = none := rfl
  have hm' : lastMention S.c.o.L (([] : List (BoundConfig EReal)).map BoundConfig.req) v = none := rfl
  rw [hm] at u1 u2
  dsimp only at u1 u2
  rw [hm', hs0.2.2, List.nil_append] at w1 w2
  dsimp only at w1 w2
  rw [w1, w2, u1, u2, h4]
  refine ⟨?_, ?_, rfl⟩
  · cases lastMention S.c.o.L (S.bcs.map BC.req) v with
    | some r => rfl
    | none =>
      dsimp only
      cases lastMention S.c.o.L ((S.allBounds (S.c.o.L.namesOf "states_dot")).map BoundConfig.req) v with
      | some r => rfl
      | none => simp [Bounds.fresh, hlt]
  · cases lastMention S.c.o.L (S.bcs.map BC.req) v with
    | some r => rfl
    | none =>
      dsimp only
      cases lastMention S.c.o.L ((S.allBounds (S.c.o.L.namesOf "states_dot")).map BoundConfig.req) v with
      | some r => rfl
      | none => simp [Bounds.fresh, hlt]

theorem lastMention_append (L : Layout) (as bs : List (Req EReal)) (v : Var) :
    lastMention L (as ++ bs) v = match lastMention L bs v with
      | some r => some r
      | none => lastMention L as v := by
  unfold lastMention
  rw [List.reverse_append, List.find?_append]
  cases List.find? (fun r => decide (r.Mentions L v)) bs.reverse <;> rfl

theorem dots_mention {S : Setup} {n : String} (hn : n ∈ S.c.o.L.namesOf "states_dot") (s : Nat)
    (as : List (BoundConfig EReal)) :
    ∃ r, lastMention S.c.o.L ((as ++ (S.c.o.L.namesOf "states_dot").map fun n =>
        (⟨"states_dot", n, .scalar 0, .scalar 0⟩ : BoundConfig EReal)).map BoundConfig.req) (.stage s "states_dot" n) = some r
      ∧ r.arg = .pair (.scalar 0) (.scalar 0) := by
  rw [List.map_append, lastMention_append, List.map_map]
  have hex : ∃ r, lastMention S.c.o.L ((S.c.o.L.namesOf "states_dot").map
      (BoundConfig.req ∘ fun n => (⟨"states_dot", n, .scalar 0, .scalar 0⟩ : BoundConfig EReal))) (.stage s "states_dot" n) = some r := by
    unfold lastMention
    rw [← Option.isSome_iff_exists, List.find?_isSome]
    refine ⟨BoundConfig.req ⟨"states_dot", n, .scalar 0, .scalar 0⟩, ?_, ?_⟩
    · rw [List.mem_reverse, List.mem_map]
      exact ⟨n, hn, rfl⟩
    · simp [Req.Mentions, BoundConfig.req]
  obtain ⟨r, hr⟩ := hex
  rw [hr]
  refine ⟨r, rfl, ?_⟩
  have := List.mem_of_find?_eq_some hr
  rw [List.mem_reverse, List.mem_map] at this
  obtain ⟨m, _, rfl⟩ := this
  rfl

theorem no_mention {L : Layout} {bcs : List (BC EReal)} {s : Nat} {n : String}
    (hbc : ∀ c ∈ bcs, c.group ++ "." ++ c.name ≠ "states_dot" ++ "." ++ n) :
    lastMention L (bcs.map BC.req) (.stage s "states_dot" n) = none := by
  unfold lastMention
  rw [List.find?_eq_none]
  intro r hr
  rw [List.mem_reverse, List.mem_map] at hr
  obtain ⟨c, hc, rfl⟩ := hr
  intro hm
  obtain ⟨_, h, _⟩ := of_decide_eq_true hm
  exact hbc c hc h

/-- **C48 (condensed problem).** In a condensed problem every `states_dot` variable that no boundary condition mentions is
fixed at zero, whatever bounds the user has given for it. -/
theorem C48_condensed_states_dot {S : Setup} {D : List ℝ → ℝ → Prop} (h : S.Good D) (hcd : S.isCondensed = true) {b : Built} (hb : S.build = .ok b)
    {s i : Nat} {n : String} (hs : s < S.c.o.L.numStages) (hn : n ∈ S.c.o.L.namesOf "states_dot")
    (hq : S.c.o.L.indexInDec "states_dot" n (some (s : Int)) = .ok (.scalar i))
    (hbc : ∀ c ∈ S.bcs, c.group ++ "." ++ c.name ≠ "states_dot" ++ "." ++ n) :
    b.bounds.lb[i]? = some 0 ∧ b.bounds.ub[i]? = some 0 := by
  have hv := isVar_of_known h.cond.ocp.made (group_mem h (g := "states_dot") (by simp)) hn s hs
  obtain ⟨h1, h2, h3⟩ := C48_bounds h hb hv hq
  rw [if_pos hcd] at h3
  obtain ⟨r, r1, r2⟩ := dots_mention hn s S.bounds
  rw [no_mention hbc, h3, r1] at h1 h2
  dsimp only at h1 h2
  rw [h1, h2, r2]
  exact ⟨rfl, rfl⟩

/-- **C48 (finding: the configuration is changed).** Building a condensed problem changes `sim_config.bounds`: a second,
non-condensed problem built from the same configuration has all its `states_dot` fixed at zero. -/
theorem C48_config_is_changed {S : Setup} {D : List ℝ → ℝ → Prop} (h : S.Good D) (hcd : S.isCondensed = true) {b : Built} (hb : S.build = .ok b) :
    b.configBounds ≠ S.bounds ∧
    ∀ S' : Setup, S'.Good → S'.c = S.c → S'.isCondensed = false → S'.bounds = b.configBounds → ∀ b', S'.build = .ok b' →
      ∀ (s i : Nat) (n : String), s < S.c.o.L.numStages → n ∈ S.c.o.L.namesOf "states_dot" →
        S.c.o.L.indexInDec "states_dot" n (some (s : Int)) = .ok (.scalar i) →
        (∀ c ∈ S'.bcs, c.group ++ "." ++ c.name ≠ "states_dot" ++ "." ++ n) →
        b'.bounds.lb[i]? = some 0 ∧ b'.bounds.ub[i]? = some 0 := by
  have hpos : 0 < (S.c.o.L.namesOf "states_dot").length := by
    have h1 := h.cond.ocp.pos
    have h2 := h.cond.ocp.same
    unfold size at h1 h2
    omega
  have hcb : b.configBounds = S.bounds ++ (S.c.o.L.namesOf "states_dot").map fun n => ⟨"states_dot", n, .scalar 0, .scalar 0⟩ := by
    obtain ⟨b', _, _, h1, _, _, _, _, _, _, _, _, _, h4⟩ := build_ok h
    rw [hb] at h1
    simp only [Except.ok.injEq] at h1
    subst h1
    rw [h4]
    unfold Setup.allBounds
    rw [if_pos hcd]
  refine ⟨?_, ?_⟩
  · intro e
    rw [hcb] at e
    have := congrArg List.length e
    simp only [List.length_append, List.length_map] at this
    omega
  · intro S' h' hc' hcd' hbd b' hb' s i n hs hn hq hbc
    rw [← hc'] at hs hn hq
    have hv := isVar_of_known h'.cond.ocp.made (group_mem h' (g := "states_dot") (by simp)) hn s hs
    obtain ⟨h1, h2, h3⟩ := C48_bounds h' hb' hv hq
    rw [if_neg (by simp [hcd']), List.append_nil, hbd, hcb, ← hc'] at h3
    obtain ⟨r, r1, r2⟩ := dots_mention hn s S.bounds
    rw [no_mention hbc, h3, r1] at h1 h2
    dsimp only at h1 h2
    rw [h1, h2, r2]
    exact ⟨rfl, rfl⟩

/-- The scales of a built problem are positive when the configured ones are. -/
theorem scales_pos {S : Setup} {D : List ℝ → ℝ → Prop} (h : S.Good D) (hpos : ∀ c ∈ S.scales, 0 < c.value) {b : Built} (hb : S.build = .ok b) :
    ∀ a ∈ b.prob.scales, 0 < a := by
  obtain ⟨b', h1, h2, _, _, _, _, h3⟩ := C47_build h
  rw [hb] at h1
  simp only [Except.ok.injEq] at h1
  subst h1
  intro a ha
  obtain ⟨i, hi⟩ := List.mem_iff_getElem?.mp ha
  have hlt := (List.getElem?_eq_some_iff.mp hi).1
  rw [h2.inv.scales.1] at hlt
  obtain ⟨v, v1, v2⟩ := C01_index_surjective h.cond.ocp.made i hlt
  rw [h3 v i v1 v2] at hi
  simp only [Option.some.injEq] at hi
  rw [← hi]
  unfold askedScale
  split
  · rename_i c hc
    exact hpos c (List.mem_reverse.mp (List.mem_of_find?_eq_some hc))
  · exact one_pos

/-- **C47 (solve).** The solver starts from the initial guess; if it returns a point that satisfies the constraints and the
bounds it was given, `solve` returns a solution of the discretised problem within the bounds of the problem, in the user's units. -/
theorem C47_solve {S : Setup} {D : List ℝ → ℝ → Prop} (h : S.Good D) (hpos : ∀ c ∈ S.scales, 0 < c.value) {b : Built} (hb : S.build = .ok b)
    (x0 : List ℝ) (hx0 : x0.length = S.c.o.L.numDec) (dflt : List ℝ) (solver : Prob → SolverInput → List ℝ × Int)
    (hlen : ∀ q i, (solver q i).1.length = S.c.o.L.numDec) :
    ∃ input : SolverInput, vmul input.x0 b.prob.scales = x0 ∧
      ((solver b.prob input).2 ≠ -13 → b.Feasible (solver b.prob input).1 → Within input.lb input.ub (solver b.prob input).1 →
      ∃ x, (b.prob.solve b.bounds.lb b.bounds.ub (some x0) dflt solver).2 = .ok (x, (solver b.prob input).2)
      ∧ x.length = S.c.o.L.numDec
      ∧ Within b.bounds.lb b.bounds.ub x
      ∧ (S.isCondensed = false → IsSolution S x)
      ∧ (S.isCondensed = true → ∃ y : List ℝ, y.length = S.c.o.L.numDec ∧ S.c.SameButDot x y ∧ IsSolution S y)) := by
  obtain ⟨b', h1, h2, _, hobj, _, _, h3⟩ := C47_build h
  have h1 := h1
  rw [hb] at h1
  simp only [Except.ok.injEq] at h1
  subst h1
  have hsp : solvedProb b.prob = b.prob := by
    unfold solvedProb
    rw [if_neg]
    intro e
    rw [List.isEmpty_iff] at e
    rw [e] at hobj
    simp at hobj
  obtain ⟨hsl, hsn⟩ := h2.inv.scales
  have hbl : b.bounds.lb.length = S.c.o.L.numDec ∧ b.bounds.ub.length = S.c.o.L.numDec := by
    obtain ⟨b', _, s, k1, _, _, _, _, _, _, _, k2, k3, _⟩ := build_ok h
    rw [hb] at k1
    simp only [Except.ok.injEq] at k1
    subst k1
    have key : ∀ (rs : List (Req EReal)) (s s' : St EReal), s.lb.length = S.c.o.L.numDec → s.ub.length = S.c.o.L.numDec →
        setAll S.c.o.L s rs = (s', none) → s'.lb.length = S.c.o.L.numDec ∧ s'.ub.length = S.c.o.L.numDec := by
      intro rs s s' l1 l2 e
      obtain ⟨v, v1, v2⟩ := C01_index_surjective h.cond.ocp.made 0 (by
        have := numVarStage_pos h.cond.ocp
        have := numStages_pos S.c.o.L
        have := allStage_le_numDec S.c.o.L
        unfold numAllStageVar at this
        have := Nat.mul_pos ‹0 < S.c.o.L.numStages› ‹0 < S.c.o.L.numVarStage›
        omega)
      obtain ⟨_, _, a3, a4, _⟩ := setAll_at h.cond.ocp.made rs l1 l2 e v1 v2
      exact ⟨a3, a4⟩
    unfold Bounds.updateBounds at k2
    cases e1 : setAll S.c.o.L (Bounds.fresh S.c.o.L) ((S.allBounds (S.c.o.L.namesOf "states_dot")).map BoundConfig.req) with
    | mk s1 e =>
      rw [e1] at k2
      cases e with
      | some e => simp at k2
      | none =>
        obtain ⟨a3, a4⟩ := key _ _ _ (by simp [Bounds.fresh]) (by simp [Bounds.fresh]) e1
        obtain ⟨a5, a6⟩ := key _ _ _ a3 a4 k2
        exact key _ { s with bcs := s.bcs ++ S.bcs } _ a5 a6 k3
  obtain ⟨input, i1, _, _, i4, i5, _⟩ := C17_solve h2 (scales_pos h hpos hb) b.bounds.lb b.bounds.ub hbl.1 hbl.2 x0 hx0 dflt solver hlen
  rw [hsp] at i5
  refine ⟨input, i1, fun hst hfeas hin => ?_⟩
  obtain ⟨j1, j2⟩ := i5 hst
  have hz := hlen b.prob input
  have hxl : (vmul (solver b.prob input).1 b.prob.scales).length = S.c.o.L.numDec := by simp [vmul, hz, hsl]
  have hback : vdiv (vmul (solver b.prob input).1 b.prob.scales) b.prob.scales = (solver b.prob input).1 :=
    vdiv_vmul_cancel (by rw [hz, hsl]) hsn
  refine ⟨_, j1, hxl, j2 hin _ _ j1, fun hcd => ?_, fun hcd => ?_⟩
  · rw [← C47_lifted h hcd hb hxl, hback]
    exact hfeas
  · rw [← C47_condensed h hcd hb hxl, hback]
    exact hfeas

end Lumos.Ocp
