import Verif.Use.Props
/-!
# C97: objective, derivatives, solve and exceptions of a problem in use
-/

namespace Lumos.Use

open Lumos DecVar DecVar.Layout NLP Bounds Ocp OCP

variable {P : Type} {J : Kind P} {V : Option ℝ → P → Prop} {D : P → List ℝ → ℝ → Prop} {p : P} {u : Use P} {cs : List (Call P)}

theorem timeObj_value {S : Setup} {D : List ℝ → ℝ → Prop} (h : S.Good D) {o : Obj} (ho : S.timeObj = .ok o) {x : List ℝ}
    (hx : x.length = S.c.o.L.numDec) : o.obj x = (match S.c.o.fixedScale with
      | none => readScale S.c.o x
      | some _ => readAt S.c.o.L x "states" "time" (S.c.o.L.numStages - 1) - readAt S.c.o.L x "states" "time" 0) := by
  obtain ⟨o', o1, _, o3⟩ := timeObj_ok h
  rw [ho] at o1
  simp only [Except.ok.injEq] at o1
  subst o1
  rcases hf : S.c.o.fixedScale with _ | ms
  · obtain ⟨ft, t1, _⟩ := C27_scaled_time_objective h.cond.ocp hf
    rw [(o3 x hx).1 hf]
    obtain ⟨t2, t3⟩ := t1 x hx
    simp only [scalarOf, t2, readScale, hf, t3]
  · have ht := h.time (by rw [hf]; simp)
    obtain ⟨k, hk⟩ := List.mem_iff_getElem?.mp ht
    obtain ⟨ft, t1, _⟩ := C27_fixed_time_objective h.cond.ocp hk
    rw [(o3 x hx).2 (by rw [hf]; simp)]
    obtain ⟨t2, a, c, t3, t4, t5⟩ := t1 x hx
    have hN := numStages_pos S.c.o.L
    have e : S.c.o.L.getVar x "states" "time" (some ((S.c.o.L.numStages - 1 : Nat) : Int)) = .ok (.scalar a) := by
      rw [← t3]
      unfold getVar
      rw [C02_negative_stage S.c.o.L "states" "time" (-1) (by omega) (by omega)]
      congr 3
      omega
    simp only [scalarOf, t2, t5, readAt, e]
    have t4' : S.c.o.L.getVar x "states" "time" (some ((0 : Nat) : Int)) = .ok (.scalar c) := t4
    rw [t4']

/-- **C97 (objective).** The objective is the sum of the objectives asked for, at the mesh scale and the parameters now in force;
without any it raises ValueError. -/
theorem C97_objective (hJ : J.Good V D) (hv : V J.S.builtScale p) (hu : construct J p = .ok u) (hcs : GoodCalls J V (Book.init J p) cs)
    {x : List ℝ} (hx : x.length = J.S.c.o.L.numDec) :
    (u.run cs).now.objective (vdiv x (u.run cs).now.scales) =
      if (book J p cs).objNames = [] then .error .valueError else .ok ((book J p cs).cost J x) := by
  obtain ⟨_, _, _, h⟩ := used hJ hv hu hcs
  have hf := h.now
  generalize (u.run cs).now = q at hf
  have hpen := h.sane.pen
  have hval := h.sane.valid
  generalize book J p cs = b at hf hpen hval
  by_cases ho : b.objNames = []
  · rw [if_pos ho]
    exact (C15_no_objective q ((objs_ne hf).mpr ho) _).1
  · rw [if_neg ho]
    have hone : q.objs ≠ [] := fun e => ho ((objs_ne hf).mp e)
    have hg := hJ.good _ _ hval
    obtain ⟨hsl, hsn⟩ := hf.reach.inv.scales
    obtain ⟨f, g, k1, k2, _⟩ := C15_objective_and_gradient hf.reach hone (vdiv x q.scales) (by simp [vdiv, hx, hsl])
    have hsum : (q.objs.map fun c => c.2.objective (vdiv x q.scales)).sum = ((objsSig q).map fun c => c.2 x).sum := by
      unfold objsSig
      rw [List.map_map]
      congr 1
      apply List.map_congr_left
      intro c hc
      have hin : c.2.inScales = q.scales := ((hf.reach.inv.objs c hc).facts).2.1
      simp only [Function.comp, Obj.objective, hin]
      rw [vmul_vdiv_cancel (by rw [hx, hsl]) hsn]
    obtain ⟨o, o1, o2⟩ := hf.objs
    rw [k1, k2, hsum, o2, List.map_append, List.sum_append]
    unfold builtObjs Book.cost
    dsimp only
    rw [List.map_append, List.sum_append]
    congr 3
    · cases b.time with
      | false => rfl
      | true =>
        rw [if_pos rfl, if_pos rfl, List.map_singleton, List.sum_singleton]
        exact timeObj_value hg o1 hx
    · cases hp : b.penalty with
      | false => rfl
      | true =>
        have hl : J.S.laptime = true := hpen hp
        obtain ⟨v, v1, v2, _⟩ := C67_steer hg.cond.ocp.made hg.cond.ocp.fields (group_mem hg (by simp)) (hg.lap hl).2 hx
        rw [if_pos rfl, if_pos rfl, List.map_singleton, List.sum_singleton]
        have v1' : inputsPenalty J.S.c.o.L defaultWeights x = .ok v := v1
        simp only [scalarOf, v1', v2]
        rfl

/-- **C97 (derivatives).** After any history the derivatives handed to the solver are those of the functions handed to it, wherever
the model with the parameters in force is differentiable. -/
theorem C97_derivatives (hJ : J.Good V D) (hv : V J.S.builtScale p) (hu : construct J p = .ok u) (hcs : GoodCalls J V (Book.init J p) cs)
    (hobj : (book J p cs).objNames ≠ []) {z : List ℝ} (hz : z.length = J.S.c.o.L.numDec)
    (hD : ((book J p cs).setup J).dom (D (book J p cs).params) (vmul z (u.run cs).now.scales)) (lam : List ℝ)
    (hlam : lam.length = (book J p cs).rows J) (sigma : ℝ) :
    ∃ (F : List ℝ → List ℝ) (f : List ℝ → ℝ) (jr jc hr hc : List Nat) (jv hv g : List ℝ),
      (∀ y, (u.run cs).now.constraints y = .ok (F y)) ∧ (∀ y, (u.run cs).now.objective y = .ok (f y))
      ∧ (u.run cs).now.jacobianstructure = .ok (jr, jc) ∧ (u.run cs).now.jacobian z = .ok jv ∧ jr.length = jc.length
      ∧ jv.length = jr.length ∧ IsJacobianAt J.S.c.o.L.numDec ((book J p cs).rows J) F z (assemble jr jc jv)
      ∧ (u.run cs).now.gradient z = .ok g ∧ g.length = J.S.c.o.L.numDec
      ∧ IsGradientAt J.S.c.o.L.numDec f z (fun j => g.getD j 0)
      ∧ (u.run cs).now.hessianstructure.2 = .ok (hr, hc)
      ∧ (u.run cs).now.hessianstructure.1.hessian z lam sigma = ((u.run cs).now.hessianstructure.1, .ok hv)
      ∧ hr.length = hc.length ∧ hv.length = hr.length
      ∧ IsHessianAt J.S.c.o.L.numDec (fun y => f y * sigma + dot lam (F y)) z Upper (assemble hr hc hv) := by
  obtain ⟨_, _, _, h⟩ := used hJ hv hu hcs
  have hf := h.now
  have hr := rows_fits hJ h.sane h.sane.valid hf
  have hne := cons_ne hf
  have hno : (u.run cs).now.objs ≠ [] := fun e => hobj ((objs_ne hf).mp e)
  rw [← hr] at hlam ⊢
  obtain ⟨F, jr, jc, jv, j1, j2, j3, j4, j5, _, _, j8⟩ := C13_jacobian hf.reach hne z hz
  obtain ⟨f, g, g1, _, g3, g4, _, g6⟩ := C15_objective_and_gradient hf.reach hno z hz
  obtain ⟨F', f', hr, hc, hv, k1, _, k3, _, k5, k6, k7, k8, _, k10, _⟩ := C14_hessian hf.reach (Or.inl hne) z lam sigma hz hlam
  have eF : F' = F := funext fun y => by
    have := k1 hne y
    rw [j1 y] at this
    simpa using this.symm
  have ef : f' = f := funext fun y => by
    have := k3 hno y
    rw [g1 y] at this
    simpa using this.symm
  subst eF ef
  exact ⟨_, _, jr, jc, hr, hc, jv, hv, g, j1, g1, j2, j3, j4, j5, j8 hD, g3, g4, g6 hD, k5, k6, k7, k8, k10 hD⟩

theorem same_solved {p q : Prob} (h : SameComp p q) (ho : p.objs ≠ []) : SameComp p (solvedProb q) := by
  obtain ⟨m, rfl⟩ := h
  unfold solvedProb
  rw [if_neg (show ¬ p.objs.isEmpty = true by simpa using ho)]
  exact ⟨m, rfl⟩

theorem solvedProb_cons (q : Prob) : (solvedProb q).constraints = q.constraints := by
  unfold solvedProb
  split
  · unfold Prob.addObjective
    split <;> rfl
  · rfl

theorem fits_scales_pos (hJ : J.Good V D) {b : Book P} (hs : Sane J V b) {q : Prob} (h : Fits J D b b.scale b.params q)
    (hpos : ∀ c ∈ b.scales, 0 < c.value) : ∀ a ∈ q.scales, 0 < a := by
  intro a ha
  obtain ⟨i, hi⟩ := List.mem_iff_getElem?.mp ha
  have hlt := (List.getElem?_eq_some_iff.mp hi).1
  rw [h.reach.inv.scales.1] at hlt
  obtain ⟨v, v1, v2⟩ := C01_index_surjective (hJ.good _ _ hs.valid).cond.ocp.made i hlt
  rw [h.scales v i v1 v2] at hi
  simp only [Option.some.injEq] at hi
  rw [← hi]
  unfold askedScale
  split
  · rename_i c hc
    exact hpos c (List.mem_reverse.mp (List.mem_of_find?_eq_some hc))
  · exact one_pos

theorem build_bounds_length {S : Setup} {D : List ℝ → ℝ → Prop} (h : S.Good D) {b : Built} (hb : S.build = .ok b) :
    b.bounds.lb.length = S.c.o.L.numDec ∧ b.bounds.ub.length = S.c.o.L.numDec := by
  obtain ⟨b', _, s, k1, _, _, _, _, _, _, _, k2, k3, _⟩ := build_ok h
  rw [hb] at k1
  simp only [Except.ok.injEq] at k1
  subst k1
  have e1 := run_length S.c.o.L (Bounds.fresh S.c.o.L) (by simp [Bounds.fresh]) (by simp [Bounds.fresh])
    (.updateBounds (S.allBounds (S.c.o.L.namesOf "states_dot")))
  have e1' : (Bounds.Call.updateBounds (S.allBounds (S.c.o.L.namesOf "states_dot"))).run S.c.o.L (Bounds.fresh S.c.o.L) = (s, none) := k2
  rw [e1'] at e1
  have e2 := run_length S.c.o.L s e1.1 e1.2 (.updateBCs S.bcs)
  have e2' : (Bounds.Call.updateBCs S.bcs).run S.c.o.L s = (b.bounds, none) := k3
  rw [e2'] at e2
  exact e2

/-- **C97 (solve).** Solving after any history: the solver starts from the guess, sees the functions of the problem now asked for (the
constant objective if there is none) and the bounds now in force; `solve` returns its point in the user's units, or raises
RuntimeError for the status -13; and if that point satisfies what the solver was given, it is a solution of the problem now
asked for, within the bounds, at which the user's constraints vanish. -/
theorem C97_solve (hJ : J.Good V D) (hv : V J.S.builtScale p) (hu : construct J p = .ok u) (hcs : GoodCalls J V (Book.init J p) cs)
    {a : SolveArgs} (ha : GoodCall J V (book J p cs) (.solve a)) (hlim : (book J p cs).limits = (book J p cs).rows J)
    (hpos : ∀ c ∈ (book J p cs).scales, 0 < c.value) {x0 : List ℝ} (hguess : a.guess = some x0) (hx0 : x0.length = J.S.c.o.L.numDec)
    (hlen : ∀ q i l m, (a.solver q i l m).1.length = J.S.c.o.L.numDec) :
    ∃ (q : Prob) (input : SolverInput) (r : List ℝ × Int),
      r = a.solver q input (u.run cs).cl (u.run cs).cu
      ∧ vmul input.x0 (u.run cs).now.scales = x0 ∧ input.n = J.S.c.o.L.numDec ∧ input.m = (book J p cs).rows J
      ∧ (∀ z, q.constraints z = (u.run cs).now.constraints z)
      ∧ ((book J p cs).objNames ≠ [] → ∀ z, q.objective z = (u.run cs).now.objective z)
      ∧ ((book J p cs).objNames = [] → ∀ z, q.objective z = .ok 0)
      ∧ (∀ z : List ℝ, z.length = J.S.c.o.L.numDec →
          (Within input.lb input.ub z ↔ Within (u.run cs).bounds.lb (u.run cs).bounds.ub (vmul z (u.run cs).now.scales)))
      ∧ (u.run cs).solve a = (if r.2 = -13 then .error .runtimeError else .ok (vmul r.1 (u.run cs).now.scales, r.2))
      ∧ (r.2 ≠ -13 → (u.run cs).Feasible r.1 → Within input.lb input.ub r.1 →
          ∃ x, (u.run cs).solve a = .ok (x, r.2) ∧ x.length = J.S.c.o.L.numDec
            ∧ Within (u.run cs).bounds.lb (u.run cs).bounds.ub x ∧ (book J p cs).UserHolds x
            ∧ (J.S.isCondensed = false → IsSolution ((book J p cs).setup J) x)
            ∧ (J.S.isCondensed = true → ∃ y : List ℝ, y.length = J.S.c.o.L.numDec ∧
                ((book J p cs).setup J).c.SameButDot x y ∧ IsSolution ((book J p cs).setup J) y)) := by
  obtain ⟨b0, e0, eb, h⟩ := used hJ hv hu hcs
  have hf := h.now
  obtain ⟨w, w1, w2, w3⟩ := hf.solve hJ h.sane h.sane.valid (u.run cs).bounds.lb (u.run cs).bounds.ub ha
  rw [if_pos hlim] at w3
  have hws : w.scales = (u.run cs).now.scales := by obtain ⟨m, e⟩ := w2; rw [e]
  have hwc : w.constraints = (u.run cs).now.constraints := by obtain ⟨m, e⟩ := w2; rw [e]; rfl
  have hwn : w.numCon = (book J p cs).rows J := rows_fits hJ h.sane h.sane.valid w1
  have hbl : (u.run cs).bounds.lb.length = J.S.c.o.L.numDec ∧ (u.run cs).bounds.ub.length = J.S.c.o.L.numDec := by
    obtain ⟨k1, k2⟩ := build_bounds_length (hJ.good _ _ hv) e0
    rw [h.bounds]
    exact runAll_length J.S.c.o.L _ b0.bounds k1 k2
  obtain ⟨input, i1, i2, i3, i4, i5, i6⟩ := C17_solve w1.reach (by rw [hws]; exact fits_scales_pos hJ h.sane hf hpos)
    (u.run cs).bounds.lb (u.run cs).bounds.ub hbl.1 hbl.2 x0 hx0 a.dflt
    (fun q i => a.solver q.hessianstructure.1 i (List.replicate (book J p cs).limits 0) (List.replicate (book J p cs).limits 0))
    (fun q i => hlen _ _ _ _)
  have hcq : ∀ z, (solvedProb w).hessianstructure.1.constraints z = (u.run cs).now.constraints z := by
    intro z
    obtain ⟨m, e⟩ := same_structure (solvedProb w)
    rw [e, ← hwc, ← solvedProb_cons w]
    rfl
  have hsolve : (u.run cs).solve a = (w.solve (u.run cs).bounds.lb (u.run cs).bounds.ub (some x0) a.dflt
      (fun q i => a.solver q.hessianstructure.1 i (List.replicate (book J p cs).limits 0)
        (List.replicate (book J p cs).limits 0))).2 := by
    unfold Use.solve
    rw [h.kind, h.cl, h.cu, w3, hguess]
  rw [h.cl, h.cu]
  generalize List.replicate (book J p cs).limits (0 : ℝ) = lim at i5 i6 hsolve ⊢
  have hall : (u.run cs).solve a = (if (a.solver (solvedProb w).hessianstructure.1 input lim lim).2 = -13
      then .error .runtimeError
      else .ok (vmul (a.solver (solvedProb w).hessianstructure.1 input lim lim).1 (u.run cs).now.scales,
        (a.solver (solvedProb w).hessianstructure.1 input lim lim).2)) := by
    rw [hsolve]
    split
    · rename_i hst
      exact i6 hst
    · rename_i hst
      rw [← hws]
      exact (i5 hst).1
  refine ⟨(solvedProb w).hessianstructure.1, input, _, rfl, by rw [← hws]; exact i1, i2, by rw [i3, hwn], hcq, ?_, ?_,
    by rw [← hws]; exact i4, hall, ?_⟩
  · intro ho z
    have hone : (u.run cs).now.objs ≠ [] := fun e => ho ((objs_ne hf).mp e)
    obtain ⟨m, e⟩ := (same_solved w2 hone).trans (same_structure _)
    rw [e]
    rfl
  · intro ho z
    have hfs := w1.solved.query false
    have hne : (solvedProb w).hessianstructure.1.objs ≠ [] := by
      intro e
      have := (objs_ne hfs).mp e
      rw [Book.objNames] at this
      dsimp only at this
      rw [if_pos ho] at this
      simp at this
    have hsig : objsSig (solvedProb w).hessianstructure.1 = [("const_obj", fun _ => 0)] := by
      obtain ⟨o, _, e⟩ := hfs.objs
      rw [e]
      have hbo : builtObjs J { (book J p cs) with
          objs := if (book J p cs).objNames = [] then [("const_obj", fun _ => (0 : ℝ))] else (book J p cs).objs
          changed := false } o = [] := by
        unfold Book.objNames at ho
        obtain ⟨h1, _⟩ := List.append_eq_nil_iff.mp ho
        unfold builtObjs
        dsimp only
        revert h1
        cases (book J p cs).time <;> cases (book J p cs).penalty <;> simp
      rw [if_pos ho] at hbo ⊢
      exact congrArg (· ++ [("const_obj", fun _ => (0 : ℝ))]) hbo
    have hval : ∀ c ∈ (solvedProb w).hessianstructure.1.objs, ∀ y, c.2.objective y = 0 := by
      intro c hc y
      have : (c.1, c.2.obj) ∈ objsSig (solvedProb w).hessianstructure.1 := List.mem_map.mpr ⟨c, hc, rfl⟩
      rw [hsig, List.mem_singleton] at this
      have e := (Prod.mk.inj this).2
      unfold Obj.objective
      rw [e]
    unfold Prob.objective
    rw [if_neg (by simpa using hne)]
    congr 1
    apply List.sum_eq_zero
    intro v hv
    obtain ⟨c, hc, rfl⟩ := List.mem_map.mp hv
    exact hval c hc z
  · intro hst hfeas hin
    have hz := hlen (solvedProb w).hessianstructure.1 input lim lim
    obtain ⟨hsl, hsn⟩ := hf.reach.inv.scales
    have hxl : (vmul (a.solver (solvedProb w).hessianstructure.1 input lim lim).1 (u.run cs).now.scales).length
        = J.S.c.o.L.numDec := by simp [vmul, hz, hsl]
    have hback := vdiv_vmul_cancel (x := (a.solver (solvedProb w).hessianstructure.1 input lim lim).1)
      (s := (u.run cs).now.scales) (by rw [hz, hsl]) hsn
    rw [if_neg hst] at hall
    have hb : Within (u.run cs).bounds.lb (u.run cs).bounds.ub
        (vmul (a.solver (solvedProb w).hessianstructure.1 input lim lim).1 (u.run cs).now.scales) := by
      rw [← hws]
      exact (i4 _ hz).mp hin
    rw [← hback] at hfeas
    by_cases hcd : J.S.isCondensed = true
    · obtain ⟨_, hy, hU⟩ := (C97_meaning_condensed hJ hv hu hcs hcd hxl).mp hfeas
      exact ⟨_, hall, hxl, hb, hU, fun e => absurd (hcd.symm.trans e) (by simp), fun _ => hy⟩
    · obtain ⟨_, hy, hU⟩ := (C97_meaning hJ hv hu hcs (by simpa using hcd) hxl).mp hfeas
      exact ⟨_, hall, hxl, hb, hU, fun _ => hy, fun e => absurd e hcd⟩

end Lumos.Use
