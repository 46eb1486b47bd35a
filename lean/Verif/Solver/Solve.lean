import Verif.Solver.Props
/-!
# C75: solving a `ModelSolver`, and what it cannot do
-/

namespace Lumos.Solver

open Lumos Lumos.NLP Lumos.Ocp

variable {M : ExplicitModel} {alg : ExplicitModel → Alg} {modelOf : List String → Py ExplicitModel}
  {co : Option (List String)} {s0 : MS}

/-! ## Specification: the physical problem -/

/-- The points the user asked for: inside the noted bounds, with `x_dot = f(x, u)`, `y = h(x, u)` and zero residuals. -/
def Phys (M : ExplicitModel) (b : Book) (v : List ℝ) : Prop :=
  (∀ g n i, flatPos M g n = some i → b.lo (g, n) ≤ ((v.getD i 0 : ℝ) : EReal) ∧ ((v.getD i 0 : ℝ) : EReal) ≤ b.hi (g, n)) ∧
  ∃ x u : List ℝ, x.length = M.nx ∧ u.length = M.nu ∧ v = x ++ u ++ (M.f x u 0 ++ M.h x u 0) ∧ ∀ r ∈ M.r x u 0, r = 0

/-- The sum of the noted objectives. -/
def cost (b : Book) (v : List ℝ) : ℝ := (b.objs.map fun o => o.2 v).sum

/-- A feasible point of the problem handed to the solver. -/
def SolverFeasible (n : Nat) (p : Prob) (i : SolverInput) (cl cu : List ℝ) (z : List ℝ) : Prop :=
  z.length = n ∧ Within i.lb i.ub z ∧ ∃ c, p.constraints z = .ok c ∧ c.length = cl.length ∧ c.length = cu.length ∧
    ∀ r, r < c.length → cl.getD r 0 ≤ c.getD r 0 ∧ c.getD r 0 ≤ cu.getD r 0

/-- An optimal point of the problem handed to the solver. -/
def SolverOptimal (n : Nat) (p : Prob) (i : SolverInput) (cl cu : List ℝ) (z : List ℝ) : Prop :=
  SolverFeasible n p i cl cu z ∧ ∃ t, p.objective z = .ok t ∧
    ∀ z', SolverFeasible n p i cl cu z' → ∃ t', p.objective z' = .ok t' ∧ t ≤ t'

/-! ## The constraint bounds -/

theorem numCon_eq (h : Built M alg modelOf co s0) (fmt : ℝ → String) {cs : List Call} (hc : ∀ c ∈ cs, GoodCall M c)
    (hk : ∀ c ∈ cs, KeepsCons c) : (s0.runAll fmt cs).prob.numCon = M.numRes := by
  have r := h.represents fmt hc
  obtain ⟨rest, hh⟩ := r.head
  have hcons := r.cons
  rw [book, book_cons fmt hk, hh] at hcons
  have hlen := congrArg List.length hcons
  simp [Book.init] at hlen
  subst hlen
  simp [Prob.numCon, hh, algCons, Cons.stateOf]

theorem step_cl (fmt : ℝ → String) (s : MS) (c : Call) : ((s.step fmt c).1.cl = s.cl ∧ (s.step fmt c).1.cu = s.cu) ∨
    (c = .setCons ∧ (s.step fmt c).1 = s.setCons) := by
  cases c with
  | setCons => exact Or.inr ⟨rfl, rfl⟩
  | setBounds g n b =>
    left
    simp only [MS.step, MS.setBounds]
    split
    · exact ⟨rfl, rfl⟩
    · split_ifs <;> exact ⟨rfl, rfl⟩
  | setVarScale g n v =>
    left
    simp only [MS.step, MS.setVarScale]
    split_ifs
    rotate_left
    · exact ⟨rfl, rfl⟩
    · exact ⟨rfl, rfl⟩
    · split
      · exact ⟨rfl, rfl⟩
      · split_ifs
        rotate_left
        · exact ⟨rfl, rfl⟩
        · unfold MS.updateProblemScales
          split
          · exact ⟨rfl, rfl⟩
          · dsimp only
            split
            · exact ⟨rfl, rfl⟩
            · split
              · exact ⟨rfl, rfl⟩
              · exact ⟨rfl, rfl⟩
  | addObjFromVar g n w =>
    left
    simp only [MS.step, MS.addObjFromVar]
    split
    · exact ⟨rfl, rfl⟩
    · split
      · exact ⟨rfl, rfl⟩
      · split <;> exact ⟨rfl, rfl⟩
  | addObjective name o => exact Or.inl ⟨rfl, rfl⟩
  | deleteObjective name => exact Or.inl ⟨rfl, rfl⟩
  | addConstraints name c => exact Or.inl ⟨rfl, rfl⟩
  | deleteConstraints name => exact Or.inl ⟨rfl, rfl⟩
  | solve guess solver =>
    left
    simp only [MS.step, MS.solve]
    split_ifs
    · exact ⟨rfl, rfl⟩
    · split <;> exact ⟨rfl, rfl⟩

theorem runAll_append (fmt : ℝ → String) (s : MS) (a b : List Call) : s.runAll fmt (a ++ b) = (s.runAll fmt a).runAll fmt b := by
  simp [MS.runAll, List.foldl_append]

/-- With the model algebra as the only constraint, the constraint bounds are zero, one per equation. -/
theorem cl_eq (h : Built M alg modelOf co s0) (fmt : ℝ → String) (cs : List Call) (hc : ∀ c ∈ cs, GoodCall M c)
    (hk : ∀ c ∈ cs, KeepsCons c) : (s0.runAll fmt cs).cl = List.replicate M.numRes 0 ∧
      (s0.runAll fmt cs).cu = List.replicate M.numRes 0 := by
  induction cs using List.reverseRecOn with
  | nil =>
    obtain ⟨s, h1, _, h3, h4⟩ := make_represents h.good h.callbacks modelOf co h.model
    rw [h.made] at h1
    cases h1
    have := numCon_eq h fmt (cs := []) (by simp) (by simp)
    simp only [MS.runAll, List.foldl_nil] at this ⊢
    rw [h3, h4, this]
    exact ⟨rfl, rfl⟩
  | append_singleton cs c ih =>
    have hc' : ∀ c ∈ cs, GoodCall M c := fun d hd => hc d (List.mem_append_left _ hd)
    have hk' : ∀ c ∈ cs, KeepsCons c := fun d hd => hk d (List.mem_append_left _ hd)
    rw [runAll_append]
    simp only [MS.runAll, List.foldl_cons, List.foldl_nil]
    have ih' := ih hc' hk'
    simp only [MS.runAll] at ih'
    rcases step_cl fmt (s0.runAll fmt cs) c with ⟨h1, h2⟩ | ⟨_, h2⟩
    · simp only [MS.runAll] at h1 h2
      rw [h1, h2]; exact ih'
    · simp only [MS.runAll] at h2
      rw [h2]
      have := numCon_eq h fmt hc' hk'
      simp only [MS.runAll] at this
      simp [MS.setCons, this]

/-! ## Solving -/

theorem getD_zero {k : Nat} (r : Nat) : (List.replicate k (0 : ℝ)).getD r 0 = 0 := by
  simp [List.getD_eq_getElem?_getD, List.getElem?_replicate]
  split <;> rfl

theorem within_iff (hM : M.Good) {b : Book} {v : List ℝ} (hv : v.length = M.numVar) :
    Within ((MS.allVars M).map b.lo) ((MS.allVars M).map b.hi) v ↔
      ∀ g n i, flatPos M g n = some i → b.lo (g, n) ≤ ((v.getD i 0 : ℝ) : EReal) ∧ ((v.getD i 0 : ℝ) : EReal) ≤ b.hi (g, n) := by
  have hget : ∀ (f : String × String → EReal) i (hi : i < (MS.allVars M).length),
      ((MS.allVars M).map f).getD i 0 = f ((MS.allVars M)[i]) := by
    intro f i hi
    simp [List.getD_eq_getElem?_getD, hi]
  constructor
  · intro hw g n i hi
    obtain ⟨hm, hx⟩ := idxOf_allVars hi
    have hlt : (MS.allVars M).idxOf (g, n) < (MS.allVars M).length := List.idxOf_lt_length_of_mem hm
    have := hw i (by rw [hv]; exact flatPos_lt hi)
    subst hx
    rw [hget _ _ hlt, hget _ _ hlt, List.getElem_idxOf hlt] at this
    exact this
  · intro hall j hj
    have hlt : j < (MS.allVars M).length := by rw [length_allVars, ← hv]; exact hj
    rw [hget _ _ hlt, hget _ _ hlt]
    have hpos := flatPos_of_mem (M := M) (g := ((MS.allVars M)[j]).1) (n := ((MS.allVars M)[j]).2) (List.getElem_mem hlt)
    have := hall _ _ _ hpos
    rw [show ((((MS.allVars M)[j]).1, ((MS.allVars M)[j]).2) : String × String) = (MS.allVars M)[j] from rfl,
      (nodup_allVars hM).idxOf_getElem j hlt] at this
    exact this

theorem within_phys (h : Built M alg modelOf co s0) (fmt : ℝ → String) {cs : List Call} (hc : ∀ c ∈ cs, GoodCall M c)
    {z : List ℝ} (hz : z.length = M.numVar) :
    Within (scaleBounds (s0.runAll fmt cs).lb (s0.runAll fmt cs).prob.scales)
        (scaleBounds (s0.runAll fmt cs).ub (s0.runAll fmt cs).prob.scales) z ↔
      ∀ g n i, flatPos M g n = some i →
        (book M fmt cs).lo (g, n) ≤ (((vmul z (s0.runAll fmt cs).prob.scales).getD i 0 : ℝ) : EReal) ∧
        (((vmul z (s0.runAll fmt cs).prob.scales).getD i 0 : ℝ) : EReal) ≤ (book M fmt cs).hi (g, n) := by
  have r := h.represents fmt hc
  have hl := r.reach.inv.scales.1
  have hpos : ∀ a ∈ (s0.runAll fmt cs).prob.scales, 0 < a := by
    rw [r.scales]
    intro a ha
    obtain ⟨p, _, rfl⟩ := List.mem_map.1 ha
    exact r.pos p
  rw [C17_bounds hpos (by rw [r.lb, hl]; simp [length_allVars]) (by rw [r.ub, hl]; simp [length_allVars]) (hz.trans hl.symm),
    r.lb, r.ub, within_iff h.good (by simp [hz, hl])]

theorem phys_iff (hM : M.Good) {b : Book} {v : List ℝ} (hv : v.length = M.numVar) :
    Phys M b v ↔ (∀ g n i, flatPos M g n = some i → b.lo (g, n) ≤ ((v.getD i 0 : ℝ) : EReal) ∧
      ((v.getD i 0 : ℝ) : EReal) ≤ b.hi (g, n)) ∧ ∀ y ∈ M.flatImplicit v 0, y = 0 := by
  unfold Phys
  refine and_congr_right fun _ => ?_
  rw [flatImplicit_zero_iff hM hv]
  constructor
  · rintro ⟨x, u, hx, hu, e, hr⟩
    have ex : M.xOf v = x := by rw [e]; simp [ExplicitModel.xOf, ← hx]
    have eu : M.uOf v = u := by rw [e]; simp [ExplicitModel.uOf, ← hx, ← hu, List.take_append]
    rw [ex, eu]
    exact ⟨e, hr⟩
  · rintro ⟨e, hr⟩
    exact ⟨_, _, ExplicitModel.length_xOf hv, ExplicitModel.length_uOf hv, e, hr⟩

theorem length_phys (hM : M.Good) {b : Book} {v : List ℝ} (h : Phys M b v) : v.length = M.numVar := by
  obtain ⟨_, x, u, hx, hu, e, _⟩ := h
  rw [e, ExplicitModel.numVar_eq]
  simp [hx, hu, hM.lenF x u 0 hx hu, hM.lenH x u 0 hx hu]
  omega

/-- What `solve` hands to the solver and returns, for every history of calls that leaves the model algebra as the only
constraint: a point of the solver's problem is feasible exactly when its physical image is a point the user asked for, its
objective is the noted objective of the image, the initial guess is the user's, and the returned point is the image of the
solver's point. -/
theorem C75_solve (h : Built M alg modelOf co s0) (fmt : ℝ → String) {cs : List Call} (hc : ∀ c ∈ cs, GoodCall M c)
    (hk : ∀ c ∈ cs, KeepsCons c) {x0 : List ℝ} (hx0 : x0.length = M.numVar)
    (solver : Prob → SolverInput → List ℝ → List ℝ → List ℝ × Int) :
    ∃ (p : Prob) (i : SolverInput) (cl cu scales : List ℝ),
      scales.length = M.numVar ∧ (∀ a ∈ scales, 0 < a) ∧ vmul i.x0 scales = x0 ∧ i.n = M.numVar ∧ i.m = M.numRes ∧
      cl.length = M.numRes ∧ cu.length = M.numRes ∧
      ((s0.runAll fmt cs).solve (some x0) solver).2 =
        (if (solver p i cl cu).2 = -13 then .error .runtimeError
         else .ok (vmul (solver p i cl cu).1 scales, (solver p i cl cu).2)) ∧
      ∀ z : List ℝ, z.length = M.numVar →
        (SolverFeasible M.numVar p i cl cu z ↔ Phys M (book M fmt cs) (vmul z scales)) ∧
        p.objective z = .ok (cost (book M fmt cs) (vmul z scales)) := by
  have r := h.represents fmt hc
  have hl := r.reach.inv.scales.1
  obtain ⟨hcl, hcu⟩ := cl_eq h fmt cs hc hk
  have hnum := numCon_eq h fmt hc hk
  have hpos : ∀ a ∈ (s0.runAll fmt cs).prob.scales, 0 < a := by
    rw [r.scales]
    intro a ha
    obtain ⟨p, _, rfl⟩ := List.mem_map.1 ha
    exact r.pos p
  have hne : ∀ a ∈ (s0.runAll fmt cs).prob.scales, a ≠ 0 := fun a ha => (hpos a ha).ne'
  obtain ⟨i, hi, hs⟩ := solve_eq r.reach (s0.runAll fmt cs).lb (s0.runAll fmt cs).ub (some x0) []
    (fun p i => solver p i (s0.runAll fmt cs).cl (s0.runAll fmt cs).cu)
  -- the history extended by the call itself notes the constant objective
  let cs' := cs ++ [Call.solve (some x0) solver]
  have hc' : ∀ c ∈ cs', GoodCall M c := by
    intro c hcc
    rcases List.mem_append.1 hcc with hcc | hcc
    · exact hc c hcc
    · cases List.mem_singleton.1 hcc; trivial
  have hk' : ∀ c ∈ cs', KeepsCons c := by
    intro c hcc
    rcases List.mem_append.1 hcc with hcc | hcc
    · exact hk c hcc
    · cases List.mem_singleton.1 hcc; trivial
  have hrun : s0.runAll fmt cs' = { s0.runAll fmt cs with prob := solvedProb (s0.runAll fmt cs).prob } := by
    rw [runAll_append]
    change ((s0.runAll fmt cs).step fmt (.solve (some x0) solver)).1 = _
    simp only [MS.step, MS.solve]
    rw [if_neg (by rw [hcl, hcu, hnum]; simp), hs]
  have hbook : book M fmt cs' = (book M fmt cs).note M fmt (.solve (some x0) solver) := by
    simp [book, Book.noteAll, cs', List.foldl_append]
  have hcost : ∀ v, cost (book M fmt cs') v = cost (book M fmt cs) v := by
    intro v
    rw [hbook]
    simp only [Book.note]
    split_ifs with he
    · simp [cost, he]
    · rfl
  have hlohi : (book M fmt cs').lo = (book M fmt cs).lo ∧ (book M fmt cs').hi = (book M fmt cs).hi := by
    rw [hbook]
    simp only [Book.note]
    split_ifs <;> exact ⟨rfl, rfl⟩
  have hobjne : (book M fmt cs').objs ≠ [] := by
    rw [hbook]
    simp only [Book.note]
    split_ifs with he
    · simp
    · exact he
  obtain ⟨f1, f2, f3, f4⟩ := solvedProb_fields r.reach
  refine ⟨solvedProb (s0.runAll fmt cs).prob, i, (s0.runAll fmt cs).cl, (s0.runAll fmt cs).cu, (s0.runAll fmt cs).prob.scales,
    hl, hpos, ?_, by rw [hi], by rw [hi]; exact hnum, by rw [hcl]; simp, by rw [hcu]; simp, ?_, fun z hz => ?_⟩
  · rw [hi]
    exact vmul_vdiv (hx0.trans hl.symm) hne
  · unfold MS.solve
    rw [if_neg (by rw [hcl, hcu, hnum]; simp)]
    dsimp only
    rw [hs]
  · have hv : (vmul z (s0.runAll fmt cs).prob.scales).length = M.numVar := by simp [hz, hl]
    have hback : vdiv (vmul z (s0.runAll fmt cs).prob.scales) (s0.runAll fmt cs).prob.scales = z := vdiv_vmul (hz.trans hl.symm) hne
    refine ⟨?_, ?_⟩
    · obtain ⟨c, c1, c2, c3⟩ := C75_feasible h fmt hc' hv
      rw [book, book_cons fmt hk'] at c3
      rw [hrun] at c1 c2
      dsimp only at c1 c2
      rw [f3, hback] at c1
      have hcn : (solvedProb (s0.runAll fmt cs).prob).numCon = M.numRes := by
        rw [Prob.numCon, f2]; exact hnum
      rw [hcn] at c2
      simp only [Book.init, List.mem_singleton, forall_eq] at c3
      rw [phys_iff h.good hv, ← c3]
      unfold SolverFeasible
      rw [hi]
      dsimp only
      rw [within_phys h fmt hc hz]
      constructor
      · rintro ⟨_, hw, c', e, l1, l2, hall⟩
        rw [c1] at e
        cases e
        refine ⟨hw, fun y hy => ?_⟩
        obtain ⟨k, hkk, rfl⟩ := List.mem_iff_getElem.1 hy
        have := hall k hkk
        rw [hcl, hcu, getD_zero, List.getD_eq_getElem?_getD, List.getElem?_eq_getElem hkk, Option.getD_some] at this
        exact le_antisymm this.2 this.1
      · rintro ⟨hw, hall⟩
        refine ⟨hz, hw, c, c1, by rw [hcl, c2]; simp, by rw [hcu, c2]; simp, fun k hkk => ?_⟩
        rw [hcl, hcu, getD_zero, List.getD_eq_getElem?_getD, List.getElem?_eq_getElem hkk, Option.getD_some,
          hall _ (List.getElem_mem hkk)]
        exact ⟨le_refl _, le_refl _⟩
    · have := C75_objective h fmt hc' hv
      rw [hrun] at this
      dsimp only at this
      rw [f3, hback, if_neg hobjne] at this
      rw [this, ← hcost]
      rfl

/-- If the solver finds an optimal point whenever there is one, and the physical problem has an optimal point, then the
returned point is an optimal point of the physical problem. -/
theorem C75_optimal (h : Built M alg modelOf co s0) (fmt : ℝ → String) {cs : List Call} (hc : ∀ c ∈ cs, GoodCall M c)
    (hk : ∀ c ∈ cs, KeepsCons c) {x0 : List ℝ} (hx0 : x0.length = M.numVar)
    (solver : Prob → SolverInput → List ℝ → List ℝ → List ℝ × Int)
    (hopt : ∀ p i cl cu, (∃ z, SolverOptimal M.numVar p i cl cu z) → SolverOptimal M.numVar p i cl cu (solver p i cl cu).1)
    (hex : ∃ v, Phys M (book M fmt cs) v ∧ ∀ v', Phys M (book M fmt cs) v' → cost (book M fmt cs) v ≤ cost (book M fmt cs) v')
    {sol : List ℝ} {st : Int} (hsol : ((s0.runAll fmt cs).solve (some x0) solver).2 = .ok (sol, st)) :
    Phys M (book M fmt cs) sol ∧ ∀ v, Phys M (book M fmt cs) v → cost (book M fmt cs) sol ≤ cost (book M fmt cs) v := by
  obtain ⟨p, i, cl, cu, s, hl, hpos, _, _, _, _, _, hres, hall⟩ := C75_solve h fmt hc hk hx0 solver
  have hne : ∀ a ∈ s, a ≠ 0 := fun a ha => (hpos a ha).ne'
  have hexz : ∃ z, SolverOptimal M.numVar p i cl cu z := by
    obtain ⟨v, hv, hvmin⟩ := hex
    have hvl := length_phys h.good hv
    have hback : vmul (vdiv v s) s = v := vmul_vdiv (hvl.trans hl.symm) hne
    obtain ⟨b1, b2⟩ := hall (vdiv v s) (by simp [hvl, hl])
    rw [hback] at b1 b2
    refine ⟨vdiv v s, b1.2 hv, _, b2, fun z' hz' => ?_⟩
    obtain ⟨d1, d2⟩ := hall z' hz'.1
    exact ⟨_, d2, hvmin _ (d1.1 hz')⟩
  obtain ⟨⟨hzl, hw⟩, t, ht, hmin⟩ := hopt p i cl cu hexz
  rw [hres] at hsol
  split_ifs at hsol
  cases hsol
  obtain ⟨a1, a2⟩ := hall _ hzl
  refine ⟨a1.1 ⟨hzl, hw⟩, fun v hv => ?_⟩
  have hvl := length_phys h.good hv
  have hz' : (vdiv v s).length = M.numVar := by simp [hvl, hl]
  have hback : vmul (vdiv v s) s = v := vmul_vdiv (hvl.trans hl.symm) hne
  obtain ⟨b1, b2⟩ := hall _ hz'
  rw [hback] at b1 b2
  obtain ⟨t', ht', hle⟩ := hmin _ (b1.2 hv)
  rw [a2] at ht
  rw [b2] at ht'
  cases ht; cases ht'
  exact hle

/-- Is the call a rescaling? -/
def isScale : Call → Bool
  | .setVarScale _ _ _ => true
  | _ => false

theorem note_scale_free (fmt : ℝ → String) (b b' : Book) (h : b.lo = b'.lo ∧ b.hi = b'.hi ∧ b.objs = b'.objs ∧ b.cons = b'.cons)
    (c : Call) : (b.note M fmt c).lo = (b'.note M fmt c).lo ∧ (b.note M fmt c).hi = (b'.note M fmt c).hi ∧
      (b.note M fmt c).objs = (b'.note M fmt c).objs ∧ (b.note M fmt c).cons = (b'.note M fmt c).cons := by
  obtain ⟨h1, h2, h3, h4⟩ := h
  cases c <;> simp only [Book.note]
  · split_ifs <;> simp [h1, h2, h3, h4]
  · split_ifs <;> simp [h1, h2, h3, h4]
  · split
    · simp [h1, h2, h3, h4]
    · rw [h3]; split_ifs <;> simp [h1, h2, h3, h4]
  · rw [h3]; split_ifs <;> simp [h1, h2, h3, h4]
  · simp [h1, h2, h3, h4]
  · rw [h4]; split_ifs <;> simp [h1, h2, h3, h4]
  · simp [h1, h2, h3, h4]
  · simp [h1, h2, h3, h4]
  · rw [h3]; split_ifs <;> simp [h1, h2, h3, h4]

/-- Scales never change the physical problem: leaving out all rescalings of a history leaves the same feasible points and
the same objective. -/
theorem C75_scale_free (fmt : ℝ → String) (cs : List Call) (v : List ℝ) :
    (Phys M (book M fmt cs) v ↔ Phys M (book M fmt (cs.filter fun c => !isScale c)) v) ∧
      cost (book M fmt cs) v = cost (book M fmt (cs.filter fun c => !isScale c)) v := by
  have key : ∀ (cs : List Call) (b b' : Book), (b.lo = b'.lo ∧ b.hi = b'.hi ∧ b.objs = b'.objs ∧ b.cons = b'.cons) →
      (b.noteAll M fmt cs).lo = (b'.noteAll M fmt (cs.filter fun c => !isScale c)).lo ∧
      (b.noteAll M fmt cs).hi = (b'.noteAll M fmt (cs.filter fun c => !isScale c)).hi ∧
      (b.noteAll M fmt cs).objs = (b'.noteAll M fmt (cs.filter fun c => !isScale c)).objs := by
    intro cs
    induction cs with
    | nil => intro b b' h; exact ⟨h.1, h.2.1, h.2.2.1⟩
    | cons c cs ih =>
      intro b b' h
      cases hs : isScale c with
      | false =>
        simp only [List.filter_cons, hs, Bool.not_false, if_true, Book.noteAll, List.foldl_cons]
        exact ih _ _ (note_scale_free fmt b b' h c)
      | true =>
        simp only [List.filter_cons, hs, Bool.not_true, Bool.false_eq_true, if_false, Book.noteAll, List.foldl_cons]
        apply ih
        cases c with
        | setVarScale g n v => simp only [Book.note]; split_ifs <;> exact h
        | _ => simp [isScale] at hs
  obtain ⟨k1, k2, k3⟩ := key cs (Book.init M) (Book.init M) ⟨rfl, rfl, rfl, rfl⟩
  unfold Phys cost book
  rw [k1, k2, k3]
  exact ⟨Iff.rfl, rfl⟩

/-! ## What the solver object cannot do -/

/-- The exact Hessian is never available: evaluating it raises `KeyError` after every history. -/
theorem C75_exact_hessian_raises (h : Built M alg modelOf co s0) (fmt : ℝ → String) {cs : List Call}
    (hc : ∀ c ∈ cs, GoodCall M c) (x lam : List ℝ) (sigma : ℝ) :
    (s0.runAll fmt cs).hessian x lam sigma = .error .keyError := by
  obtain ⟨rest, hr⟩ := (h.represents fmt hc).head
  unfold MS.hessian
  rw [if_pos]
  rw [hasKey_iff, hr]
  simp

/-- Without an initial guess, `solve` raises `AttributeError`, and a constant objective has been added. -/
theorem C75_no_default_guess (h : Built M alg modelOf co s0) (fmt : ℝ → String) {cs : List Call} (hc : ∀ c ∈ cs, GoodCall M c)
    (hk : ∀ c ∈ cs, KeepsCons c) (solver : Prob → SolverInput → List ℝ → List ℝ → List ℝ × Int) :
    ((s0.runAll fmt cs).solve none solver).2 = .error .attributeError ∧
      ((book M fmt cs).objs = [] → ((s0.runAll fmt cs).solve none solver).1.prob.objs.map Prod.fst = ["const_obj"]) := by
  have r := h.represents fmt hc
  obtain ⟨hcl, hcu⟩ := cl_eq h fmt cs hc hk
  have hnum := numCon_eq h fmt hc hk
  have e : (s0.runAll fmt cs).solve none solver
      = ({ s0.runAll fmt cs with prob := solvedProb (s0.runAll fmt cs).prob }, .error .attributeError) := by
    unfold MS.solve
    rw [if_neg (by rw [hcl, hcu, hnum]; simp)]
  rw [e]
  refine ⟨rfl, fun ho => ?_⟩
  have hobj : (s0.runAll fmt cs).prob.objs = [] := by
    have := r.objs; rw [ho] at this; simpa using this
  have f4 := (solvedProb_fields r.reach).2.2.2
  rw [if_pos hobj] at f4
  have := congrArg (List.map Prod.fst) f4
  rw [keys_map] at this
  exact this

/-- After a further constraint has been added, `solve` raises `ValueError` until `set_cons` is called: the constraint
bounds still have the old length. -/
theorem C75_stale_constraint_bounds (h : Built M alg modelOf co s0) (fmt : ℝ → String) {cs : List Call}
    (hc : ∀ c ∈ cs, GoodCall M c) (hk : ∀ c ∈ cs, KeepsCons c) {name : String} {c : Cons} {sc : List ℝ}
    (hg : GoodCons M.numVar sc c) (hn : name ≠ "model_algebra") (hpos : 0 < c.numCon) (guess : Option (List ℝ))
    (solver : Prob → SolverInput → List ℝ → List ℝ → List ℝ × Int) :
    ((s0.runAll fmt (cs ++ [.addConstraints name c])).solve guess solver).2 = .error .valueError ∧
    ∀ x0 : List ℝ, ((s0.runAll fmt (cs ++ [.addConstraints name c, .setCons])).solve (some x0) solver).2 ≠ .error .valueError := by
  have r := h.represents fmt hc
  obtain ⟨hcl, hcu⟩ := cl_eq h fmt cs hc hk
  have hnum := numCon_eq h fmt hc hk
  obtain ⟨rest, hr⟩ := r.head
  have hcons := r.cons
  rw [book, book_cons fmt hk, hr] at hcons
  have hlen := congrArg List.length hcons
  simp [Book.init] at hlen
  subst hlen
  obtain ⟨c', _, hcn, hadd⟩ := C16_accepted r.reach name c hg (by rw [hr]; simpa using hn)
  have hnum' : ((s0.runAll fmt cs).prob.addConstraints name c).1.numCon = M.numRes + c.numCon := by
    rw [hadd]
    simp only [Prob.numCon, List.map_append, List.sum_append, List.map_cons, List.map_nil, List.sum_singleton, hcn]
    rw [← hnum]; rfl
  have e1 : s0.runAll fmt (cs ++ [.addConstraints name c])
      = { s0.runAll fmt cs with prob := ((s0.runAll fmt cs).prob.addConstraints name c).1 } := by
    rw [runAll_append]; rfl
  have e2 : s0.runAll fmt (cs ++ [.addConstraints name c, .setCons])
      = MS.setCons { s0.runAll fmt cs with prob := ((s0.runAll fmt cs).prob.addConstraints name c).1 } := by
    rw [runAll_append]; rfl
  constructor
  · rw [e1]
    unfold MS.solve
    rw [if_pos]
    left
    dsimp only
    rw [hcl, hnum']
    simp; omega
  · intro x0
    rw [e2]
    have hr2 : Reachable M.numVar ((s0.runAll fmt cs).prob.addConstraints name c).1 :=
      reachable_step r.reach (.addCon name c) ⟨sc, by rw [hg.numIn]; exact hg⟩
    unfold MS.solve
    rw [if_neg (by simp [MS.setCons])]
    dsimp only [MS.setCons]
    obtain ⟨i, _, hs⟩ := solve_eq hr2 (s0.runAll fmt cs).lb (s0.runAll fmt cs).ub (some x0) []
      (fun p i => solver p i (List.replicate ((s0.runAll fmt cs).prob.addConstraints name c).1.numCon 0)
        (List.replicate ((s0.runAll fmt cs).prob.addConstraints name c).1.numCon 0))
    rw [hs]
    dsimp only
    split_ifs <;> simp

/-- The name under which `add_obj_from_var` stores its objective and which it returns: group, name and the printed weight. -/
def weightName (fmt : ℝ → String) (g n : String) (w : ℝ) : String := g ++ "." ++ n ++ ".weight=" ++ fmt w

/-- `add_obj_from_var` is refused for an unknown variable and for a variable that is already there with a weight that prints the same;
otherwise the objective is added last, the returned name is the one under which it can be deleted again, and deleting it restores the
objective. -/
theorem C75_add_objective (h : Built M alg modelOf co s0) (fmt : ℝ → String) {cs : List Call} (hc : ∀ c ∈ cs, GoodCall M c)
    {g : String} (hg : g ∈ groupNames) (n : String) (w : ℝ) :
    let s := s0.runAll fmt cs
    (flatPos M g n = none → s.addObjFromVar fmt g n w = (s, .error .keyError)) ∧
    (flatPos M g n ≠ none → weightName fmt g n w ∈ s.prob.objs.map Prod.fst → s.addObjFromVar fmt g n w = (s, .error .nameError)) ∧
    (flatPos M g n ≠ none → weightName fmt g n w ∉ s.prob.objs.map Prod.fst → ∃ s', s.addObjFromVar fmt g n w = (s', .ok (weightName fmt g n w)) ∧
      s' = s0.runAll fmt (cs ++ [.addObjFromVar g n w]) ∧ s'.prob.objs.map Prod.fst = s.prob.objs.map Prod.fst ++ [weightName fmt g n w] ∧
      book M fmt (cs ++ [.addObjFromVar g n w, .deleteObjective (weightName fmt g n w)]) = book M fmt cs) := by
  intro s
  have r := h.represents fmt hc
  refine ⟨fun hn => ?_, fun hn hm => ?_, fun hn hm => ?_⟩
  · unfold MS.addObjFromVar
    rw [((C75_index h fmt hc g n).2 hg hn).1]
  all_goals
    obtain ⟨i, hi⟩ := Option.ne_none_iff_exists'.1 hn
    have hidx := ((C75_index h fmt hc g n).1 i hi).1
    obtain ⟨o, ho, hgo, hobj⟩ := varObj_make (n := M.numVar) (flatPos_lt hi) w
    obtain ⟨a1, a2⟩ := addObjective_fields r.reach hgo (weightName fmt g n w)
    have hdec := r.reach.inv.dec
  · unfold MS.addObjFromVar
    rw [hidx]
    dsimp only
    rw [hdec, ho]
    dsimp only
    have e : MS.objName fmt g n w = weightName fmt g n w := rfl
    rw [e, a1 hm]
  · obtain ⟨q, q1, q2, q3, q4, q5⟩ := a2 hm
    have e : MS.objName fmt g n w = weightName fmt g n w := rfl
    have hs : s.addObjFromVar fmt g n w = ({ s with prob := q }, .ok (weightName fmt g n w)) := by
      unfold MS.addObjFromVar
      rw [hidx]
      dsimp only
      rw [hdec, ho]
      dsimp only
      rw [e, q1]
    have hkeys : (book M fmt cs).objs.map Prod.fst = s.prob.objs.map Prod.fst := by rw [← r.objs]; exact keys_map _ _
    refine ⟨_, hs, ?_, ?_, ?_⟩
    · rw [runAll_append]
      show _ = (s.addObjFromVar fmt g n w).1
      rw [hs]
    · have := congrArg (List.map Prod.fst) q5
      simpa [keys_map, List.map_map, Function.comp_def] using this
    · have hb : weightName fmt g n w ∉ (book M fmt cs).objs.map Prod.fst := by rw [hkeys]; exact hm
      have hfold : book M fmt (cs ++ [.addObjFromVar g n w, .deleteObjective (weightName fmt g n w)])
          = ((book M fmt cs).note M fmt (.addObjFromVar g n w)).note M fmt (.deleteObjective (weightName fmt g n w)) := by
        simp only [book, Book.noteAll, List.foldl_append, List.foldl_cons, List.foldl_nil]
      rw [hfold]
      generalize book M fmt cs = b at hb
      simp only [Book.note, hi, e]
      rw [if_neg hb]
      dsimp only
      have hf : b.objs.filter (fun p => decide (p.1 ≠ weightName fmt g n w)) = b.objs := by
        rw [List.filter_eq_self]
        intro p hp
        have : p.1 ≠ weightName fmt g n w := fun e => hb (e ▸ List.mem_map_of_mem hp)
        simpa using this
      rw [List.filter_append, hf]
      simp

/-- Adding the same variable with the same weight twice is refused with `NameError` and changes nothing. -/
theorem C75_same_objective_twice (h : Built M alg modelOf co s0) (fmt : ℝ → String) {cs : List Call}
    (hc : ∀ c ∈ cs, GoodCall M c) {g n : String} {i : Nat} (hi : flatPos M g n = some i) (w : ℝ) :
    let s := s0.runAll fmt (cs ++ [.addObjFromVar g n w])
    s.addObjFromVar fmt g n w = (s, .error .nameError) := by
  intro s
  have hgn : g ∈ groupNames := mem_allVars (idxOf_allVars hi).1
  have hc' : ∀ c ∈ cs ++ [Call.addObjFromVar g n w], GoodCall M c := by
    intro c hcc
    rcases List.mem_append.1 hcc with hcc | hcc
    · exact hc c hcc
    · cases List.mem_singleton.1 hcc; exact Or.inl hgn
  have r := h.represents fmt hc'
  have hidx := ((C75_index h fmt hc' g n).1 i hi).1
  have hmem : MS.objName fmt g n w ∈ s.prob.objs.map Prod.fst := by
    have e : s.prob.objs.map Prod.fst = (book M fmt (cs ++ [.addObjFromVar g n w])).objs.map Prod.fst := by
      rw [← r.objs, keys_map]
    rw [e]
    simp only [book, Book.noteAll, List.foldl_append, List.foldl_cons, List.foldl_nil, Book.note, hi]
    split_ifs with hh
    · exact hh
    · simp
  obtain ⟨o, ho, _⟩ := varObj_make (flatPos_lt hi) w
  unfold MS.addObjFromVar
  rw [hidx]
  dsimp only
  rw [show s.prob.numDec = M.numVar from r.reach.inv.dec, ho]
  dsimp only
  rw [C16_duplicate_objective _ _ _ hmem]

/-- The scale of a state derivative cannot be set: it stays 1 while its equation is divided by the scale of the state. -/
theorem C75_states_dot_scale_is_fixed (h : Built M alg modelOf co s0) (fmt : ℝ → String) {cs : List Call}
    (hc : ∀ c ∈ cs, GoodCall M c) (n : String) {v : ℝ} (hv : 0 < v) :
    (s0.runAll fmt cs).setVarScale "states_dot" n v = (s0.runAll fmt cs, some .keyError) :=
  (C75_set_scale_accepts h fmt hc "states_dot" n v).2.1 hv (Or.inl (by simp))

/-- After the model algebra has been deleted, `set_var_scale` raises `KeyError` but has already stored the new scale. -/
theorem C75_deleted_algebra (h : Built M alg modelOf co s0) (fmt : ℝ → String) {cs : List Call} (hc : ∀ c ∈ cs, GoodCall M c)
    {g n : String} (hg : g ∈ ["states", "inputs", "con_outputs"]) (hi : flatPos M g n ≠ none) {v : ℝ} (hv : 0 < v) :
    let s := s0.runAll fmt (cs ++ [.deleteConstraints "model_algebra"])
    (s.setVarScale g n v).2 = some .keyError ∧ (s.setVarScale g n v).1.scaleOf g n = .ok v ∧
      (s.setVarScale g n v).1.prob = s.prob := by
  intro s
  have r := h.represents fmt hc
  obtain ⟨i, hi⟩ := Option.ne_none_iff_exists'.1 hi
  have hm := (idxOf_allVars hi).1
  obtain ⟨d, d1, d2, d3⟩ := scaleDict_set h.good (book M fmt cs).scale hm v
  have hs : s = { s0.runAll fmt cs with prob := ((s0.runAll fmt cs).prob.deleteConstraints "model_algebra").1 } := by
    simp only [s]
    rw [runAll_append]
    rfl
  have hfind : s.prob.cons.find? (fun c => c.1 == "model_algebra") = none := by
    rw [hs]
    dsimp only
    unfold Prob.deleteConstraints
    obtain ⟨rest, hr⟩ := r.head
    rw [if_pos (by rw [hasKey_iff, hr]; simp)]
    dsimp only
    rw [List.find?_eq_none]
    intro c hcc
    simp only [dropKey, List.mem_filter] at hcc
    have := hcc.2
    simpa using this
  have hvs : s.varScales = scaleDict M (book M fmt cs).scale := by rw [hs]; exact r.vs
  have hsM : s.M = M := by rw [hs]; exact r.model
  have e : s.setVarScale g n v
      = ({ s with varScales := scaleDict M (fun p => if p = (g, n) then v else (book M fmt cs).scale p) }, some .keyError) := by
    unfold MS.setVarScale
    rw [if_neg (not_not.2 hv), if_neg (not_not.2 (show g ∈ MS.allowedGroups from hg)), hvs, d1]
    dsimp only
    rw [if_neg (not_not.2 d2), d3]
    unfold MS.updateProblemScales
    rw [algebraScales_eq (σ := fun p => if p = (g, n) then v else (book M fmt cs).scale p) (by rw [← hsM])]
    dsimp only
    unfold Prob.setConScales
    rw [hfind]
  rw [e]
  refine ⟨rfl, ?_, rfl⟩
  rw [scaleOf_eq (σ := fun p => if p = (g, n) then v else (book M fmt cs).scale p) (by rw [← hsM]) (by rw [← hsM] at hm; exact hm)]
  simp

/-! ## A concrete solver meets the hypotheses -/

/-- The example model of `Ocp/AlgProps.lean` (`x_dot = x u`, `p = x²`) with its callbacks: a solver is constructed, and a
history with bounds, a scale and an objective runs. -/
example : ∃ (alg : ExplicitModel → Alg) (s0 : MS), Built ExplicitModel.exModel alg (fun _ => .ok ExplicitModel.exModel)
    (some ["p"]) s0 ∧ ∀ fmt, (∀ c ∈ [Call.setBounds "inputs" "u" (.pair 0 1), .setVarScale "states" "x" 10,
        .addObjFromVar "con_outputs" "p" (-1)], GoodCall ExplicitModel.exModel c ∧ KeepsCons c) ∧
      (book ExplicitModel.exModel fmt [Call.setBounds "inputs" "u" (.pair 0 1), .setVarScale "states" "x" 10,
        .addObjFromVar "con_outputs" "p" (-1)]).scale ("states", "x") = 10 ∧
      Phys ExplicitModel.exModel (book ExplicitModel.exModel fmt [Call.setBounds "inputs" "u" (.pair 0 1),
        .setVarScale "states" "x" 10, .addObjFromVar "con_outputs" "p" (-1)]) [3, 1, 3, 9] ∧
      cost (book ExplicitModel.exModel fmt [Call.setBounds "inputs" "u" (.pair 0 1),
        .setVarScale "states" "x" 10, .addObjFromVar "con_outputs" "p" (-1)]) [3, 1, 3, 9] = -9 := by
  obtain ⟨u, _, h2, h3, h4, h5, h6⟩ := ExplicitModel.C44_sparsity_complete ExplicitModel.exModel_good ExplicitModel.exDense
    ExplicitModel.exDense2
  let alg : ExplicitModel → Alg := fun _ => ⟨fun v => u.jac v 0, fun v l => u.hess v l 0, u.jacStruct, u.hessStruct⟩
  have hga : GoodAlg ExplicitModel.exModel (alg ExplicitModel.exModel) := by
    have a := h5 0
    have b := h6 0
    rw [h2, h3, h4] at a b
    exact ⟨a, b.1, fun y lam hy hl => ⟨(b.2 y lam hy hl).1, by
      intro _
      obtain ⟨gg, q1, q2⟩ := (b.2 y lam hy hl).2 trivial
      exact ⟨gg, q1, fun i j hi hj _ => q2 i j hi hj trivial⟩⟩⟩
  obtain ⟨s0, hs0⟩ := (C75_construct (fun _ => .ok ExplicitModel.exModel) (some ["p"]) alg).2.1 _ rfl ExplicitModel.exModel_good hga
  refine ⟨alg, s0, hs0, fun fmt => ⟨?_, ?_, ?_, ?_⟩⟩
  · intro c hcc
    simp only [List.mem_cons, List.not_mem_nil, or_false] at hcc
    rcases hcc with rfl | rfl | rfl
    · exact ⟨Or.inl (by simp [groupNames]), trivial⟩
    · exact ⟨trivial, trivial⟩
    · exact ⟨Or.inl (by simp [groupNames]), trivial⟩
  · have hle : (MS.Bnd.pair 0 1).lo ≤ (MS.Bnd.pair 0 1).hi := zero_le_one
    have hp : flatPos ExplicitModel.exModel "con_outputs" "p" = some 3 := by decide
    simp [book, Book.noteAll, Book.note, Book.init, hle, hp]
  · have hle : (MS.Bnd.pair 0 1).lo ≤ (MS.Bnd.pair 0 1).hi := zero_le_one
    have hp : flatPos ExplicitModel.exModel "con_outputs" "p" = some 3 := by decide
    refine ⟨fun g n i hi => ?_, [3], [1], rfl, rfl, ?_, by simp [ExplicitModel.exModel]⟩
    · simp only [book, Book.noteAll, Book.note, Book.init, hle, hp, List.foldl_cons, List.foldl_nil, if_true]
      by_cases he : (g, n) = (("inputs", "u") : String × String)
      · cases he
        have : i = 1 := by
          have hq : flatPos ExplicitModel.exModel "inputs" "u" = some 1 := by decide
          rw [hq] at hi; cases hi; rfl
        subst this
        simp [MS.Bnd.lo, MS.Bnd.hi]
      · simp [he]
    · norm_num [ExplicitModel.exModel]
  · have hle : (MS.Bnd.pair 0 1).lo ≤ (MS.Bnd.pair 0 1).hi := zero_le_one
    have hp : flatPos ExplicitModel.exModel "con_outputs" "p" = some 3 := by decide
    simp [cost, book, Book.noteAll, Book.note, Book.init, hle, hp]

end Lumos.Solver
