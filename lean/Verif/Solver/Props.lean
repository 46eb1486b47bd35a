import Verif.Solver.Inv
/-!
# C75: `ModelSolver` over every history of calls
-/

namespace Lumos.Solver

open Lumos Lumos.NLP Lumos.Ocp

variable {M : ExplicitModel} {alg : ExplicitModel → Alg} {modelOf : List String → Py ExplicitModel}
  {co : Option (List String)} {s0 : MS}

/-- `s0` is a solver constructed for the model `M`, whose casadi callbacks are right. -/
structure Built (M : ExplicitModel) (alg : ExplicitModel → Alg) (modelOf : List String → Py ExplicitModel)
    (co : Option (List String)) (s0 : MS) : Prop where
  good : M.Good
  callbacks : GoodAlg M (alg M)
  model : modelOf (co.getD []) = .ok M
  made : MS.make modelOf "casadi" co alg = .ok s0

/-- The notebook after a history of calls. -/
noncomputable def book (M : ExplicitModel) (fmt : ℝ → String) (cs : List Call) : Book := (Book.init M).noteAll M fmt cs

theorem Built.represents (h : Built M alg modelOf co s0) (fmt : ℝ → String) {cs : List Call} (hc : ∀ c ∈ cs, GoodCall M c) :
    Represents M (alg M) (book M fmt cs) (s0.runAll fmt cs) := by
  obtain ⟨s, h1, h2, _⟩ := make_represents h.good h.callbacks modelOf co h.model
  rw [h.made] at h1
  cases h1
  exact represents_runAll h.good h.callbacks fmt h2 cs hc

/-! ## Construction -/

/-- Only the casadi backend is accepted; with it, a model with distinct names is always accepted; repeated names are
refused; a model that cannot be built passes its exception on. -/
theorem C75_construct (modelOf : List String → Py ExplicitModel) (co : Option (List String)) (alg : ExplicitModel → Alg) :
    (∀ backend, backend ≠ "casadi" → MS.make modelOf backend co alg = .error .assertionError) ∧
    (∀ M, modelOf (co.getD []) = .ok M → M.Good → GoodAlg M (alg M) → ∃ s, Built M alg modelOf co s) ∧
    (∀ M, modelOf (co.getD []) = .ok M → ¬ (M.states.Nodup ∧ M.inputs.Nodup ∧ M.conOutputs.Nodup) →
      MS.make modelOf "casadi" co alg = .error .typeError) ∧
    (∀ e, modelOf (co.getD []) = .error e → MS.make modelOf "casadi" co alg = .error e) := by
  refine ⟨fun b hb => ?_, fun M hm hM ha => ?_, fun M hm hd => ?_, fun e he => ?_⟩
  · unfold MS.make; rw [if_pos hb]
  · obtain ⟨s, h1, _⟩ := make_represents hM ha modelOf co hm
    exact ⟨s, hM, ha, hm, h1⟩
  · unfold MS.make
    rw [if_neg (by simp), hm]
    dsimp only
    rw [if_pos]
    intro hn
    rw [inputNames_eq, allVars_eq] at hn
    simp only [List.map_append, List.map_map] at hn
    apply hd
    obtain ⟨h1, h2, _⟩ := List.nodup_append.1 hn
    obtain ⟨h3, h4, _⟩ := List.nodup_append.1 h2
    obtain ⟨_, h6, _⟩ := List.nodup_append.1 h4
    exact ⟨h1.of_map _, h3.of_map _, h6.of_map _⟩
  · unfold MS.make
    rw [if_neg (by simp), he]

/-! ## Variables -/

/-- After any history, a variable is found at its position in `[states, inputs, states_dot, con_outputs]`, the same
position that the model uses; reading it from a vector reads that entry; an unknown name of a group is a `KeyError`. -/
theorem C75_index (h : Built M alg modelOf co s0) (fmt : ℝ → String) {cs : List Call} (hc : ∀ c ∈ cs, GoodCall M c)
    (g n : String) :
    (∀ i, flatPos M g n = some i → (s0.runAll fmt cs).getVarIdx g n = .ok i ∧ M.varIndexInFlat g n = .ok i ∧ i < M.numVar ∧
      ∀ x : List ℝ, x.length = M.numVar → (s0.runAll fmt cs).getVar x g n = .ok (x.getD i 0)) ∧
    (g ∈ groupNames → flatPos M g n = none → (s0.runAll fmt cs).getVarIdx g n = .error .keyError ∧
      ∀ x, (s0.runAll fmt cs).getVar x g n = .error .keyError) := by
  have r := h.represents fmt hc
  have hnm : (s0.runAll fmt cs).names = inputNames (s0.runAll fmt cs).M := by rw [r.model]; exact r.names
  refine ⟨fun i hi => ?_, fun hg hn => ?_⟩
  · have e := getVarIdx_eq hnm (by rw [r.model]; exact hi)
    refine ⟨e, varIndexInFlat_eq hi, flatPos_lt hi, fun x hx => ?_⟩
    have hlt : i < x.length := hx ▸ flatPos_lt hi
    unfold MS.getVar
    rw [e]
    simp only [bind, Except.bind, List.getElem?_eq_getElem hlt]
    rw [List.getD_eq_getElem?_getD, List.getElem?_eq_getElem hlt]
    rfl
  · have e := getVarIdx_error hnm hg (by rw [r.model]; exact hn)
    refine ⟨e, fun x => ?_⟩
    unfold MS.getVar
    rw [e]; rfl

/-! ## Bounds -/

/-- After any history the bounds of a variable are those of the last accepted `set_bounds` of it (none: unbounded). -/
theorem C75_bounds (h : Built M alg modelOf co s0) (fmt : ℝ → String) {cs : List Call} (hc : ∀ c ∈ cs, GoodCall M c)
    {g n : String} {i : Nat} (hi : flatPos M g n = some i) :
    (s0.runAll fmt cs).getBounds g n = .ok ((book M fmt cs).lo (g, n), (book M fmt cs).hi (g, n)) ∧
      (s0.runAll fmt cs).lb.getD i 0 = (book M fmt cs).lo (g, n) ∧ (s0.runAll fmt cs).ub.getD i 0 = (book M fmt cs).hi (g, n) := by
  have r := h.represents fmt hc
  have e := ((C75_index h fmt hc g n).1 i hi).1
  obtain ⟨hm, hx⟩ := idxOf_allVars hi
  have hlt : (MS.allVars M).idxOf (g, n) < (MS.allVars M).length := List.idxOf_lt_length_of_mem hm
  have hget : ∀ f : String × String → EReal, ((MS.allVars M).map f).getD i 0 = f (g, n) := by
    intro f
    rw [← hx, List.getD_eq_getElem?_getD, List.getElem?_map, List.getElem?_eq_getElem hlt, List.getElem_idxOf hlt]
    rfl
  refine ⟨?_, by rw [r.lb, hget], by rw [r.ub, hget]⟩
  unfold MS.getBounds
  rw [e]
  simp only [bind, Except.bind, pure, Except.pure]
  rw [r.lb, r.ub, hget, hget]

/-- `set_bounds` succeeds exactly when the variable exists and the lower bound is not above the upper one, and a
refused call leaves the solver unchanged. -/
theorem C75_set_bounds_accepts (h : Built M alg modelOf co s0) (fmt : ℝ → String) {cs : List Call} (hc : ∀ c ∈ cs, GoodCall M c)
    {g n : String} (hg : g ∈ groupNames) (x : MS.Bnd) :
    (flatPos M g n = none → (s0.runAll fmt cs).setBounds g n x = (s0.runAll fmt cs, some .keyError)) ∧
    (flatPos M g n ≠ none → ¬ x.lo ≤ x.hi → (s0.runAll fmt cs).setBounds g n x = (s0.runAll fmt cs, some .assertionError)) ∧
    (flatPos M g n ≠ none → x.lo ≤ x.hi → ((s0.runAll fmt cs).setBounds g n x).2 = none) := by
  refine ⟨fun hn => ?_, fun hn hx => ?_, fun hn hx => ?_⟩
  · unfold MS.setBounds
    rw [((C75_index h fmt hc g n).2 hg hn).1]
  all_goals
    obtain ⟨i, hi⟩ := Option.ne_none_iff_exists'.1 hn
    unfold MS.setBounds
    rw [((C75_index h fmt hc g n).1 i hi).1]
    simp [hx]

/-! ## Scales -/

/-- After any history the decision-variable scale of a variable is the last accepted one (1 at the start), every
component of the problem uses these scales, and the model equations are scaled by the scale of their state or output
(residuals by 1). -/
theorem C75_scales (h : Built M alg modelOf co s0) (fmt : ℝ → String) {cs : List Call} (hc : ∀ c ∈ cs, GoodCall M c) :
    (∀ g n i, flatPos M g n = some i → (s0.runAll fmt cs).prob.scales.getD i 0 = (book M fmt cs).scale (g, n)) ∧
    (s0.runAll fmt cs).prob.scales.length = M.numVar ∧ (∀ p, 0 < (book M fmt cs).scale p) ∧
    (∀ n, (book M fmt cs).scale ("states_dot", n) = 1) ∧
    (∀ c ∈ (s0.runAll fmt cs).prob.cons, c.2.inScales = (s0.runAll fmt cs).prob.scales) ∧
    (∀ o ∈ (s0.runAll fmt cs).prob.objs, o.2.inScales = (s0.runAll fmt cs).prob.scales) ∧
    ∃ c rest, (s0.runAll fmt cs).prob.cons = ("model_algebra", c) :: rest ∧ c.conScales =
      M.states.map (fun n => (book M fmt cs).scale ("states", n)) ++
        M.conOutputs.map (fun n => (book M fmt cs).scale ("con_outputs", n)) ++ List.replicate M.nr 1 := by
  have r := h.represents fmt hc
  obtain ⟨c1, c2⟩ := C16_components_use_problem_scales r.reach
  refine ⟨fun g n i hi => ?_, ?_, r.pos, r.dot, fun c hc' => (c1 c hc').1, c2, ?_⟩
  · rw [r.scales, decScales]
    obtain ⟨hm, hx⟩ := idxOf_allVars hi
    have hlt : (MS.allVars M).idxOf (g, n) < (MS.allVars M).length := List.idxOf_lt_length_of_mem hm
    rw [← hx, List.getD_eq_getElem?_getD, List.getElem?_map, List.getElem?_eq_getElem hlt, List.getElem_idxOf hlt]
    rfl
  · rw [r.scales]; exact (decScales_good M r.pos).1
  · obtain ⟨rest, hr⟩ := r.head
    exact ⟨_, rest, hr, rfl⟩

/-- `set_var_scale` succeeds exactly for a positive scale of a known state, input or constraint output; a refused call
leaves the solver unchanged. -/
theorem C75_set_scale_accepts (h : Built M alg modelOf co s0) (fmt : ℝ → String) {cs : List Call} (hc : ∀ c ∈ cs, GoodCall M c)
    (g n : String) (v : ℝ) :
    (v ≤ 0 → (s0.runAll fmt cs).setVarScale g n v = (s0.runAll fmt cs, some .assertionError)) ∧
    (0 < v → g ∉ ["states", "inputs", "con_outputs"] ∨ flatPos M g n = none →
      (s0.runAll fmt cs).setVarScale g n v = (s0.runAll fmt cs, some .keyError)) ∧
    (0 < v → g ∈ ["states", "inputs", "con_outputs"] → flatPos M g n ≠ none →
      ((s0.runAll fmt cs).setVarScale g n v).2 = none) := by
  have r := h.represents fmt hc
  refine ⟨fun hv => ?_, fun hv hn => ?_, fun hv hg hn => ?_⟩
  · unfold MS.setVarScale; rw [if_pos (not_lt.2 hv)]
  · unfold MS.setVarScale
    rw [if_neg (not_not.2 hv)]
    by_cases hg : g ∈ MS.allowedGroups
    · rw [if_neg (not_not.2 hg)]
      have hn' : flatPos M g n = none := by
        rcases hn with hn | hn
        · exact absurd hg hn
        · exact hn
      have hgn : g ∈ groupNames := by
        simp only [MS.allowedGroups, List.mem_cons, List.not_mem_nil, or_false] at hg
        rcases hg with rfl | rfl | rfl <;> simp [groupNames]
      obtain ⟨d, d1, d2⟩ := scaleDict_miss (book M fmt cs).scale hgn
        (fun hm : (g, n) ∈ MS.allVars M => by rw [flatPos_of_mem hm] at hn'; cases hn')
      rw [r.vs, d1]
      dsimp only
      rw [if_pos d2]
    · rw [if_pos hg]
  · unfold MS.setVarScale
    rw [if_neg (not_not.2 hv), if_neg (not_not.2 (show g ∈ MS.allowedGroups from hg))]
    obtain ⟨i, hi⟩ := Option.ne_none_iff_exists'.1 hn
    obtain ⟨d, d1, d2, d3⟩ := scaleDict_set h.good (book M fmt cs).scale (idxOf_allVars hi).1 v
    rw [r.vs, d1]
    dsimp only
    rw [if_neg (not_not.2 d2), d3]
    obtain ⟨rest, hr⟩ := r.head
    have hσ : ∀ p, 0 < (fun p => if p = (g, n) then v else (book M fmt cs).scale p) p := fun p => by
      dsimp only
      split_ifs
      · exact hv
      · exact r.pos p
    obtain ⟨p, q1, _⟩ := updateProblemScales_eq (a := alg M) h.good h.callbacks
      (s := { s0.runAll fmt cs with varScales := scaleDict M (fun p => if p = (g, n) then v else (book M fmt cs).scale p) })
      r.model rfl hσ r.reach (decScales_good M r.pos).1 (algScales_good M r.pos).1 hr
    rw [q1]

/-! ## The physical problem -/

theorem vmul_vdiv {v s : List ℝ} (h : v.length = s.length) (hs : ∀ a ∈ s, a ≠ 0) : vmul (vdiv v s) s = v := by
  apply List.ext_getElem (by simp [h])
  intro i h1 h2
  have h3 : i < s.length := h ▸ h2
  simp [vmul, vdiv, div_mul_cancel₀ _ (hs _ (List.getElem_mem h3))]

theorem vdiv_vmul {z s : List ℝ} (h : z.length = s.length) (hs : ∀ a ∈ s, a ≠ 0) : vdiv (vmul z s) s = z := by
  apply List.ext_getElem (by simp [h])
  intro i h1 h2
  have h3 : i < s.length := h ▸ h2
  simp [vmul, vdiv, mul_div_cancel_right₀ _ (hs _ (List.getElem_mem h3))]

/-- The objective at the scaled image of a physical point `v` is the sum of the noted objectives at `v`: weights times
variables, whatever the scales. Without an objective it raises. -/
theorem C75_objective (h : Built M alg modelOf co s0) (fmt : ℝ → String) {cs : List Call} (hc : ∀ c ∈ cs, GoodCall M c)
    {v : List ℝ} (hv : v.length = M.numVar) :
    (s0.runAll fmt cs).prob.objective (vdiv v (s0.runAll fmt cs).prob.scales)
      = if (book M fmt cs).objs = [] then .error .valueError
        else .ok ((book M fmt cs).objs.map fun o => o.2 v).sum := by
  have r := h.represents fmt hc
  obtain ⟨_, c2⟩ := C16_components_use_problem_scales r.reach
  have hsc := r.reach.inv.scales
  rw [← r.objs]
  unfold Prob.objective
  by_cases he : (s0.runAll fmt cs).prob.objs = []
  · simp [he]
  · have : (s0.runAll fmt cs).prob.objs.isEmpty = false := by simpa using he
    rw [this, if_neg (by simp), if_neg (by simpa using he), List.map_map]
    congr 2
    apply List.map_congr_left
    intro o ho
    simp only [Obj.objective, Function.comp]
    rw [c2 o ho, vmul_vdiv (hv.trans hsc.1.symm) hsc.2]

/-- The constraints at the scaled image of a physical point `v` are all zero exactly when the noted constraint functions
vanish at `v`, whatever the scales. -/
theorem C75_feasible (h : Built M alg modelOf co s0) (fmt : ℝ → String) {cs : List Call} (hc : ∀ c ∈ cs, GoodCall M c)
    {v : List ℝ} (hv : v.length = M.numVar) :
    ∃ c, (s0.runAll fmt cs).prob.constraints (vdiv v (s0.runAll fmt cs).prob.scales) = .ok c ∧
      c.length = (s0.runAll fmt cs).prob.numCon ∧
      ((∀ y ∈ c, y = 0) ↔ ∀ q ∈ (book M fmt cs).cons, ∀ y ∈ q.2 v, y = 0) := by
  have r := h.represents fmt hc
  have hinv := r.reach.inv
  have hsc := hinv.scales
  obtain ⟨rest, hhead⟩ := r.head
  have hne : (s0.runAll fmt cs).prob.cons ≠ [] := by rw [hhead]; simp
  have hz : (vdiv v (s0.runAll fmt cs).prob.scales).length = M.numVar := by simp [hv, hsc.1]
  obtain ⟨c, h1, h2, h3, _⟩ := C12_constraints_and_split r.reach hne _ hz
  refine ⟨c, h1, h2, ?_⟩
  rw [h3, ← r.cons]
  simp only [List.mem_flatten, List.mem_map, forall_exists_index, and_imp, forall_apply_eq_imp_iff₂]
  have key : ∀ d ∈ (s0.runAll fmt cs).prob.cons,
      ((∀ y ∈ d.2.constraints (vdiv v (s0.runAll fmt cs).prob.scales), y = 0) ↔ ∀ y ∈ d.2.con v, y = 0) := by
    intro d hd
    obtain ⟨con, jac, hess, js, hs, k, he, hj, hh, g1, g2⟩ := hinv.cons d hd
    have hlen := (hj.2 v hv).1
    rw [he]
    simp only [Cons.constraints, Cons.stateOf]
    rw [vmul_vdiv (hv.trans hsc.1.symm) hsc.2]
    have hkl : (con v).length = k.length := hlen.trans g2.1.symm
    constructor
    · intro hall y hy
      obtain ⟨i, hi, rfl⟩ := List.mem_iff_getElem.1 hy
      have hik : i < k.length := hkl ▸ hi
      have hi' : i < (vdiv (con v) k).length := by simp [hi, hik]
      have := hall _ (List.getElem_mem hi')
      simp only [vdiv, List.getElem_zipWith] at this
      rcases div_eq_zero_iff.1 this with e | e
      · exact e
      · exact absurd e (g2.2 _ (List.getElem_mem hik))
    · intro hall y hy
      obtain ⟨i, hi, rfl⟩ := List.mem_iff_getElem.1 hy
      have hi2 : i < (con v).length := by simp at hi; exact hi.1
      simp only [vdiv, List.getElem_zipWith]
      rw [hall _ (List.getElem_mem hi2), zero_div]
  constructor
  · intro hall d hd y hy
    exact (key d hd).1 (fun y hy => hall y d hd hy) y hy
  · intro hall y d hd hy
    exact (key d hd).2 (hall d hd) y hy

/-- The residuals of the model algebra vanish exactly when the state derivatives and the constraint outputs are those of
the model and the model's own residuals are zero. -/
theorem flatImplicit_zero_iff (hM : M.Good) {v : List ℝ} (hv : v.length = M.numVar) (μ : ℝ) :
    (∀ y ∈ M.flatImplicit v μ, y = 0) ↔
      v = M.xOf v ++ M.uOf v ++ (M.f (M.xOf v) (M.uOf v) μ ++ M.h (M.xOf v) (M.uOf v) μ) ∧
        ∀ y ∈ M.r (M.xOf v) (M.uOf v) μ, y = 0 := by
  rw [ExplicitModel.flatImplicit_eq hM hv]
  have hl : (M.rhs v μ).length = (M.wOf v).length := by
    rw [ExplicitModel.length_rhs hM hv, ExplicitModel.length_wOf hv]
  have hv2 : v = M.xOf v ++ M.uOf v ++ M.wOf v := by
    simp only [ExplicitModel.xOf, ExplicitModel.uOf, ExplicitModel.wOf]
    conv_lhs => rw [← List.take_append_drop (M.nx + M.nu) v]
    congr 1
    conv_lhs => rw [← List.take_append_drop M.nx (v.take (M.nx + M.nu)), List.take_take]
    congr 2
    omega
  have hz : (∀ y ∈ List.zipWith (· - ·) (M.rhs v μ) (M.wOf v), y = 0) ↔ M.wOf v = M.rhs v μ := by
    constructor
    · intro hall
      apply List.ext_getElem hl.symm
      intro i h1 h2
      have hi : i < (List.zipWith (· - ·) (M.rhs v μ) (M.wOf v)).length := by simp [h1, h2]
      have := hall _ (List.getElem_mem hi)
      rw [List.getElem_zipWith] at this
      linarith
    · intro e y hy
      rw [e] at hy
      obtain ⟨i, hi, rfl⟩ := List.mem_iff_getElem.1 hy
      simp
  rw [show (∀ y ∈ List.zipWith (· - ·) (M.rhs v μ) (M.wOf v) ++ M.r (M.xOf v) (M.uOf v) μ, y = 0) ↔
    (∀ y ∈ List.zipWith (· - ·) (M.rhs v μ) (M.wOf v), y = 0) ∧ ∀ y ∈ M.r (M.xOf v) (M.uOf v) μ, y = 0 by
      simp only [List.mem_append]
      exact ⟨fun h => ⟨fun y hy => h y (Or.inl hy), fun y hy => h y (Or.inr hy)⟩,
        fun h y hy => hy.elim (h.1 y) (h.2 y)⟩, hz]
  refine and_congr_left fun _ => ?_
  constructor
  · intro e
    conv_lhs => rw [hv2, e]
    rfl
  · intro e
    rw [show M.f (M.xOf v) (M.uOf v) μ ++ M.h (M.xOf v) (M.uOf v) μ = M.rhs v μ from rfl] at e
    have := hv2.symm.trans e
    exact List.append_cancel_left this

/-- Calls that do not touch the constraints. -/
def KeepsCons : Call → Prop
  | .addConstraints _ _ => False
  | .deleteConstraints _ => False
  | _ => True

theorem book_cons (fmt : ℝ → String) {cs : List Call} (hk : ∀ c ∈ cs, KeepsCons c) (b : Book) :
    (b.noteAll M fmt cs).cons = b.cons := by
  induction cs generalizing b with
  | nil => rfl
  | cons c cs ih =>
    have h1 : (b.note M fmt c).cons = b.cons := by
      have := hk c List.mem_cons_self
      cases c <;> simp only [Book.note, KeepsCons] at this ⊢
      · split_ifs <;> rfl
      · split_ifs <;> rfl
      · split
        · rfl
        · split_ifs <;> rfl
      · split_ifs <;> rfl
      · split_ifs <;> rfl
    rw [Book.noteAll, List.foldl_cons]
    exact (ih (fun c hc => hk c (List.mem_cons_of_mem _ hc)) _).trans h1

/-- With the model algebra as the only constraint: a physical point `[x, u, x_dot, y]` is feasible in the scaled problem
exactly when `x_dot = f(x, u)`, `y = h(x, u)` and the residuals are zero. -/
theorem C75_feasible_model (h : Built M alg modelOf co s0) (fmt : ℝ → String) {cs : List Call} (hc : ∀ c ∈ cs, GoodCall M c)
    (hk : ∀ c ∈ cs, KeepsCons c) {x u xd y : List ℝ} (hx : x.length = M.nx) (hu : u.length = M.nu) (hxd : xd.length = M.nx)
    (hy : y.length = M.ny) :
    ∃ c, (s0.runAll fmt cs).prob.constraints (vdiv (x ++ u ++ (xd ++ y)) (s0.runAll fmt cs).prob.scales) = .ok c ∧
      ((∀ r ∈ c, r = 0) ↔ xd = M.f x u 0 ∧ y = M.h x u 0 ∧ ∀ r ∈ M.r x u 0, r = 0) := by
  have hv : (x ++ u ++ (xd ++ y)).length = M.numVar := by
    rw [ExplicitModel.numVar_eq]; simp [hx, hu, hxd, hy]; omega
  obtain ⟨c, h1, _, h3⟩ := C75_feasible h fmt hc hv
  refine ⟨c, h1, ?_⟩
  rw [h3, book, book_cons fmt hk]
  have ex : M.xOf (x ++ u ++ (xd ++ y)) = x := by simp [ExplicitModel.xOf, ← hx]
  have eu : M.uOf (x ++ u ++ (xd ++ y)) = u := by
    simp [ExplicitModel.uOf, ← hx, ← hu, List.take_append]
  have := flatImplicit_zero_iff h.good hv 0
  rw [ex, eu] at this
  simp only [Book.init, List.mem_singleton, forall_eq]
  rw [this]
  have hlf := h.good.lenF x u 0 hx hu
  constructor
  · rintro ⟨e, hr⟩
    have e' := List.append_cancel_left e
    obtain ⟨e1, e2⟩ := List.append_inj e' (hxd.trans hlf.symm)
    exact ⟨e1, e2, hr⟩
  · rintro ⟨e1, e2, hr⟩
    rw [← e1, ← e2]
    exact ⟨rfl, hr⟩

/-- Derivatives: after any history the Jacobian that the solver reads is the derivative of the constraints, and the
gradient (with at least one objective) that of the objective. -/
theorem C75_derivatives (h : Built M alg modelOf co s0) (fmt : ℝ → String) {cs : List Call} (hc : ∀ c ∈ cs, GoodCall M c)
    {z : List ℝ} (hz : z.length = M.numVar) :
    (∃ (F : List ℝ → List ℝ) (rows cols : List Nat) (vals : List ℝ),
      (∀ y, (s0.runAll fmt cs).prob.constraints y = .ok (F y)) ∧ (s0.runAll fmt cs).prob.jacobianstructure = .ok (rows, cols) ∧
      (s0.runAll fmt cs).prob.jacobian z = .ok vals ∧
      IsJacobianAt M.numVar (s0.runAll fmt cs).prob.numCon F z (assemble rows cols vals)) ∧
    ((book M fmt cs).objs ≠ [] → ∃ (f : List ℝ → ℝ) (g : List ℝ), (∀ y, (s0.runAll fmt cs).prob.objective y = .ok (f y)) ∧
      (s0.runAll fmt cs).prob.gradient z = .ok g ∧ g.length = M.numVar ∧ IsGradientAt M.numVar f z (fun j => g.getD j 0)) := by
  have r := h.represents fmt hc
  obtain ⟨rest, hhead⟩ := r.head
  have hne : (s0.runAll fmt cs).prob.cons ≠ [] := by rw [hhead]; simp
  refine ⟨?_, fun ho => ?_⟩
  · obtain ⟨F, rows, cols, vals, h1, h2, h3, _, _, _, _, h8⟩ := C13_jacobian r.reach hne z hz
    exact ⟨F, rows, cols, vals, h1, h2, h3, h8 trivial⟩
  · have hno : (s0.runAll fmt cs).prob.objs ≠ [] := by
      intro e; apply ho; rw [← r.objs, e]; rfl
    obtain ⟨f, g, h1, _, h3, h4, _, h6⟩ := C15_objective_and_gradient r.reach hno z hz
    exact ⟨f, g, h1, h3, h4, h6 trivial⟩

end Lumos.Solver
