import Verif.Solver.Vars
/-!
# `ModelSolver`: what a history of calls leaves behind

The specification is a notebook (`Book`) that a user could keep by hand: for every variable its scale and its bounds,
and the list of objectives and constraints as functions of the physical variables. `represents_runAll` shows that the
solver object always agrees with the notebook.
-/

namespace Lumos.Solver

open Lumos Lumos.NLP Lumos.Ocp

/-! ## Specification -/

structure Book where
  scale : String × String → ℝ
  lo : String × String → EReal
  hi : String × String → EReal
  objs : List (String × (List ℝ → ℝ))
  cons : List (String × (List ℝ → List ℝ))

/-- A fresh notebook: scales 1, no bounds, no objective, one constraint: the model algebra. -/
noncomputable def Book.init (M : ExplicitModel) : Book :=
  { scale := fun _ => 1, lo := fun _ => ⊥, hi := fun _ => ⊤, objs := []
    cons := [("model_algebra", fun v => M.flatImplicit v 0)] }

open Classical in
/-- What the user notes down for a call. -/
noncomputable def Book.note (M : ExplicitModel) (fmt : ℝ → String) (b : Book) : Call → Book
  | .setBounds g n x =>
    if x.lo ≤ x.hi then { b with lo := fun p => if p = (g, n) then x.lo else b.lo p
                                 hi := fun p => if p = (g, n) then x.hi else b.hi p }
    else b
  | .setVarScale g n v =>
    if 0 < v ∧ g ∈ ["states", "inputs", "con_outputs"] then
      { b with scale := fun p => if p = (g, n) then v else b.scale p }
    else b
  | .addObjFromVar g n w =>
    match flatPos M g n with
    | none => b
    | some i =>
      if MS.objName fmt g n w ∈ b.objs.map Prod.fst then b
      else { b with objs := b.objs ++ [(MS.objName fmt g n w, fun v => w * v.getD i 0)] }
  | .addObjective name o => if name ∈ b.objs.map Prod.fst then b else { b with objs := b.objs ++ [(name, o.obj)] }
  | .deleteObjective name => { b with objs := b.objs.filter fun p => p.1 ≠ name }
  | .addConstraints name c =>
    if name ∈ b.cons.map Prod.fst ∨ c.numIn ≠ M.numVar then b else { b with cons := b.cons ++ [(name, c.con)] }
  | .deleteConstraints name => { b with cons := b.cons.filter fun p => p.1 ≠ name }
  | .setCons => b
  | .solve _ _ => if b.objs = [] then { b with objs := [("const_obj", fun _ => 0)] } else b

noncomputable def Book.noteAll (M : ExplicitModel) (fmt : ℝ → String) (b : Book) (cs : List Call) : Book :=
  cs.foldl (fun b c => b.note M fmt c) b

/-- What a caller must respect: added components are correct objects; the model algebra is not deleted; the group of a
variable is one of the four groups (a call with another group whose dotted name is unknown is also covered: it fails). -/
def GoodCall (M : ExplicitModel) : Call → Prop
  | .setBounds g n _ => g ∈ groupNames ∨ constructName g n ∉ inputNames M
  | .addObjFromVar g n _ => g ∈ groupNames ∨ constructName g n ∉ inputNames M
  | .addObjective _ o => ∃ s, GoodObj M.numVar s o
  | .addConstraints _ c => ∃ s, GoodCons c.numIn s c
  | .deleteConstraints name => name ≠ "model_algebra"
  | _ => True

/-- The casadi callbacks are the derivatives of the model algebra at mesh 0, with their sparsity structures. -/
def GoodAlg (M : ExplicitModel) (a : Alg) : Prop :=
  UserJac M.numVar M.numRes (fun x => M.flatImplicit x 0) a.jac a.jacStruct ∧
  UserHess M.numVar M.numRes (fun x => M.flatImplicit x 0) a.hess a.hessStruct Upper

/-! ## The invariant -/

/-- The constraint object of the model algebra under the scales `σ`. -/
noncomputable def algCons (M : ExplicitModel) (a : Alg) (s k : List ℝ) : Cons :=
  Cons.stateOf M.numVar M.numRes (fun x => M.flatImplicit x 0) a.jac a.hess a.jacStruct a.hessStruct s k

structure Represents (M : ExplicitModel) (a : Alg) (b : Book) (s : MS) : Prop where
  model : s.M = M
  names : s.names = inputNames M
  reach : Reachable M.numVar s.prob
  lb : s.lb = (MS.allVars M).map b.lo
  ub : s.ub = (MS.allVars M).map b.hi
  vs : s.varScales = scaleDict M b.scale
  pos : ∀ p, 0 < b.scale p
  dot : ∀ n, b.scale ("states_dot", n) = 1
  scales : s.prob.scales = decScales M b.scale
  objs : s.prob.objs.map (fun o => (o.1, o.2.obj)) = b.objs
  cons : s.prob.cons.map (fun c => (c.1, c.2.con)) = b.cons
  head : ∃ rest, s.prob.cons = ("model_algebra", algCons M a (decScales M b.scale) (algScales M b.scale)) :: rest

/-! ## Small facts about the components -/

theorem reachable_step {n : Nat} {p : Prob} (h : Reachable n p) (o : Op) (ho : GoodStep p o) : Reachable n (p.step o).1 := by
  obtain ⟨ops, h1, h2⟩ := h
  refine ⟨ops ++ [o], ?_, ?_⟩
  · have key : ∀ (q : Prob) (l : List Op), GoodHistory q l → GoodStep (q.runAll l) o → GoodHistory q (l ++ [o]) := by
      intro q l
      induction l generalizing q with
      | nil => intro _ h; exact ⟨h, trivial⟩
      | cons x l ih =>
        intro hg hs
        exact ⟨hg.1, ih _ hg.2 hs⟩
    exact key _ _ h1 (h2 ▸ ho)
  · rw [Prob.runAll, List.foldl_append, h2]; rfl

theorem updateJac_con {c c' : Cons} (h : c.updateJacScales = .ok c') : c'.con = c.con := by
  unfold Cons.updateJacScales at h
  cases h1 : gather c.conScales c.jacStruct.1 with
  | error e => rw [h1] at h; cases h
  | ok v =>
    cases h2 : gather c.inScales c.jacStruct.2 with
    | error e => rw [h1, h2] at h; cases h
    | ok w => rw [h1, h2] at h; cases h; rfl

theorem updateHess_con {c c' : Cons} (h : c.updateHessScales = .ok c') : c'.con = c.con := by
  unfold Cons.updateHessScales at h
  cases h1 : gather c.inScales c.hessStruct.1 with
  | error e => rw [h1] at h; cases h
  | ok v =>
    cases h2 : gather c.inScales c.hessStruct.2 with
    | error e => rw [h1, h2] at h; cases h
    | ok w => rw [h1, h2] at h; cases h; rfl

theorem setInput_con (c : Cons) (s : List ℝ) : (c.setInputScales s).1.con = c.con := by
  unfold Cons.setInputScales
  dsimp only
  split
  · rfl
  · next c2 h2 =>
    split
    · have := updateJac_con h2; exact this
    · next c3 h3 => have := updateJac_con h2; exact (updateHess_con h3).trans this

theorem setCon_con (c : Cons) (k : List ℝ) : (c.setConScales k).1.con = c.con := by
  unfold Cons.setConScales
  dsimp only
  split
  · rfl
  · next c2 h2 => have := updateJac_con h2; exact this

theorem setInput_obj (o : Obj) (s : List ℝ) : (o.setInputScales s).1.obj = o.obj := by
  unfold Obj.setInputScales
  dsimp only
  split
  · rfl
  · next c2 h =>
    unfold Obj.updateHessScales at h
    dsimp only at h
    cases h1 : gather s o.hessStruct.1 with
    | error e => rw [h1] at h; cases h
    | ok v =>
      cases h2 : gather s o.hessStruct.2 with
      | error e => rw [h1, h2] at h; cases h
      | ok w => rw [h1, h2] at h; cases h; rfl

theorem keys_map {α β : Type} (d : List (String × α)) (f : α → β) :
    (d.map fun o => (o.1, f o.2)).map Prod.fst = d.map Prod.fst := by
  simp [Function.comp_def]

theorem filter_map_keys {α β : Type} (d : List (String × α)) (f : α → β) (name : String) :
    (dropKey d name).map (fun o => (o.1, f o.2)) = (d.map fun o => (o.1, f o.2)).filter (fun p => p.1 ≠ name) := by
  induction d with
  | nil => rfl
  | cons a l ih =>
    unfold dropKey at ih ⊢
    by_cases h : a.1 = name
    · simp [h] at ih ⊢; exact ih
    · simp [h] at ih ⊢; exact ih

theorem dropKey_of_not_mem {α : Type} (d : List (String × α)) (name : String) (h : name ∉ d.map Prod.fst) :
    dropKey d name = d := by
  unfold dropKey
  rw [List.filter_eq_self]
  intro a ha
  have : a.1 ≠ name := fun e => h (e ▸ List.mem_map_of_mem ha)
  simpa using this

theorem decScales_good (M : ExplicitModel) {σ : String × String → ℝ} (h : ∀ p, 0 < σ p) :
    (decScales M σ).length = M.numVar ∧ ∀ a ∈ decScales M σ, a ≠ 0 := by
  refine ⟨by simp [decScales, length_allVars], fun a ha => ?_⟩
  obtain ⟨p, _, rfl⟩ := List.mem_map.1 ha
  exact (h p).ne'

theorem algScales_good (M : ExplicitModel) {σ : String × String → ℝ} (h : ∀ p, 0 < σ p) :
    (algScales M σ).length = M.numRes ∧ ∀ a ∈ algScales M σ, 0 < a := by
  refine ⟨by simp [algScales, ExplicitModel.numRes, ExplicitModel.nx, ExplicitModel.ny]; omega, fun a ha => ?_⟩
  simp only [algScales, List.mem_append, List.mem_map, List.mem_replicate] at ha
  rcases ha with (⟨n, _, rfl⟩ | ⟨n, _, rfl⟩) | ⟨_, rfl⟩
  · exact h _
  · exact h _
  · exact one_pos

theorem map_set_allVars {M : ExplicitModel} (hM : M.Good) {α : Type} (f : String × String → α) (p : String × String)
    (v : α) :
    ((MS.allVars M).map f).set ((MS.allVars M).idxOf p) v = (MS.allVars M).map (fun q => if q = p then v else f q) := by
  apply List.ext_getElem (by simp)
  intro i h1 h2
  have hi : i < (MS.allVars M).length := by simpa using h2
  rw [List.getElem_set]
  simp only [List.getElem_map]
  by_cases h : (MS.allVars M).idxOf p = i
  · subst h
    simp
  · rw [if_neg h, if_neg]
    intro e
    exact h (e ▸ (nodup_allVars hM).idxOf_getElem i hi)

theorem map_miss_allVars {M : ExplicitModel} {α : Type} (f : String × String → α) (p : String × String)
    (hp : p ∉ MS.allVars M) (v : α) :
    (MS.allVars M).map f = (MS.allVars M).map (fun q => if q = p then v else f q) := by
  apply List.map_congr_left
  intro q hq
  rw [if_neg]
  rintro rfl
  exact hp hq

/-! ## Rescaling -/

theorem updateProblemScales_eq {M : ExplicitModel} {a : Alg} (hM : M.Good) (ha : GoodAlg M a) {s : MS} (hsM : s.M = M)
    {σ : String × String → ℝ} (hv : s.varScales = scaleDict M σ) (hσ : ∀ p, 0 < σ p) (hr : Reachable M.numVar s.prob)
    {so ko : List ℝ} (hso : so.length = M.numVar) (hko : ko.length = M.numRes)
    {rest : List (String × Cons)} (hh : s.prob.cons = ("model_algebra", algCons M a so ko) :: rest) :
    ∃ p, s.updateProblemScales = ({ s with prob := p }, none) ∧ Reachable M.numVar p ∧ p.scales = decScales M σ ∧
      p.objs.map (fun o => (o.1, o.2.obj)) = s.prob.objs.map (fun o => (o.1, o.2.obj)) ∧
      p.cons.map (fun c => (c.1, c.2.con)) = s.prob.cons.map (fun c => (c.1, c.2.con)) ∧
      ∃ rest', p.cons = ("model_algebra", algCons M a (decScales M σ) (algScales M σ)) :: rest' := by
  obtain ⟨kl, kp⟩ := algScales_good M hσ
  have kne : ∀ x ∈ algScales M σ, x ≠ 0 := fun x hx => (kp x hx).ne'
  have inv := hr.inv
  have nd := inv.consNodup
  -- the constraint scales
  have gs : GoodStep s.prob (.setConScales "model_algebra" (algScales M σ)) := by
    intro c hc
    rw [hh] at hc nd
    rcases List.mem_cons.1 hc with e | hc
    · cases e
      exact ⟨kl, kne⟩
    · exfalso
      rw [List.map_cons, List.nodup_cons] at nd
      exact nd.1 (List.mem_map.2 ⟨_, hc, rfl⟩)
  have r1 := reachable_step hr _ gs
  have run1 : (algCons M a so ko).setConScales (algScales M σ) = (algCons M a so (algScales M σ), none) := by
    have := run_eq (con := fun x => M.flatImplicit x 0) (jac := a.jac) (hess := a.hess) ha.1.1 ha.2.1 hso hko
      (.setCon (algScales M σ)) ⟨kl, kne⟩
    simpa [Cons.run, lastInput, lastCon, algCons] using this
  have e1 : s.prob.setConScales "model_algebra" (algScales M σ) =
      ({ s.prob with cons := (("model_algebra", algCons M a so (algScales M σ)) ::
          rest.map (fun (d : String × Cons) => if d.1 == "model_algebra" then (d.1, algCons M a so (algScales M σ)) else d)) }, none) := by
    unfold Prob.setConScales
    rw [hh]
    simp only [List.find?_cons, beq_self_eq_true, run1, List.map_cons, if_true]
  have restmap : rest.map (fun (d : String × Cons) => if d.1 == "model_algebra" then (d.1, algCons M a so (algScales M σ)) else d) = rest := by
    rw [hh, List.map_cons, List.nodup_cons] at nd
    conv_rhs => rw [← List.map_id rest]
    apply List.map_congr_left
    intro d hd
    rw [if_neg]
    · rfl
    · intro e
      have : d.1 = "model_algebra" := by simpa using e
      exact nd.1 (List.mem_map.2 ⟨d, hd, this⟩)
  rw [restmap] at e1
  -- the decision-variable scales
  obtain ⟨dl, dne⟩ := decScales_good M hσ
  rw [show (s.prob.step (.setConScales "model_algebra" (algScales M σ))).1
    = (s.prob.setConScales "model_algebra" (algScales M σ)).1 from rfl, e1] at r1
  set p1 : Prob := { s.prob with cons := ("model_algebra", algCons M a so (algScales M σ)) :: rest } with hp1
  have gs2 : GoodStep p1 (.setScales (decScales M σ)) := ⟨by rw [dl]; exact r1.inv.dec.symm, dne⟩
  have r2 := reachable_step r1 _ gs2
  have i1 := r1.inv
  obtain ⟨o1, -, -, o4⟩ := applyAll_good (fun o : Obj => o.setInputScales (decScales M σ)) (GoodObj M.numVar p1.scales)
    (GoodObj M.numVar (decScales M σ)) (fun o ho => ho.setInput ⟨dl, dne⟩) p1.objs i1.objs
  obtain ⟨c1, -, -, c4⟩ := applyAll_good (fun c : Cons => c.setInputScales (decScales M σ)) (GoodCons M.numVar p1.scales)
    (GoodCons M.numVar (decScales M σ)) (fun c hc => ⟨(hc.setInput ⟨dl, dne⟩).1, (hc.setInput ⟨dl, dne⟩).2.1⟩) p1.cons i1.cons
  have e2 : p1.setScales (decScales M σ) =
      ({ p1 with scales := decScales M σ
                 objs := p1.objs.map (fun o => (o.1, (o.2.setInputScales (decScales M σ)).1))
                 cons := p1.cons.map (fun c => (c.1, (c.2.setInputScales (decScales M σ)).1)) }, none) := by
    unfold Prob.setScales
    dsimp only
    rw [o1, o4, c4]
    dsimp only
    rw [← c4, c1]
  have run2 : (algCons M a so (algScales M σ)).setInputScales (decScales M σ)
      = (algCons M a (decScales M σ) (algScales M σ), none) := by
    have := run_eq (con := fun x => M.flatImplicit x 0) (jac := a.jac) (hess := a.hess) ha.1.1 ha.2.1 hso kl
      (.setInput (decScales M σ)) ⟨dl, dne⟩
    simpa [Cons.run, lastInput, lastCon, algCons] using this
  refine ⟨(p1.setScales (decScales M σ)).1, ?_, r2, ?_, ?_, ?_, ?_⟩
  · unfold MS.updateProblemScales
    rw [algebraScales_eq (σ := σ) (by rw [hsM]; exact hv), newScales_eq (σ := σ) (by rw [hsM]; exact hv) (by rw [hsM]; exact hM)
      (by rw [hsM]; exact inv.scales.1), hsM]
    dsimp only
    rw [e1]
    dsimp only
    rw [e2]
  · rw [e2]
  · rw [e2]
    simp only [List.map_map]
    apply List.map_congr_left
    intro o _
    simp [setInput_obj]
  · rw [e2, hh]
    simp only [List.map_map, hp1, List.map_cons, run2, Function.comp_def, setInput_con]
    rfl
  · refine ⟨rest.map (fun c => (c.1, (c.2.setInputScales (decScales M σ)).1)), ?_⟩
    rw [e2]
    simp only [hp1, List.map_cons, run2]

/-! ## The objective made from a variable -/

theorem varObj_make {n i : Nat} (hi : i < n) (w : ℝ) :
    ∃ o, Obj.make n (fun x => w * x.getD i 0) (fun _ => (List.replicate n 0).set i w) (fun _ => []) (some ([], [])) = .ok o ∧
      GoodObj n (List.replicate n 1) o ∧ o.obj = fun x => w * x.getD i 0 := by
  have hs : StructIn (declared (some (([] : List Nat), ([] : List Nat))) n n) n n := by
    simp [declared, StructIn]
  have grad : ∀ y : List ℝ, y.length = n → IsGradientAt n (fun x => w * x.getD i 0) y
      (fun j => ((List.replicate n (0 : ℝ)).set i w).getD j 0) := by
    intro y hy j hj
    by_cases hij : i = j
    · subst hij
      have e1 : (fun t => w * (y.set i t).getD i 0) = fun t => w * t := by
        funext t
        simp [List.getD_eq_getElem?_getD, hy, hi]
      rw [e1]
      have e2 : ((List.replicate n (0 : ℝ)).set i w).getD i 0 = w := by simp [List.getD_eq_getElem?_getD, hi]
      dsimp only
      rw [e2]
      simpa using (hasDerivAt_id (y.getD i 0)).const_mul w
    · have e1 : (fun t => w * (y.set j t).getD i 0) = fun _ => w * y.getD i 0 := by
        funext t
        simp [List.getD_eq_getElem?_getD, Ne.symm hij]
      rw [e1]
      have e2 : ((List.replicate n (0 : ℝ)).set i w).getD j 0 = 0 := by simp [List.getD_eq_getElem?_getD, hij, hj]
      dsimp only
      rw [e2]
      exact hasDerivAt_const _ _
  have hu : UserObj n (fun x => w * x.getD i 0) (fun _ => (List.replicate n 0).set i w) (fun _ => [])
      (declared (some (([] : List Nat), ([] : List Nat))) n n) Upper := by
    refine ⟨hs, fun y hy => ?_⟩
    refine ⟨by simp, fun _ => grad y hy, rfl, fun _ => IsHessianAt.of_global hy
      ⟨(fun _ j => ((List.replicate n (0 : ℝ)).set i w).getD j 0), grad, fun k j _ _ _ => ?_⟩⟩
    simp [declared, assemble]
    exact hasDerivAt_const _ _
  have hmk := obj_make_eq (f := fun x => w * x.getD i 0) (g := fun _ => (List.replicate n 0).set i w) (h := fun _ => []) hs
  exact ⟨_, hmk, goodObj_of_make hmk hu, rfl⟩

/-! ## Every call keeps the agreement -/

theorem solvedProb_fields {n : Nat} {p : Prob} (h : Reachable n p) : Reachable n (solvedProb p) ∧
    (solvedProb p).cons = p.cons ∧ (solvedProb p).scales = p.scales ∧
    (solvedProb p).objs.map (fun o => (o.1, o.2.obj))
      = if p.objs = [] then [("const_obj", fun _ => 0)] else p.objs.map (fun o => (o.1, o.2.obj)) := by
  unfold solvedProb
  cases ho : p.objs with
  | cons a l =>
    simp only [List.isEmpty_cons, Bool.false_eq_true, if_false]
    exact ⟨h, trivial, trivial, by rw [ho]; simp⟩
  | nil =>
    have hg : GoodStep p (.addObj "const_obj" (constObj p.numDec)) := ⟨_, constObj_good _⟩
    have hr := reachable_step h _ hg
    simp only [List.isEmpty_nil, if_true]
    refine ⟨hr, ?_⟩
    have hs := (constObj_good (D := fun _ => True) p.numDec).setInput (s' := p.scales)
      (by have := h.inv.scales; have := h.inv.dec; exact ⟨by omega, h.inv.scales.2⟩)
    have hobj := setInput_obj (constObj p.numDec) p.scales
    unfold Prob.addObjective
    rw [ho]
    simp only [hasKey, List.any_nil, Bool.false_eq_true, if_false]
    rcases hc : (constObj p.numDec).setInputScales p.scales with ⟨o', e⟩
    rw [hc] at hs hobj
    cases e with
    | some e => exact absurd hs.1 (by simp)
    | none =>
      refine ⟨rfl, rfl, ?_⟩
      simp only [List.nil_append, List.map_cons, List.map_nil]
      rw [hobj]
      rfl

theorem addObjective_fields {n : Nat} {p : Prob} (h : Reachable n p) {s0 : List ℝ} {o : Obj} (hg : GoodObj n s0 o)
    (name : String) :
    (name ∈ p.objs.map Prod.fst → p.addObjective name o = (p, some .nameError)) ∧
    (name ∉ p.objs.map Prod.fst → ∃ q, p.addObjective name o = (q, none) ∧ Reachable n q ∧ q.cons = p.cons ∧
      q.scales = p.scales ∧ q.objs.map (fun o => (o.1, o.2.obj)) = p.objs.map (fun o => (o.1, o.2.obj)) ++ [(name, o.obj)]) := by
  refine ⟨C16_duplicate_objective p name o, fun hn => ?_⟩
  have hr := reachable_step h (.addObj name o) ⟨s0, by rw [h.inv.dec]; exact hg⟩
  have hs := hg.setInput (s' := p.scales) h.inv.scales
  have hobj := setInput_obj o p.scales
  have hk : ¬ hasKey p.objs name = true := by rw [hasKey_iff]; exact hn
  refine ⟨(p.addObjective name o).1, ?_, hr, ?_⟩
  all_goals
    unfold Prob.addObjective
    rw [if_neg hk]
    rcases hc : o.setInputScales p.scales with ⟨o', e⟩
    rw [hc] at hs hobj
    cases e with
    | some e => exact absurd hs.1 (by simp)
    | none => first | rfl | exact ⟨rfl, rfl, by simp [← hobj]⟩

theorem addConstraints_fields {n : Nat} {p : Prob} (h : Reachable n p) {s0 : List ℝ} {c : Cons} (hg : GoodCons c.numIn s0 c)
    (name : String) :
    (name ∈ p.cons.map Prod.fst ∨ c.numIn ≠ n → p.addConstraints name c = (p, some .valueError)) ∧
    (¬ (name ∈ p.cons.map Prod.fst ∨ c.numIn ≠ n) → ∃ q c', p.addConstraints name c = (q, none) ∧ Reachable n q ∧
      q.cons = p.cons ++ [(name, c')] ∧ c'.con = c.con ∧ q.scales = p.scales ∧ q.objs = p.objs) := by
  refine ⟨fun hd => ?_, fun hn => ?_⟩
  · rcases hd with hd | hd
    · exact C16_duplicate_constraint p name c hd
    · exact C16_wrong_num_in p name c (by rw [h.inv.dec]; exact hd)
  · push Not at hn
    have hr := reachable_step h (.addCon name c) ⟨s0, hg⟩
    have hg' : GoodCons n s0 c := hn.2 ▸ hg
    obtain ⟨c', h1, h2, h3⟩ := C16_accepted h name c hg' hn.1
    have hcon := setInput_con c p.scales
    refine ⟨(p.addConstraints name c).1, (c.setInputScales p.scales).1, by rw [h3], hr, ?_, hcon, ?_⟩
    · unfold Prob.addConstraints
      rw [if_neg (by rw [hasKey_iff]; exact hn.1), if_neg (by rw [h.inv.dec]; simpa using hn.2)]
      have hs := hg'.setInput (s' := p.scales) h.inv.scales
      rcases hc : c.setInputScales p.scales with ⟨c2, e⟩
      rw [hc] at hs
      cases e with
      | some e => exact absurd hs.1 (by simp)
      | none => rfl
    · rw [h3]; exact ⟨rfl, rfl⟩

theorem represents_step {M : ExplicitModel} {a : Alg} (hM : M.Good) (ha : GoodAlg M a) (fmt : ℝ → String) {b : Book} {s : MS}
    (h : Represents M a b s) (c : Call) (hc : GoodCall M c) : Represents M a (b.note M fmt c) (s.step fmt c).1 := by
  have hnm : s.names = inputNames s.M := by rw [h.model]; exact h.names
  cases c with
  | setBounds g n x =>
    simp only [MS.step, MS.setBounds, Book.note]
    by_cases hm : (g, n) ∈ MS.allVars M
    · rw [getVarIdx_eq hnm (by rw [h.model]; exact flatPos_of_mem hm)]
      dsimp only
      by_cases hx : x.lo ≤ x.hi
      · rw [if_pos hx, if_pos hx]
        exact { h with
          lb := by dsimp only; rw [h.lb, map_set_allVars hM]
          ub := by dsimp only; rw [h.ub, map_set_allVars hM] }
      · rw [if_neg hx, if_neg hx]
        exact h
    · have herr : s.getVarIdx g n = .error .keyError := by
        rcases hc with hg | hn
        · exact getVarIdx_error hnm hg (by rw [h.model]; exact flatPos_none hm)
        · unfold MS.getVarIdx
          rw [if_neg (by rw [h.names]; exact hn)]
      rw [herr]
      dsimp only
      by_cases hx : x.lo ≤ x.hi
      · rw [if_pos hx]
        exact { h with
          lb := by dsimp only; rw [h.lb]; exact map_miss_allVars _ _ hm _
          ub := by dsimp only; rw [h.ub]; exact map_miss_allVars _ _ hm _ }
      · rw [if_neg hx]
        exact h
  | setVarScale g n v =>
    simp only [MS.step, MS.setVarScale, Book.note]
    by_cases hv : 0 < v
    swap
    · rw [if_pos hv, if_neg (fun hh => hv hh.1)]
      exact h
    by_cases hg : g ∈ MS.allowedGroups
    swap
    · rw [if_neg (not_not.2 hv), if_pos hg, if_neg (fun hh => hg hh.2)]
      exact h
    rw [if_neg (not_not.2 hv), if_neg (not_not.2 hg), if_pos ⟨hv, hg⟩]
    have hgn : g ∈ groupNames := by
      simp only [MS.allowedGroups, List.mem_cons, List.not_mem_nil, or_false] at hg
      rcases hg with rfl | rfl | rfl <;> simp [groupNames]
    have hgd : g ≠ "states_dot" := by
      rintro rfl
      simp [MS.allowedGroups] at hg
    have hσ : ∀ p, 0 < (if p = (g, n) then v else b.scale p) := fun p => by
      split_ifs
      · exact hv
      · exact h.pos p
    have hdot : ∀ m, (if (("states_dot", m) : String × String) = (g, n) then v else b.scale ("states_dot", m)) = 1 := fun m => by
      rw [if_neg]
      · exact h.dot m
      · intro e
        exact hgd (Prod.mk.inj e).1.symm
    by_cases hm : (g, n) ∈ MS.allVars M
    · obtain ⟨d, d1, d2, d3⟩ := scaleDict_set hM b.scale hm v
      rw [h.vs, d1]
      dsimp only
      rw [if_neg (not_not.2 d2), d3]
      obtain ⟨rest, hr⟩ := h.head
      obtain ⟨p, q1, q2, q3, q4, q5, q6⟩ := updateProblemScales_eq (a := a) hM ha
        (s := { s with varScales := scaleDict M (fun p => if p = (g, n) then v else b.scale p) }) h.model rfl hσ h.reach
        (decScales_good M h.pos).1 (algScales_good M h.pos).1 hr
      rw [q1]
      exact { model := h.model, names := h.names, reach := q2, lb := h.lb, ub := h.ub, vs := rfl, pos := hσ, dot := hdot
              scales := q3, objs := q4.trans h.objs, cons := q5.trans h.cons, head := q6 }
    · obtain ⟨d, d1, d2⟩ := scaleDict_miss b.scale hgn hm
      rw [h.vs, d1]
      dsimp only
      rw [if_pos d2]
      have e1 : scaleDict M (fun p => if p = (g, n) then v else b.scale p) = scaleDict M b.scale := by
        unfold scaleDict
        apply List.map_congr_left
        intro x hx
        congr 1
        apply List.map_congr_left
        intro m hmm
        dsimp only
        rw [if_neg]
        intro e
        apply hm
        rw [← e, MS.allVars]
        exact List.mem_flatMap.2 ⟨x, hx, List.mem_map.2 ⟨m, hmm, rfl⟩⟩
      have e2 : decScales M (fun p => if p = (g, n) then v else b.scale p) = decScales M b.scale :=
        (map_miss_allVars b.scale _ hm v).symm
      have e3 : algScales M (fun p => if p = (g, n) then v else b.scale p) = algScales M b.scale := by
        have hne : ∀ p ∈ MS.allVars M, (if p = (g, n) then v else b.scale p) = b.scale p := fun p hp => by
          rw [if_neg]; rintro rfl; exact hm hp
        unfold algScales
        rw [List.map_congr_left (l := M.states) (fun m hmm => hne ("states", m) (by rw [allVars_eq]; simp [hmm])),
          List.map_congr_left (l := M.conOutputs) (fun m hmm => hne ("con_outputs", m) (by rw [allVars_eq]; simp [hmm]))]
      exact { h with pos := hσ, dot := hdot, vs := by dsimp only; rw [e1]; exact h.vs, scales := by dsimp only; rw [e2]; exact h.scales
                     head := by dsimp only; rw [e2, e3]; exact h.head }
  | addObjFromVar g n w =>
    simp only [MS.step, MS.addObjFromVar, Book.note]
    cases hf : flatPos M g n with
    | none =>
      have hm : (g, n) ∉ MS.allVars M := fun hm => by rw [flatPos_of_mem hm] at hf; cases hf
      have herr : s.getVarIdx g n = .error .keyError := by
        rcases hc with hg | hn
        · exact getVarIdx_error hnm hg (by rw [h.model]; exact hf)
        · unfold MS.getVarIdx
          rw [if_neg (by rw [h.names]; exact hn)]
      rw [herr]
      exact h
    | some i =>
      rw [getVarIdx_eq hnm (by rw [h.model]; exact hf)]
      have hi := flatPos_lt hf
      have hdec := h.reach.inv.dec
      dsimp only
      obtain ⟨o, ho, hgo, hobj⟩ := varObj_make (n := M.numVar) hi w
      rw [hdec, ho]
      dsimp only
      obtain ⟨a1, a2⟩ := addObjective_fields h.reach hgo (MS.objName fmt g n w)
      have hkeys : b.objs.map Prod.fst = s.prob.objs.map Prod.fst := by rw [← h.objs]; exact keys_map _ _
      rw [hkeys]
      by_cases hn : MS.objName fmt g n w ∈ s.prob.objs.map Prod.fst
      · rw [a1 hn, if_pos hn]
        exact h
      · obtain ⟨q, q1, q2, q3, q4, q5⟩ := a2 hn
        rw [q1, if_neg hn]
        dsimp only
        exact { h with reach := q2, scales := q4.trans h.scales, objs := by dsimp only; rw [q5, h.objs, hobj], cons := by dsimp only; rw [q3]; exact h.cons
                       head := by dsimp only; rw [q3]; exact h.head }
  | addObjective name o =>
    simp only [MS.step, Book.note]
    obtain ⟨s0, hgo⟩ := hc
    obtain ⟨a1, a2⟩ := addObjective_fields h.reach hgo name
    have hkeys : b.objs.map Prod.fst = s.prob.objs.map Prod.fst := by rw [← h.objs]; exact keys_map _ _
    rw [hkeys]
    by_cases hn : name ∈ s.prob.objs.map Prod.fst
    · rw [a1 hn, if_pos hn]
      exact h
    · obtain ⟨q, q1, q2, q3, q4, q5⟩ := a2 hn
      rw [q1, if_neg hn]
      exact { h with reach := q2, scales := q4.trans h.scales, objs := by dsimp only; rw [q5, h.objs], cons := by dsimp only; rw [q3]; exact h.cons
                     head := by dsimp only; rw [q3]; exact h.head }
  | deleteObjective name =>
    have hr := reachable_step h.reach (.delObj name) trivial
    simp only [MS.step, Book.note]
    simp only [Prob.step] at hr
    have hf : (s.prob.deleteObjective name).1 = { s.prob with objs := dropKey s.prob.objs name } := by
      unfold Prob.deleteObjective
      split_ifs with hk
      · rfl
      · rw [dropKey_of_not_mem]
        rw [← hasKey_iff]; exact hk
    rw [hf] at hr ⊢
    exact { h with reach := hr, objs := by dsimp only; rw [filter_map_keys, h.objs] }
  | addConstraints name c =>
    simp only [MS.step, Book.note]
    obtain ⟨s0, hgc⟩ := hc
    obtain ⟨a1, a2⟩ := addConstraints_fields h.reach hgc name
    have hkeys : b.cons.map Prod.fst = s.prob.cons.map Prod.fst := by rw [← h.cons]; exact keys_map _ _
    rw [hkeys]
    by_cases hn : name ∈ s.prob.cons.map Prod.fst ∨ c.numIn ≠ M.numVar
    · rw [a1 hn, if_pos hn]
      exact h
    · obtain ⟨q, c', q1, q2, q3, q4, q5, q6⟩ := a2 hn
      rw [q1, if_neg hn]
      obtain ⟨rest, hrest⟩ := h.head
      exact { h with reach := q2, scales := q5.trans h.scales, objs := by dsimp only; rw [q6]; exact h.objs
                     cons := by dsimp only; rw [q3, List.map_append, h.cons]; simp [q4]
                     head := ⟨rest ++ [(name, c')], by dsimp only; rw [q3, hrest]; rfl⟩ }
  | deleteConstraints name =>
    have hr := reachable_step h.reach (.delCon name) trivial
    simp only [MS.step, Book.note]
    simp only [Prob.step] at hr
    have hf : (s.prob.deleteConstraints name).1 = { s.prob with cons := dropKey s.prob.cons name } := by
      unfold Prob.deleteConstraints
      split_ifs with hk
      · rfl
      · rw [dropKey_of_not_mem]
        rw [← hasKey_iff]; exact hk
    rw [hf] at hr ⊢
    obtain ⟨rest, hrest⟩ := h.head
    exact { h with reach := hr, cons := by dsimp only; rw [filter_map_keys, h.cons]
                   head := ⟨dropKey rest name, by
                    dsimp only
                    rw [hrest]
                    have : ("model_algebra" != name) = true := by simpa using Ne.symm hc
                    simp [dropKey, this]⟩ }
  | setCons =>
    simp only [MS.step, Book.note, MS.setCons]
    exact { h with }
  | solve guess solver =>
    obtain ⟨f1, f2, f3, f4⟩ := solvedProb_fields h.reach
    have hfst : (s.solve guess solver).1 = { s with prob := solvedProb s.prob } := by
      unfold MS.solve
      split_ifs
      · rfl
      · cases guess with
        | none => rfl
        | some x0 =>
          obtain ⟨i, _, hs⟩ := solve_eq h.reach s.lb s.ub (some x0) [] (fun p i => solver p i s.cl s.cu)
          dsimp only
          rw [hs]
    simp only [MS.step, Book.note]
    rw [hfst]
    have hobj : b.objs = [] ↔ s.prob.objs = [] := by rw [← h.objs]; simp
    have hfin : (if b.objs = [] then { b with objs := [("const_obj", fun _ => 0)] } else b : Book)
        = { b with objs := if b.objs = [] then [("const_obj", fun _ => 0)] else b.objs } := by
      split_ifs <;> rfl
    rw [hfin]
    refine { h with reach := f1, scales := f3.trans h.scales, objs := ?_, cons := by dsimp only; rw [f2]; exact h.cons
                    head := by dsimp only; rw [f2]; exact h.head }
    dsimp only
    rw [f4, h.objs]
    by_cases hb : b.objs = []
    · rw [if_pos (hobj.1 hb), if_pos hb]
    · rw [if_neg (fun e => hb (hobj.2 e)), if_neg hb]

theorem represents_runAll {M : ExplicitModel} {a : Alg} (hM : M.Good) (ha : GoodAlg M a) (fmt : ℝ → String) {b : Book} {s : MS}
    (h : Represents M a b s) (cs : List Call) (hc : ∀ c ∈ cs, GoodCall M c) :
    Represents M a (b.noteAll M fmt cs) (s.runAll fmt cs) := by
  induction cs generalizing b s with
  | nil => exact h
  | cons c cs ih =>
    exact ih (represents_step hM ha fmt h c (hc c List.mem_cons_self)) (fun d hd => hc d (List.mem_cons_of_mem _ hd))

/-! ## The constructor -/

theorem make_represents {M : ExplicitModel} {alg : ExplicitModel → Alg} (hM : M.Good) (ha : GoodAlg M (alg M))
    (modelOf : List String → Py ExplicitModel) (co : Option (List String)) (hm : modelOf (co.getD []) = .ok M) :
    ∃ s, MS.make modelOf "casadi" co alg = .ok s ∧ Represents M (alg M) (Book.init M) s ∧
      s.cl = List.replicate s.prob.numCon 0 ∧ s.cu = List.replicate s.prob.numCon 0 := by
  unfold MS.make
  rw [if_neg (by simp), hm]
  dsimp only
  rw [if_neg (not_not.2 (nodup_inputNames hM)),
    make_eq (js := some (alg M).jacStruct) (hs := some (alg M).hessStruct) ha.1.1 ha.2.1]
  dsimp only
  have r0 : Reachable M.numVar (Prob.init M.numVar) := ⟨[], trivial, rfl⟩
  have hg : GoodCons M.numVar (List.replicate M.numVar 1) (algCons M (alg M) (List.replicate M.numVar 1) (List.replicate M.numRes 1)) :=
    ⟨_, _, _, _, _, _, rfl, ha.1, ha.2, ones_good _, ones_good _⟩
  have hgood : GoodStep (Prob.init M.numVar) (.addCon "model_algebra"
      (algCons M (alg M) (List.replicate M.numVar 1) (List.replicate M.numRes 1))) := ⟨_, hg⟩
  have r1 := reachable_step r0 _ hgood
  have hset : (algCons M (alg M) (List.replicate M.numVar 1) (List.replicate M.numRes 1)).setInputScales (List.replicate M.numVar 1)
      = (algCons M (alg M) (List.replicate M.numVar 1) (List.replicate M.numRes 1), none) := by
    have := run_eq (con := fun x => M.flatImplicit x 0) (jac := (alg M).jac) (hess := (alg M).hess) ha.1.1 ha.2.1
      (s := List.replicate M.numVar 1) (k := List.replicate M.numRes 1) (by simp) (by simp) (.setInput (List.replicate M.numVar 1)) (ones_good _)
    simpa [Cons.run, lastInput, lastCon, algCons] using this
  have hadd : (Prob.init M.numVar).addConstraints "model_algebra"
      (algCons M (alg M) (List.replicate M.numVar 1) (List.replicate M.numRes 1))
      = ({ Prob.init M.numVar with cons := [("model_algebra",
          algCons M (alg M) (List.replicate M.numVar 1) (List.replicate M.numRes 1))] }, none) := by
    unfold Prob.addConstraints
    simp only [Prob.init, hasKey, List.any_nil, Bool.false_eq_true, if_false, hset]
    rw [if_neg (by simp [algCons, Cons.stateOf])]
    rfl
  simp only [Prob.step] at r1
  rw [hadd] at r1
  rw [show Cons.stateOf M.numVar M.numRes (fun x => M.flatImplicit x 0) (alg M).jac (alg M).hess
      (declared (some (alg M).jacStruct) M.numRes M.numVar) (declared (some (alg M).hessStruct) M.numVar M.numVar)
      (List.replicate M.numVar 1) (List.replicate M.numRes 1)
      = algCons M (alg M) (List.replicate M.numVar 1) (List.replicate M.numRes 1) from rfl]
  rw [hadd]
  dsimp only
  have hone : ∀ p : String × String, (0 : ℝ) < (fun _ => 1) p := fun _ => one_pos
  unfold MS.setDefaultVarScales
  obtain ⟨p, q1, q2, q3, q4, q5, q6⟩ := updateProblemScales_eq (a := alg M) (σ := fun _ => 1) hM ha
    (s := { (MS.setCons ⟨M, inputNames M, { Prob.init M.numVar with cons := [("model_algebra",
          algCons M (alg M) (List.replicate M.numVar 1) (List.replicate M.numRes 1))] },
          List.replicate M.numVar ⊥, List.replicate M.numVar ⊤, [], [], []⟩)
      with varScales := scaleDict M (fun _ => 1) }) rfl rfl hone r1
    (so := List.replicate M.numVar 1) (ko := List.replicate M.numRes 1) (by simp) (by simp) rfl
  have q1' := q1
  simp only [scaleDict, MS.setCons] at q1'
  simp only [MS.setCons]
  rw [q1']
  have hnum : p.numCon = M.numRes := by
    obtain ⟨rest, hr⟩ := q6
    have hlen := congrArg List.length q5
    simp [hr, MS.setCons] at hlen
    subst hlen
    simp [Prob.numCon, hr, algCons, Cons.stateOf]
  refine ⟨_, rfl, ?_, ?_, ?_⟩
  · exact { model := rfl, names := rfl, reach := q2
            lb := by simp [Book.init, ← length_allVars]
            ub := by simp [Book.init, ← length_allVars]
            vs := rfl, pos := hone, dot := fun _ => rfl, scales := q3
            objs := q4, cons := q5, head := q6 }
  · dsimp only
    rw [hnum]; simp [Prob.numCon, algCons, Cons.stateOf]
  · dsimp only
    rw [hnum]; simp [Prob.numCon, algCons, Cons.stateOf]

end Lumos.Solver
