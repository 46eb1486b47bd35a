import Verif.Ocp.BuildMore
/-!
# C47, C48: problems that meet the hypotheses
-/

namespace Lumos.Ocp

open Lumos DecVar DecVar.Layout NLP Bounds OCP

/-- On a fixed mesh, with a model whose Jacobian is constant, any sample point gives a complete structure. -/
theorem sample_of_constant {c : CondOCP} (h : c.Good) {ms : ℝ} (hf : c.o.fixedScale = some ms)
    (hj : ∀ v v' μ μ', c.u.jac v μ = c.u.jac v' μ') {x0 x : List ℝ} {J : Nat → Nat → ℝ} (hx : x.length = c.o.L.numDec)
    (hJ : c.bigJac x = .ok J) : J = c.sampled x0 := by
  have hm : ¬ "mesh_scale" ∈ c.o.L.globals := by rw [h.ocp.mesh, hf]; simp
  have hscale : ∀ y, c.o.scaleOf y = ms := fun y => by simp [scaleOf, hf]
  have e1 : ∀ y, c.contMat y = c.contMat x0 := by
    intro y
    unfold CondOCP.contMat
    congr 1
    simp [jacVals, hm, hscale]
  have e2 : ∀ y, c.algMat y = c.algMat x0 := by
    intro y
    unfold CondOCP.algMat
    congr 1
    unfold stageJacVals
    have : (fun (s : Nat) => c.u.jac (c.o.stageVars y s) (c.mesh.getD s 0 * c.o.scaleOf y))
        = fun (s : Nat) => c.u.jac (c.o.stageVars x0 s) (c.mesh.getD s 0 * c.o.scaleOf x0) := funext fun s => hj _ _ _ _
    rw [this]
  rw [CondOCP.bigJac_eq h hx] at hJ
  simp only [Except.ok.injEq] at hJ
  rw [← hJ]
  unfold CondOCP.bigMat CondOCP.sampled
  rw [e1, e2]

/-- One state `time` with `time_dot = u` and the output `p = 2 time`. -/
noncomputable def linModel : ExplicitModel :=
  { states := ["time"], inputs := ["u"], conOutputs := ["p"], residuals := []
    f := fun _ u _ => [u.getD 0 0]
    h := fun x _ _ => [2 * x.getD 0 0]
    r := fun _ _ _ => [] }

theorem linModel_good : linModel.Good :=
  ⟨by decide, by simp [linModel], by simp [linModel], by simp [linModel], fun _ _ _ _ _ => rfl, fun _ _ _ _ _ => rfl,
    fun _ _ _ _ _ => rfl⟩

/-- Its dense Jacobian. -/
noncomputable def linD (_ : List ℝ) (_ : ℝ) : Nat → Nat → ℝ
  | 0, 1 => 1
  | 0, 2 => -1
  | 1, 0 => 2
  | 1, 3 => -1
  | _, _ => 0

/-- Its dense Lagrangian Hessian. -/
noncomputable def linD2 (_ _ : List ℝ) (_ : ℝ) : Nat → Nat → ℝ := fun _ _ => 0

theorem linFlat (a b c d μ : ℝ) : linModel.flatImplicit [a, b, c, d] μ = [b - c, 2 * a - d] := by
  rw [ExplicitModel.flatImplicit_eq linModel_good rfl]
  simp [linModel, ExplicitModel.rhs, ExplicitModel.xOf, ExplicitModel.uOf, ExplicitModel.wOf, ExplicitModel.nx, ExplicitModel.nu]

theorem linDense : linModel.DenseJac linD := by
  intro v μ hv _ r hr j hj
  obtain ⟨a, b, c, d, rfl⟩ := ExplicitModel.four hv
  have hr : r < 2 := hr
  have hj : j < 4 := hj
  interval_cases r <;> interval_cases j <;>
    simp only [List.set_cons_zero, List.set_cons_succ, linFlat, List.getD_cons_zero, List.getD_cons_succ, linD]
  · exact hasDerivAt_const _ _
  · simpa using (hasDerivAt_id b).sub_const c
  · simpa using (hasDerivAt_id c).const_sub b
  · exact hasDerivAt_const _ _
  · simpa using ((hasDerivAt_id a).const_mul 2).sub_const d
  · exact hasDerivAt_const _ _
  · exact hasDerivAt_const _ _
  · simpa using (hasDerivAt_id d).const_sub (2 * a)

theorem linDense2 : linModel.DenseHess linD2 := by
  intro v lam μ hv hlam _
  have hl2 : lam.length = 2 := hlam
  obtain ⟨p, q, rfl⟩ : ∃ p q, lam = [p, q] := by
    match lam, hl2 with
    | [p, q], _ => exact ⟨p, q, rfl⟩
  refine IsHessianAt.of_global hv ⟨fun _ i => match i with
    | 0 => 2 * q
    | 1 => p
    | 2 => -p
    | _ => -q, ?_, ?_⟩
  · intro y hy j hj
    obtain ⟨a, b, c, d, rfl⟩ := ExplicitModel.four hy
    have hj : j < 4 := hj
    interval_cases j <;>
      simp only [List.set_cons_zero, List.set_cons_succ, linFlat, List.getD_cons_zero, List.getD_cons_succ, dot,
        List.zipWith_cons_cons, List.zipWith_nil_left, List.sum_cons, List.sum_nil, add_zero]
    · refine HasDerivAt.congr_deriv (((((hasDerivAt_id a).const_mul 2).sub_const d).const_mul q).const_add _) ?_
      simp; ring
    · refine HasDerivAt.congr_deriv ((((hasDerivAt_id b).sub_const c).const_mul p).add_const _) ?_
      simp
    · refine HasDerivAt.congr_deriv ((((hasDerivAt_id c).const_sub b).const_mul p).add_const _) ?_
      simp
    · refine HasDerivAt.congr_deriv ((((hasDerivAt_id d).const_sub (2 * a)).const_mul q).const_add _) ?_
      simp
  · intro i j _ _ _
    exact hasDerivAt_const _ _

/-- This model on a fixed mesh of three intervals of three stages. -/
noncomputable def linCond : CondOCP :=
  { o :=
      { L := ⟨[("states", ["time"]), ("inputs", ["u"]), ("states_dot", ["time"]), ("con_outputs", ["p"])],
          ["states", "inputs", "states_dot", "con_outputs"], [], 3, 3⟩
        A := fun l j => if j = 0 then -1 else if j = l + 1 then 1 else 0
        B := fun l j => if j = l + 1 then 1 else 0
        normLen := [1, 2, 3]
        fixedScale := some 2 }
    M := linModel
    u := linModel.unitOf linD linD2
    mesh := exMesh }

theorem linCond_good : linCond.Good where
  stage :=
    { made := ⟨by decide +kernel, by decide, by decide⟩
      fields := ⟨by decide, by decide +kernel⟩
      stages := (by decide)
      intervals := (by decide)
      states := (by decide)
      statesDot := (by decide)
      same := (by decide +kernel)
      pos := (by decide +kernel)
      lens := rfl
      mesh := (by simp [linCond])
      width := rfl
      points := rfl }
  model := linModel_good
  con := rfl
  numIn := rfl
  numCon := rfl
  groups := rfl
  sizeX := (by decide +kernel)
  sizeU := (by decide +kernel)
  sizeY := (by decide +kernel)

theorem unitOf_upper {M : ExplicitModel} (hM : M.Good) {D : List ℝ → ℝ → Nat → Nat → ℝ} {D2 : List ℝ → List ℝ → ℝ → Nat → Nat → ℝ}
    {A : List ℝ → ℝ → Prop} (hD : M.DenseJac D A) (hD2 : M.DenseHess D2 A) : UnitHess (M.unitOf D D2) Upper A := by
  obtain ⟨u, h1, _, _, _, _, h6⟩ := ExplicitModel.C44_sparsity_complete hM hD hD2
  rw [ExplicitModel.jaxUnit_eq hM] at h1
  cases h1
  intro μ
  refine ⟨(h6 μ).1, fun y lam hy hl => ⟨((h6 μ).2 y lam hy hl).1, fun hA => ?_⟩⟩
  exact IsHessianAt.weaken (((h6 μ).2 y lam hy hl).2 hA) fun _ _ _ => trivial

/-- A cyclic, condensed problem with bounds, a boundary condition and scales. -/
noncomputable def exSetup (condensed : Bool) : Setup :=
  { c := linCond, builtScale := some 2, laptime := false, isCyclic := true, nonCyclic := ["states.time"], isCondensed := condensed, sample := List.replicate 28 1
    bounds := [⟨"inputs", "u", .scalar 0, .scalar 5⟩], bcs := [⟨some 0, "states", "time", .single (.scalar 0)⟩]
    scales := [⟨"states", "time", 10⟩] }

theorem exSetup_bounds (condensed : Bool) : ∃ s t, Bounds.updateBounds linCond.o.L (Bounds.fresh linCond.o.L)
      ((exSetup condensed).allBounds ["time"]) = (s, none)
    ∧ Bounds.updateBCs linCond.o.L s (exSetup condensed).bcs = (t, none) := by
  have i1 : linCond.o.L.indexInDec "inputs" "u" none = .ok (.array [1, 5, 9, 13, 17, 21, 25]) := by decide +kernel
  have i2 : linCond.o.L.indexInDec "states_dot" "time" none = .ok (.array [2, 6, 10, 14, 18, 22, 26]) := by decide +kernel
  have i3 : linCond.o.L.indexInDec "states" "time" (some 0) = .ok (.scalar 0) := by decide +kernel
  have h05 : (0 : EReal) ≤ 5 := by norm_num
  refine ⟨_, _, Prod.ext rfl ?_, Prod.ext rfl ?_⟩ <;> cases condensed <;>
    simp [Bounds.updateBounds, Bounds.updateBCs, exSetup, Setup.allBounds, setAll, setVarBounds, BoundConfig.req, BC.req, i1, i2, i3, sizeOk,
      leAll, BArg.lb, BArg.ub, assign, applyBCs, Bounds.fresh, h05]

theorem exSetup_good (condensed : Bool) : (exSetup condensed).Good where
  cond := linCond_good
  jac := ExplicitModel.unitOf_jac linModel_good linDense _
  hess := unitOf_upper linModel_good linDense linDense2
  meshFree := Or.inl (by simp [exSetup, linCond])
  built := (by simp [exSetup, linCond])
  lap := (by simp [exSetup])
  last := (by simp [exSetup, linCond])
  time := fun _ => (by show "time" ∈ linCond.o.L.namesOf "states"; decide +kernel)
  dotless := fun _ => (by
    show (∀ n ∈ linCond.o.L.namesOf "states", Dotless n) ∧ ∀ n ∈ linCond.o.L.namesOf "inputs", Dotless n
    unfold Dotless
    decide +kernel)
  excluded := fun _ => ⟨by simp [exSetup], by
    intro v hv
    simp only [exSetup, List.mem_singleton] at hv
    subst hv
    exact Or.inl ⟨"time", by show "time" ∈ linCond.o.L.namesOf "states"; decide +kernel, by decide +kernel⟩⟩
  someCyclic := fun _ => Or.inr ⟨"u", by show "u" ∈ linCond.o.L.namesOf "inputs"; decide +kernel, by simp [exSetup]⟩
  sample := fun _ => ⟨rfl, fun x J hx _ hJ r p _ _ hne => by
    show linCond.sampled _ r p ≠ 0
    rw [← sample_of_constant linCond_good (ms := 2) rfl (fun _ _ _ _ => rfl) hx hJ]
    exact hne⟩
  known := (by
    intro c hc
    simp only [exSetup, List.mem_singleton] at hc
    subst hc
    exact Or.inl ⟨by show "states" ∈ linCond.o.L.groups; decide +kernel, by
      show "time" ∈ linCond.o.L.namesOf "states"; decide +kernel⟩)
  nonzero := (by
    intro c hc
    simp only [exSetup, List.mem_singleton] at hc
    subst hc
    norm_num)
  bounds := (by
    have e : (exSetup condensed).c.o.L.namesOf "states_dot" = ["time"] := rfl
    rw [e]
    exact exSetup_bounds condensed)

/-- A condensed and a lifted problem of 28 variables are built, with 3 * 2 + 7 + 1 and 7 * 2 + 3 * 2 + 1 constraints. -/
example : ∃ b b', (exSetup true).build = .ok b ∧ (exSetup false).build = .ok b' ∧ b.prob.numCon = 14 ∧ b'.prob.numCon = 21 := by
  obtain ⟨b, _, _, h1, _, _, h3, _⟩ := build_ok (exSetup_good true)
  obtain ⟨b', _, _, h1', _, _, h3', _⟩ := build_ok (exSetup_good false)
  refine ⟨b, b', h1, h1', ?_, ?_⟩
  · rw [numCon_of_sig, h3]; rfl
  · rw [numCon_of_sig, h3']; rfl

/-- A solution: unit input, `time` grows by the length of each interval. -/
noncomputable def exSol : List ℝ :=
  [0, 1, 1, 0, 2, 1, 1, 4, 2, 1, 1, 4, 6, 1, 1, 12, 6, 1, 1, 12, 12, 1, 1, 24, 12, 1, 1, 24]

/-- The lifted problem has a solution, so the constraints of the built problem can be met. -/
example : IsSolution (exSetup false) exSol := by
  have hN : linCond.o.L.numStages = 7 := rfl
  have hV : linCond.o.L.numVarStage = 4 := rfl
  have hI : linCond.o.L.numIntervals = 3 := rfl
  have hS : linCond.o.L.nspi = 3 := rfl
  have hK : linCond.o.numStates = 1 := rfl
  have hsc : linCond.o.scaleOf exSol = 2 := rfl
  have hu : linCond.u.con = linModel.flatImplicit := rfl
  have hnl : linCond.o.normLen = [1, 2, 3] := rfl
  have h1 : ∀ v ∈ linCond.o.stageFun linCond.u linCond.mesh exSol, v = 0 := by
    unfold stageFun stageVars
    rw [hN, hV, hu]
    simp only [List.range, List.range.loop, List.flatMap_cons, List.flatMap_nil, exSol, List.drop_succ_cons, List.drop_zero,
      List.take_succ_cons, List.take_zero, linFlat, Nat.reduceMul, zero_mul]
    norm_num
  have h2 : ∀ v ∈ linCond.o.contFun exSol, v = 0 := by
    intro v hv
    unfold contFun at hv
    obtain ⟨t, ht, rfl⟩ := List.mem_map.mp hv
    obtain ⟨i, l, k, rfl, hi, hl, hk⟩ := mem_multi3 ht
    rw [hI] at hi
    rw [hS] at hl
    rw [hK] at hk
    simp only [List.getD_cons_zero, List.getD_cons_succ]
    unfold defect posS posD
    simp only [CondOCP.posG_states linCond_good, CondOCP.posG_dot linCond_good, hV, hS, hsc, hnl, Finset.sum_range_succ,
      Finset.sum_range_zero]
    have hnx : linCond.M.nx = 1 := rfl
    have hnu : linCond.M.nu = 1 := rfl
    rw [hnx, hnu]
    interval_cases i <;> interval_cases l <;> interval_cases k <;> norm_num [exSol, linCond]
  rw [isSolution_iff (exSetup_good false) rfl]
  refine ⟨h1, h2, fun hc => ?_⟩
  rw [cyclic_zero_iff (exSetup_good false) hc rfl]
  intro g n hg hn hx
  rcases hg with rfl | rfl
  · have hn' : n ∈ linCond.o.L.namesOf "states" := hn
    have : linCond.o.L.namesOf "states" = ["time"] := by decide +kernel
    rw [this, List.mem_singleton] at hn'
    subst hn'
    exact absurd (by simp [exSetup]) hx
  · have hn' : n ∈ linCond.o.L.namesOf "inputs" := hn
    have : linCond.o.L.namesOf "inputs" = ["u"] := by decide +kernel
    rw [this, List.mem_singleton] at hn'
    subst hn'
    have hk : ((exSetup false).c.o.L.namesOf "inputs")[0]? = some "u" := by
      show (linCond.o.L.namesOf "inputs")[0]? = some "u"
      decide +kernel
    rw [readAt_pos (exSetup_good false) rfl (group_mem (exSetup_good false) (by simp)) hk (by decide +kernel),
      readAt_pos (exSetup_good false) rfl (group_mem (exSetup_good false) (by simp)) hk (by decide +kernel)]
    have e1 : (exSetup false).c.o.posG "inputs" 0 0 = 1 := by decide +kernel
    have e2 : (exSetup false).c.o.posG "inputs" ((exSetup false).c.o.L.numStages - 1) 0 = 25 := by decide +kernel
    rw [e1, e2]
    rfl

end Lumos.Ocp
