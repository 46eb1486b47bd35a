import Verif.Ocp.BuildExample
/-!
# C47: a model that is not differentiable everywhere

`Setup.Good S D` asks for right derivatives of the model only at the variables in `D`; the derivatives of the built problem are then right at the points
whose variables are in `D` at every stage, and around it. Here is a model with the output `1 / time`, right where the time is not zero.
-/

namespace Lumos.Ocp

open Lumos DecVar DecVar.Layout NLP Bounds OCP

/-- For a condition on the variables of a stage that is open along every variable, a point is in the domain of the problem as soon as the condition
holds at every stage. -/
theorem Setup.dom_of_open {S : Setup} {E : List ℝ → Prop}
    (hE : ∀ v, v.length = S.c.o.L.numVarStage → E v → ∀ i < v.length, ∀ᶠ t in nhds (v.getD i 0), E (v.set i t)) {y : List ℝ}
    (hy : y.length = S.c.o.L.numDec)
    (h : ∀ s < S.c.o.L.numStages, E (S.c.o.stageVars y s)) : S.dom (fun v _ => E v) y := by
  refine ⟨h, fun j _ => ?_⟩
  have : ∀ s ∈ Finset.range S.c.o.L.numStages, ∀ᶠ t in nhds (y.getD j 0), E (S.c.o.stageVars (y.set j t) s) := by
    intro s hs
    have hs := Finset.mem_range.mp hs
    have hlen := length_stageVars hy hs
    simp only [stageVars_set]
    by_cases hin : s * S.c.o.L.numVarStage ≤ j ∧ j < s * S.c.o.L.numVarStage + S.c.o.L.numVarStage
    · simp only [if_pos hin]
      have e : (S.c.o.stageVars y s).getD (j - s * S.c.o.L.numVarStage) 0 = y.getD j 0 := by
        rw [getD_stageVars _ _ _ (by omega)]
        congr 1
        omega
      rw [← e]
      exact hE _ hlen (h s hs) _ (by omega)
    · simp only [if_neg hin]
      exact Filter.Eventually.of_forall fun _ => h s hs
  have h2 := (Filter.eventually_all_finset (Finset.range S.c.o.L.numStages)).mpr this
  filter_upwards [h2] with t ht s hs
  exact ht s (Finset.mem_range.mpr hs)

/-- One state `time` with `time_dot = u` and the output `p = 1 / time`. -/
noncomputable def invModel : ExplicitModel :=
  { states := ["time"], inputs := ["u"], conOutputs := ["p"], residuals := []
    f := fun _ u _ => [u.getD 0 0]
    h := fun x _ _ => [(x.getD 0 0)⁻¹]
    r := fun _ _ _ => [] }

theorem invModel_good : invModel.Good :=
  ⟨by decide, by simp [invModel], by simp [invModel], by simp [invModel], fun _ _ _ _ _ => rfl, fun _ _ _ _ _ => rfl,
    fun _ _ _ _ _ => rfl⟩

/-- Where it has derivatives. -/
def invDom (v : List ℝ) (_ : ℝ) : Prop := v.getD 0 0 ≠ 0

/-- Its dense Jacobian. -/
noncomputable def invD (v : List ℝ) (_ : ℝ) : Nat → Nat → ℝ
  | 0, 1 => 1
  | 0, 2 => -1
  | 1, 0 => -(v.getD 0 0 ^ 2)⁻¹
  | 1, 3 => -1
  | _, _ => 0

/-- Its dense Lagrangian Hessian. -/
noncomputable def invD2 (v l : List ℝ) (_ : ℝ) : Nat → Nat → ℝ
  | 0, 0 => l.getD 1 0 * (2 * (v.getD 0 0 ^ 3)⁻¹)
  | _, _ => 0

theorem invFlat (a b c d μ : ℝ) : invModel.flatImplicit [a, b, c, d] μ = [b - c, a⁻¹ - d] := by
  rw [ExplicitModel.flatImplicit_eq invModel_good rfl]
  simp [invModel, ExplicitModel.rhs, ExplicitModel.xOf, ExplicitModel.uOf, ExplicitModel.wOf, ExplicitModel.nx, ExplicitModel.nu]

theorem invDense : invModel.DenseJac invD invDom := by
  intro v μ hv hA r hr j hj
  obtain ⟨a, b, c, d, rfl⟩ := ExplicitModel.four hv
  have ha : a ≠ 0 := hA
  have hr : r < 2 := hr
  have hj : j < 4 := hj
  interval_cases r <;> interval_cases j <;>
    simp only [List.set_cons_zero, List.set_cons_succ, invFlat, List.getD_cons_zero, List.getD_cons_succ, invD]
  · exact hasDerivAt_const _ _
  · simpa using (hasDerivAt_id b).sub_const c
  · simpa using (hasDerivAt_id c).const_sub b
  · exact hasDerivAt_const _ _
  · simpa using (hasDerivAt_inv ha).sub_const d
  · exact hasDerivAt_const _ _
  · exact hasDerivAt_const _ _
  · simpa using (hasDerivAt_id d).const_sub a⁻¹

/-- The gradient of its Lagrangian. -/
noncomputable def invGrad (p q : ℝ) (y : List ℝ) : Nat → ℝ
  | 0 => q * -(y.getD 0 0 ^ 2)⁻¹
  | 1 => p
  | 2 => -p
  | _ => -q

theorem invGrad_right (p q : ℝ) {y : List ℝ} (hy : y.length = 4) (h0 : y.getD 0 0 ≠ 0) (μ : ℝ) :
    IsGradientAt invModel.numVar (fun z => dot [p, q] (invModel.flatImplicit z μ)) y (invGrad p q y) := by
  intro j hj
  obtain ⟨a, b, c, d, rfl⟩ := ExplicitModel.four hy
  have h0 : a ≠ 0 := h0
  have hj : j < 4 := hj
  interval_cases j <;>
    simp only [List.set_cons_zero, List.set_cons_succ, invFlat, List.getD_cons_zero, List.getD_cons_succ, dot, invGrad,
      List.zipWith_cons_cons, List.zipWith_nil_left, List.sum_cons, List.sum_nil, add_zero]
  · exact (((hasDerivAt_inv h0).sub_const d).const_mul q).const_add _
  · refine HasDerivAt.congr_deriv ((((hasDerivAt_id b).sub_const c).const_mul p).add_const _) ?_
    simp
  · refine HasDerivAt.congr_deriv ((((hasDerivAt_id c).const_sub b).const_mul p).add_const _) ?_
    simp
  · refine HasDerivAt.congr_deriv ((((hasDerivAt_id d).const_sub a⁻¹).const_mul q).const_add _) ?_
    simp

theorem invDom_open {v : List ℝ} {μ : ℝ} (h : invDom v μ) (i : Nat) (hi : i < v.length) : ∀ᶠ t in nhds (v.getD i 0), invDom (v.set i t) μ := by
  unfold invDom at h ⊢
  cases v with
  | nil => simp at hi
  | cons a l =>
    cases i with
    | zero => exact continuousAt_id.eventually_ne h
    | succ i => exact Filter.Eventually.of_forall fun _ => h

theorem invDense2 : invModel.DenseHess invD2 invDom := by
  intro v lam μ hv hlam hA
  have hl2 : lam.length = 2 := hlam
  have hv4 : v.length = 4 := hv
  obtain ⟨p, q, rfl⟩ : ∃ p q, lam = [p, q] := by
    match lam, hl2 with
    | [p, q], _ => exact ⟨p, q, rfl⟩
  refine ⟨invGrad p q, fun j hj => ?_, fun i j hi hj _ => ?_⟩
  · filter_upwards [invDom_open hA j (by omega)] with t ht
    exact invGrad_right p q (by rw [List.length_set]; exact hv4) ht μ
  · obtain ⟨a, b, c, d, rfl⟩ := ExplicitModel.four hv
    have ha : a ≠ 0 := hA
    have hi : i < 4 := hi
    have hj : j < 4 := hj
    interval_cases i <;> interval_cases j <;>
      simp only [List.set_cons_zero, List.set_cons_succ, List.getD_cons_zero, List.getD_cons_succ, invGrad, invD2] <;>
      try exact hasDerivAt_const _ _
    refine HasDerivAt.congr_deriv ((((hasDerivAt_pow 2 a).fun_inv (pow_ne_zero 2 ha)).fun_neg).const_mul q) ?_
    field_simp
    ring

/-- The model on the mesh of `linCond`. -/
noncomputable def invCond : CondOCP := { linCond with M := invModel, u := invModel.unitOf invD invD2 }

theorem invCond_good : invCond.Good where
  stage :=
    { made := linCond_good.stage.made
      fields := linCond_good.stage.fields
      stages := linCond_good.stage.stages
      intervals := linCond_good.stage.intervals
      states := linCond_good.stage.states
      statesDot := linCond_good.stage.statesDot
      same := linCond_good.stage.same
      pos := linCond_good.stage.pos
      lens := rfl
      mesh := (by simp [invCond, linCond])
      width := rfl
      points := rfl }
  model := invModel_good
  con := rfl
  numIn := rfl
  numCon := rfl
  groups := rfl
  sizeX := (by decide +kernel)
  sizeU := (by decide +kernel)
  sizeY := (by decide +kernel)

/-- Its lifted cyclic problem. -/
noncomputable def invSetup : Setup := { exSetup false with c := invCond }

theorem invSetup_good : invSetup.Good invDom where
  cond := invCond_good
  jac := ExplicitModel.unitOf_jac invModel_good invDense _
  hess := unitOf_upper invModel_good invDense invDense2
  meshFree := Or.inl (by simp [invSetup, invCond, linCond])
  built := (exSetup_good false).built
  lap := (by simp [invSetup, exSetup])
  last := (exSetup_good false).last
  time := (exSetup_good false).time
  dotless := (exSetup_good false).dotless
  excluded := (exSetup_good false).excluded
  someCyclic := (exSetup_good false).someCyclic
  sample := fun hc => absurd hc (by simp [invSetup, exSetup])
  known := (exSetup_good false).known
  nonzero := (exSetup_good false).nonzero
  bounds := (exSetup_good false).bounds

/-- The problem is built, and its derivatives are right at every point whose times are not zero. -/
example : ∃ b, invSetup.build = .ok b ∧ ∀ (z lam : List ℝ) (sigma : ℝ), z.length = 28 → lam.length = b.prob.numCon →
    (∀ s < 7, (vmul z b.prob.scales).getD (4 * s) 0 ≠ 0) →
    ∃ (F : List ℝ → List ℝ) (jr jc : List Nat) (jv : List ℝ), (∀ y, b.prob.constraints y = .ok (F y)) ∧
      b.prob.jacobianstructure = .ok (jr, jc) ∧ b.prob.jacobian z = .ok jv ∧
      IsJacobianAt 28 b.prob.numCon F z (assemble jr jc jv) := by
  obtain ⟨b, _, _, hb, _, hr, _⟩ := build_ok invSetup_good
  refine ⟨b, hb, fun z lam sigma hz hlam h0 => ?_⟩
  have hn : invSetup.c.o.L.numDec = 28 := by decide +kernel
  have hV : invSetup.c.o.L.numVarStage = 4 := rfl
  have hsl := hr.inv.scales.1
  have hD : invSetup.dom invDom (vmul z b.prob.scales) := by
    refine Setup.dom_of_open (E := fun v => v.getD 0 0 ≠ 0) (fun v _ hv i hi => invDom_open (μ := 0) hv i hi) ?_ fun s hs => ?_
    · rw [vmul, List.length_zipWith, hz, hsl, hn]; rfl
    · rw [getD_stageVars _ _ _ (by decide), hV, Nat.mul_comm]
      exact h0 s hs
  obtain ⟨F, f, jr, jc, _, _, jv, _, _, h1, _, h2, h3, _, _, h4, _⟩ := C47_derivatives invSetup_good hb (hz.trans hn.symm) hD lam hlam sigma
  rw [hn] at h4
  exact ⟨F, jr, jc, jv, h1, h2, h3, h4⟩

end Lumos.Ocp
