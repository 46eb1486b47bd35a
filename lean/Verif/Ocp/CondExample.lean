import Verif.Ocp.CondJac
/-!
# C29: the sampled structure, and examples of condensed problems
-/

namespace Lumos.Ocp.CondOCP

open Lumos DecVar DecVar.Layout Conv NLP OCP

variable {c : CondOCP}

theorem zip_keep (p : Nat → Nat → Bool) (a b : List Nat) :
    (keep (List.zipWith p a b) a).zip (keep (List.zipWith p a b) b) = (a.zip b).filter fun q => p q.1 q.2 := by
  induction a generalizing b with
  | nil => simp [keep]
  | cons x a ih =>
    cases b with
    | nil => simp [keep]
    | cons y b =>
      simp only [List.zipWith_cons_cons, keep_cons, List.zip_cons_cons, List.filter_cons]
      by_cases h : p x y = true
      · simp only [h, if_true, List.zip_cons_cons, ih]
      · have h' : p x y = false := by simpa using h
        simp only [h', Bool.false_eq_true, if_false, ih]

/-- The matrix whose non-zero pattern is sampled. -/
noncomputable def sampled (c : CondOCP) (x0 : List ℝ) : Nat → Nat → ℝ :=
  c.chainrule c.idxSd c.idxEq (c.contMat x0) (c.algMat x0)

/-- **C29 (sampled structure).** The structure computed at the sample point `x0` lists, once each and within the matrix,
exactly the positions of the non-zero entries of the chain-rule matrix at `x0`. -/
theorem C29_sampled_structure (h : c.Good) {x0 : List ℝ} (hx0 : x0.length = c.o.L.numDec) :
    ∃ S, c.jacStructureAt x0 = .ok S ∧ StructIn S c.numCon c.o.L.numDec ∧ (S.1.zip S.2).Nodup ∧
      ∀ r p, (r, p) ∈ S.1.zip S.2 ↔ r < c.numCon ∧ p < c.o.L.numDec ∧ c.sampled x0 r p ≠ 0 := by
  classical
  unfold jacStructureAt
  rw [algJac_eq h hx0, contJac_eq h hx0, groupIndices_dec h, xdotEqs_eq]
  simp only [bind, Except.bind, pure, Except.pure]
  refine ⟨_, rfl, ⟨?_, ?_, ?_⟩, ?_, ?_⟩
  · exact ExplicitModel.length_keep_eq _ _ _ (by rw [(length_dense _ _).1, (length_dense _ _).2])
  · intro r hr
    exact (structIn_dense _ _).2.1 r (ExplicitModel.mem_keep hr)
  · intro r hr
    exact (structIn_dense _ _).2.2 r (ExplicitModel.mem_keep hr)
  · rw [zip_keep]
    exact (ExplicitModel.nodup_zip_dense _ _).filter _
  · intro r p
    rw [zip_keep, List.mem_filter, ExplicitModel.mem_zip_dense]
    simp [sampled, and_assoc]

/-- **C29 (returned values).** The values returned for the sampled structure assemble to the derivative of the
condensed constraints at every point where no entry is non-zero that was zero at the sample point. -/
theorem C29_sampled_values {D : List ℝ → ℝ → Prop} (h : c.Good) (hu : UnitJac c.u D) (hm : MeshFree c.o c.u) {x0 x : List ℝ}
    (hx0 : x0.length = c.o.L.numDec) (hx : x.length = c.o.L.numDec) (hA : c.o.stageDom c.mesh D x) {J : Nat → Nat → ℝ} (hJ : c.bigJac x = .ok J)
    (hcov : ∀ r p, r < c.numCon → p < c.o.L.numDec → J r p ≠ 0 → c.sampled x0 r p ≠ 0) :
    ∃ (F : List ℝ → List ℝ) (S : List Nat × List Nat) (vals : List ℝ),
      (∀ y : List ℝ, y.length = c.o.L.numDec → c.constraints y = .ok (F y)) ∧ c.jacStructureAt x0 = .ok S ∧
      c.jacobian S x = .ok vals ∧ vals.length = S.1.length ∧
      IsJacobianAt c.o.L.numDec c.numCon F x (assemble S.1 S.2 vals) := by
  obtain ⟨S, h1, h2, h3, h4⟩ := C29_sampled_structure h hx0
  obtain ⟨vals, h5, h6, h7⟩ := C29_values_at_structure (c := c) S h2 h3 hJ (by
    intro r p hr hp hne
    exact (h4 r p).mpr ⟨hr, hp, hcov r p hr hp hne⟩)
  refine ⟨c.condFun, S, vals, fun y hy => constraints_eq h hy, h1, h5, h6, ?_⟩
  intro r hr p hp
  rw [h7 r p hr hp]
  have := bigJac_eq h hx
  rw [hJ] at this
  simp only [Except.ok.injEq] at this
  rw [this]
  exact bigMat_isJacobian h hu hm hx hA r hr p hp

/-! ## Examples -/

/-- The example model of C44 (`x_dot = x u`, `p = x²`) on three intervals of three stages with a free mesh scale. -/
noncomputable def exCond : CondOCP :=
  { o :=
      { L := ⟨[("states", ["x"]), ("inputs", ["u"]), ("states_dot", ["x"]), ("con_outputs", ["p"])],
          ["states", "inputs", "states_dot", "con_outputs"], ["mesh_scale"], 3, 3⟩
        A := fun l j => if j = 0 then -1 else if j = l + 1 then 1 else 0
        B := fun l j => if j = l + 1 then 1 else 0
        normLen := [1, 2, 3]
        fixedScale := none }
    M := ExplicitModel.exModel
    u := ExplicitModel.exModel.unitOf ExplicitModel.exD ExplicitModel.exD2
    mesh := exMesh }

theorem exCond_good : exCond.Good where
  stage :=
    { made := ⟨by decide +kernel, by decide, by decide⟩
      fields := ⟨by decide, by decide +kernel⟩
      stages := (by decide)
      intervals := (by decide)
      states := (by decide)
      statesDot := (by decide)
      same := (by decide +kernel)
      pos := (by decide +kernel)
      lens := rfl
      mesh := (by simp [exCond])
      width := rfl
      points := rfl }
  model := ExplicitModel.exModel_good
  con := rfl
  numIn := rfl
  numCon := rfl
  groups := rfl
  sizeX := (by decide +kernel)
  sizeU := (by decide +kernel)
  sizeY := (by decide +kernel)

theorem exCond_meshFree : MeshFree exCond.o exCond.u := Or.inr fun _ _ _ => rfl

/-- The hypotheses of C28 and C29 are met by a problem with 6 continuity and 7 algebraic rows. -/
example : exCond.Good ∧ UnitJac exCond.u ∧ MeshFree exCond.o exCond.u ∧ exCond.numCon = 13 ∧ exCond.o.L.numDec = 29 :=
  ⟨exCond_good, ExplicitModel.unitOf_jac ExplicitModel.exModel_good ExplicitModel.exDense _, exCond_meshFree, by decide +kernel,
    by decide +kernel⟩

/-! ## The structure may be sampled at an unlucky point -/

/-- One state, no inputs, `x_dot = x`, `p = max(x, 0)²` (continuously differentiable). -/
noncomputable def kinkModel : ExplicitModel :=
  { states := ["x"], inputs := [], conOutputs := ["p"], residuals := []
    f := fun x _ _ => [x.getD 0 0]
    h := fun x _ _ => [max (x.getD 0 0) 0 ^ 2]
    r := fun _ _ _ => [] }

theorem kinkModel_good : kinkModel.Good :=
  ⟨by decide, by simp [kinkModel], by simp [kinkModel], by simp [kinkModel], fun _ _ _ _ _ => rfl, fun _ _ _ _ _ => rfl,
    fun _ _ _ _ _ => rfl⟩

/-- Its dense Jacobian. -/
noncomputable def kinkD (v : List ℝ) (_ : ℝ) : Nat → Nat → ℝ
  | 0, 0 => 1
  | 0, 1 => -1
  | 1, 0 => 2 * max (v.getD 0 0) 0
  | 1, 2 => -1
  | _, _ => 0

theorem kinkFlat (a b d μ : ℝ) : kinkModel.flatImplicit [a, b, d] μ = [a - b, max a 0 ^ 2 - d] := by
  rw [ExplicitModel.flatImplicit_eq kinkModel_good rfl]
  simp [kinkModel, ExplicitModel.rhs, ExplicitModel.xOf, ExplicitModel.uOf, ExplicitModel.wOf, ExplicitModel.nx,
    ExplicitModel.nu]

theorem hasDerivAt_max_sq (a : ℝ) : HasDerivAt (fun t : ℝ => max t 0 ^ 2) (2 * max a 0) a := by
  rcases lt_trichotomy a 0 with h | h | h
  · rw [max_eq_right h.le, mul_zero]
    refine (hasDerivAt_const a (0 : ℝ)).congr_of_eventuallyEq ?_
    filter_upwards [Iio_mem_nhds h] with t ht
    rw [max_eq_right (le_of_lt ht)]; norm_num
  · subst h
    rw [max_self, mul_zero]
    have hO : (fun t : ℝ => max t 0 ^ 2) =O[nhds 0] fun t => ‖t - 0‖ ^ 2 := by
      refine Asymptotics.IsBigO.of_bound 1 (Filter.Eventually.of_forall fun t => ?_)
      rw [one_mul, sub_zero, norm_pow, norm_pow, norm_norm]
      refine pow_le_pow_left₀ (norm_nonneg _) ?_ 2
      rw [Real.norm_eq_abs, Real.norm_eq_abs, abs_of_nonneg (le_max_right _ _)]
      exact max_le (le_abs_self _) (abs_nonneg _)
    have := Asymptotics.IsBigO.hasFDerivAt (𝕜 := ℝ) hO (by norm_num)
    simpa using this.hasDerivAt
  · rw [max_eq_left h.le]
    have h1 : HasDerivAt (fun t : ℝ => t ^ 2) (2 * a) a := by
      have h2 := (hasDerivAt_id a).mul (hasDerivAt_id a)
      refine (h2.congr_deriv ?_).congr_of_eventuallyEq (Filter.Eventually.of_forall fun t => ?_)
      · simp only [id_eq]; ring
      · show t ^ 2 = t * t
        ring
    refine h1.congr_of_eventuallyEq ?_
    filter_upwards [Ioi_mem_nhds h] with t ht
    rw [max_eq_left (le_of_lt ht)]

theorem three {v : List ℝ} (hv : v.length = kinkModel.numVar) : ∃ a b d, v = [a, b, d] := by
  have : v.length = 3 := hv
  match v, this with
  | [a, b, d], _ => exact ⟨a, b, d, rfl⟩

theorem kinkDense : kinkModel.DenseJac kinkD := by
  intro v μ hv _ r hr j hj
  obtain ⟨a, b, d, rfl⟩ := three hv
  have hr : r < 2 := hr
  have hj : j < 3 := hj
  interval_cases r <;> interval_cases j <;>
    simp only [List.set_cons_zero, List.set_cons_succ, kinkFlat, List.getD_cons_zero, List.getD_cons_succ, kinkD]
  · simpa using (hasDerivAt_id a).sub_const b
  · simpa using (hasDerivAt_id b).const_sub a
  · exact hasDerivAt_const _ _
  · exact (hasDerivAt_max_sq a).sub_const d
  · exact hasDerivAt_const _ _
  · simpa using (hasDerivAt_id d).const_sub (max a 0 ^ 2)

/-- One interval of two stages on a fixed mesh. -/
noncomputable def exKink : CondOCP :=
  { o :=
      { L := ⟨[("states", ["x"]), ("inputs", []), ("states_dot", ["x"]), ("con_outputs", ["p"])],
          ["states", "inputs", "states_dot", "con_outputs"], [], 1, 2⟩
        A := fun _ j => if j = 0 then -1 else 1
        B := fun _ j => if j = 0 then 1 else 0
        normLen := [1]
        fixedScale := some 1 }
    M := kinkModel
    u := kinkModel.unitOf kinkD fun _ _ _ _ _ => 0
    mesh := [0, 1] }

theorem exKink_good : exKink.Good where
  stage :=
    { made := ⟨by decide +kernel, by decide, by decide⟩
      fields := ⟨by decide, by decide +kernel⟩
      stages := (by decide)
      intervals := (by decide)
      states := (by decide)
      statesDot := (by decide)
      same := (by decide +kernel)
      pos := (by decide +kernel)
      lens := rfl
      mesh := (by simp [exKink])
      width := rfl
      points := rfl }
  model := kinkModel_good
  con := rfl
  numIn := rfl
  numCon := rfl
  groups := rfl
  sizeX := (by decide +kernel)
  sizeU := (by decide +kernel)
  sizeY := (by decide +kernel)

theorem exKink_row (a0 d0 p0 a1 d1 p1 : ℝ) :
    (exKink.condFun [a0, d0, p0, a1, d1, p1]).getD 1 0 = max a0 0 ^ 2 - p0 := by
  have h1 := condFun_alg exKink_good (y := [a0, d0, p0, a1, d1, p1]) (by rfl) (s := 0) (q := 0)
    (by decide) (by decide)
  have e : exKink.numCont + (0 * (exKink.M.numRes - exKink.M.nx) + 0) = 1 := by decide +kernel
  rw [e] at h1
  rw [h1]
  have h2 := stageFun_at exKink_good.stage exKink_good.unitSize (x := [a0, d0, p0, a1, d1, p1]) (by rfl) (s := 0) (r := 1)
    (by decide) (by decide)
  have e2 : 0 * exKink.M.numRes + (exKink.M.nx + 0) = 0 * exKink.u.numCon + 1 := by decide
  rw [List.getD_eq_getElem?_getD, e2, h2]
  have e3 : exKink.o.stageVars [a0, d0, p0, a1, d1, p1] 0 = [a0, d0, p0] := rfl
  rw [e3, exKink_good.con]
  show ((kinkModel.flatImplicit _ _)[1]?).getD 0 = _
  rw [kinkFlat]
  rfl

/-- **C29 (finding).** The structure sampled at one point can miss an entry that is non-zero elsewhere, and the values
returned there do not make up the Jacobian: at `x0` the state is negative, at `x` it is positive. -/
theorem C29_sampling_can_miss :
    ∃ (c : CondOCP) (x0 x : List ℝ) (F : List ℝ → List ℝ) (S : List Nat × List Nat) (vals : List ℝ),
      c.Good ∧ UnitJac c.u ∧ MeshFree c.o c.u ∧ x0.length = c.o.L.numDec ∧ x.length = c.o.L.numDec ∧
      (∀ y : List ℝ, y.length = c.o.L.numDec → c.constraints y = .ok (F y)) ∧
      c.jacStructureAt x0 = .ok S ∧ c.jacobian S x = .ok vals ∧
      ¬ IsJacobianAt c.o.L.numDec c.numCon F x (assemble S.1 S.2 vals) := by
  have hu : UnitJac exKink.u := ExplicitModel.unitOf_jac kinkModel_good kinkDense _
  have hm : MeshFree exKink.o exKink.u := Or.inr fun _ _ _ => rfl
  have hx0 : [(-1 : ℝ), 1, 1, 1, 1, 1].length = exKink.o.L.numDec := rfl
  have hx : [(1 : ℝ), 1, 1, 1, 1, 1].length = exKink.o.L.numDec := rfl
  obtain ⟨S, h1, h2, h3, h4⟩ := C29_sampled_structure exKink_good hx0
  refine ⟨exKink, [-1, 1, 1, 1, 1, 1], [1, 1, 1, 1, 1, 1], exKink.condFun, S,
    List.zipWith (exKink.bigMat [1, 1, 1, 1, 1, 1]) S.1 S.2, exKink_good, hu, hm, hx0, hx,
    fun y hy => constraints_eq exKink_good hy, h1, ?_, ?_⟩
  · unfold jacobian
    rw [bigJac_eq exKink_good hx]
    rfl
  · intro hjac
    have h5 := hjac 1 (by decide +kernel) 0 (by decide +kernel)
    -- the position (1, 0) is not listed
    have h6 : exKink.sampled [-1, 1, 1, 1, 1, 1] 1 0 = 0 := by
      have hb := bigMat_isJacobian exKink_good hu hm hx0 (fun _ _ => trivial) 1 (by decide +kernel) 0 (by decide +kernel)
      have e : exKink.bigMat [-1, 1, 1, 1, 1, 1] = exKink.sampled [-1, 1, 1, 1, 1, 1] := by
        unfold bigMat sampled contArg
        rw [if_neg (by simp [exKink])]
      rw [e] at hb
      simp only [List.set_cons_zero, exKink_row, List.getD_cons_zero] at hb
      rw [hb.unique ((hasDerivAt_max_sq (-1)).sub_const 1)]
      norm_num
    rw [assemble_extract _ _ _ h2.1 h3, if_neg (fun hc => ((h4 1 0).mp hc).2.2 h6)] at h5
    simp only [List.set_cons_zero, exKink_row, List.getD_cons_zero] at h5
    have := h5.unique ((hasDerivAt_max_sq 1).sub_const 1)
    norm_num at this

end Lumos.Ocp.CondOCP
