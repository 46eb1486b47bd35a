import Verif.Ocp.StageModel
import Verif.Ocp.ContHess
import Verif.NLP.Props
/-!
# C31: stage constraints apply the unit problem stage by stage
-/

namespace Lumos.Ocp.OCP

open Lumos DecVar DecVar.Layout Conv NLP

variable {o : OCP} {u : UnitProblem} {mesh : List ℝ}

/-- The flat variables of stage `s`. -/
def stageVars (o : OCP) (x : List ℝ) (s : Nat) : List ℝ := (x.drop (s * o.L.numVarStage)).take o.L.numVarStage

/-- The unit problem's callables are derivatives of each other, at every mesh point (the specification a unit
problem meets when its derivatives come from automatic differentiation), for the variables and mesh points of `D`: everywhere by
default, or where the model is differentiable. -/
def UnitJac (u : UnitProblem) (D : List ℝ → ℝ → Prop := fun _ _ => True) : Prop :=
  ∀ μ, UserJac u.numIn u.numCon (fun v => u.con v μ) (fun v => u.jac v μ) u.jacStruct (fun v => D v μ)

/-- The same for second derivatives, on the index pairs in `P`. -/
def UnitHess (u : UnitProblem) (P : Nat → Nat → Prop) (D : List ℝ → ℝ → Prop := fun _ _ => True) : Prop :=
  ∀ μ, UserHess u.numIn u.numCon (fun v => u.con v μ) (fun v l => u.hess v l μ) u.hessStruct P (fun v => D v μ)

/-- The decision vectors whose variables are in `D` at every stage. -/
def stageDom (o : OCP) (mesh : List ℝ) (D : List ℝ → ℝ → Prop) (y : List ℝ) : Prop :=
  ∀ s, s < o.L.numStages → D (o.stageVars y s) (mesh.getD s 0 * o.scaleOf y)

/-- A property of decision vectors that holds at `y` and, along every coordinate, around it. -/
def nearDom (n : Nat) (A : List ℝ → Prop) (y : List ℝ) : Prop :=
  A y ∧ ∀ j < n, ∀ᶠ t in nhds (y.getD j 0), A (y.set j t)

variable {D : List ℝ → ℝ → Prop}

/-- The unit constraints have as many entries as declared. -/
def UnitSize (u : UnitProblem) : Prop := ∀ v μ, v.length = u.numIn → (u.con v μ).length = u.numCon

theorem UnitJac.size (h : UnitJac u D) : UnitSize u := fun v μ hv => ((h μ).2 v hv).1

/-- What the OCP builds: the unit problem sees exactly the variables of one stage, and the mesh has one point
per stage. -/
structure StageGood (o : OCP) (u : UnitProblem) (pts : List ℝ) : Prop extends o.Good where
  width : u.numIn = o.L.numVarStage
  points : pts.length = o.L.numStages

theorem numVarStage_pos (ho : o.Good) : 0 < o.L.numVarStage := by
  have h0 : (0 : Nat) < o.L.numStages := by unfold numStages; omega
  have := posG_lt ho.made ho.states ho.pos h0
  unfold numAllStageVar at this
  rcases Nat.eq_zero_or_pos o.L.numVarStage with h | h
  · rw [h] at this; simp at this
  · exact h

theorem length_stageVars {x : List ℝ} (hx : x.length = o.L.numDec) {s : Nat} (hs : s < o.L.numStages) :
    (o.stageVars x s).length = o.L.numVarStage := by
  have : (s + 1) * o.L.numVarStage ≤ o.L.numStages * o.L.numVarStage := Nat.mul_le_mul_right _ hs
  rw [Nat.add_mul, Nat.one_mul] at this
  simp only [stageVars, List.length_take, List.length_drop, hx, numDec, numAllStageVar]
  omega

theorem getD_stageVars (o : OCP) (x : List ℝ) (s : Nat) {k : Nat} (hk : k < o.L.numVarStage) :
    (o.stageVars x s).getD k 0 = x.getD (s * o.L.numVarStage + k) 0 := by
  simp only [stageVars, List.getD_eq_getElem?_getD]
  rw [List.getElem?_take_of_lt hk, List.getElem?_drop]

/-- Changing one entry of the decision vector changes the variables of its stage only. -/
theorem stageVars_set (o : OCP) (x : List ℝ) (s j : Nat) (t : ℝ) :
    o.stageVars (x.set j t) s =
      if s * o.L.numVarStage ≤ j ∧ j < s * o.L.numVarStage + o.L.numVarStage then
        (o.stageVars x s).set (j - s * o.L.numVarStage) t else o.stageVars x s := by
  unfold stageVars
  apply List.ext_getElem?
  intro k
  by_cases hk : k < o.L.numVarStage
  · rw [List.getElem?_take_of_lt hk, List.getElem?_drop]
    split
    · rename_i h
      by_cases he : s * o.L.numVarStage + k = j
      · subst he
        have : s * o.L.numVarStage + k - s * o.L.numVarStage = k := by omega
        rw [this, List.getElem?_set, List.getElem?_set]
        simp only [if_true, List.length_take, List.length_drop]
        by_cases hl : s * o.L.numVarStage + k < x.length
        · rw [if_pos hl, if_pos (by omega)]
        · rw [if_neg hl, if_neg (by omega)]
      · rw [List.getElem?_set_ne (fun h => he h.symm), List.getElem?_set_ne (by omega),
          List.getElem?_take_of_lt hk, List.getElem?_drop]
    · rename_i h
      rw [List.getElem?_set_ne (by omega), List.getElem?_take_of_lt hk, List.getElem?_drop]
  · have h1 : (((x.set j t).drop (s * o.L.numVarStage)).take o.L.numVarStage)[k]? = none := by
      apply List.getElem?_eq_none
      simp only [List.length_take]; omega
    have h2 : ∀ y : List ℝ, (((y.drop (s * o.L.numVarStage)).take o.L.numVarStage))[k]? = none := by
      intro y
      apply List.getElem?_eq_none
      simp only [List.length_take]; omega
    rw [h1]
    split
    · rw [List.getElem?_eq_none]
      simp only [List.length_set, List.length_take]; omega
    · rw [h2]

theorem transformInputs_eq (h : StageGood o u mesh) {x : List ℝ} (hx : x.length = o.L.numDec) :
    o.transformInputs u x = .ok ((List.range o.L.numStages).map fun s => o.stageVars x s) := by
  have hw := numVarStage_pos h.toGood
  have hS : 1 ≤ o.L.numStages := by unfold numStages; omega
  have hlen : (x.take o.L.numAllStageVar).length = o.L.numStages * o.L.numVarStage := by
    rw [List.length_take, hx]; unfold numDec numAllStageVar; omega
  have hle : 1 * o.L.numVarStage ≤ o.L.numStages * o.L.numVarStage := Nat.mul_le_mul_right _ hS
  have hsub : (x.take o.L.numAllStageVar).length - u.numIn = (o.L.numStages - 1) * o.L.numVarStage := by
    rw [hlen, h.width, Nat.sub_mul]; omega
  obtain ⟨t, ht, htl, hwin⟩ := C07_windows (x.take o.L.numAllStageVar) u.numIn o.L.numVarStage hw
    (by rw [hlen, h.width]; omega) (by rw [hsub]; exact Nat.mul_mod_left _ _) (by rw [h.width]) (by rw [h.width]; omega)
  unfold transformInputs
  rw [ht]
  congr 1
  rw [hsub, Nat.mul_div_cancel _ hw] at htl
  have htl' : t.length = o.L.numStages := by omega
  apply List.ext_getElem?
  intro s
  by_cases hs : s < o.L.numStages
  · rw [(hwin s (by omega)).1]
    simp only [List.getElem?_map, List.getElem?_range hs, Option.map_some, stageVars, h.width, Option.some.injEq]
    rw [List.drop_take, List.take_take]
    congr 1
    have h3 : (s + 1) * o.L.numVarStage ≤ o.L.numStages * o.L.numVarStage := Nat.mul_le_mul_right _ hs
    rw [Nat.add_mul, Nat.one_mul] at h3
    unfold numAllStageVar; omega
  · rw [List.getElem?_eq_none (by omega), List.getElem?_eq_none (by simp; omega)]

/-- The stage constraints, as a plain function. -/
noncomputable def stageFun (o : OCP) (u : UnitProblem) (mesh x : List ℝ) : List ℝ :=
  (List.range o.L.numStages).flatMap fun (s : Nat) => u.con (o.stageVars x s) (mesh.getD s 0 * o.scaleOf x)

/-- See `stageFun`. -/
noncomputable def stageJacVals (o : OCP) (u : UnitProblem) (mesh x : List ℝ) : List ℝ :=
  (List.range o.L.numStages).flatMap fun (s : Nat) => u.jac (o.stageVars x s) (mesh.getD s 0 * o.scaleOf x)

/-- See `stageFun`. -/
noncomputable def stageHessVals (o : OCP) (u : UnitProblem) (mesh x lam : List ℝ) : List ℝ :=
  (List.range o.L.numStages).flatMap fun (s : Nat) =>
    u.hess (o.stageVars x s) ((lam.drop (s * u.numCon)).take u.numCon) (mesh.getD s 0 * o.scaleOf x)

theorem mesh_as_range (hp : mesh.length = o.L.numStages) (c : ℝ) :
    mesh.map (· * c) = (List.range o.L.numStages).map fun (s : Nat) => mesh.getD s 0 * c := by
  apply List.ext_getElem?
  intro s
  by_cases hs : s < o.L.numStages
  · have : s < mesh.length := by omega
    simp [hs, this]
  · have : mesh.length ≤ s := by omega
    simp [hs]
    omega

theorem mapRows_eq {β : Type} (h : StageGood o u mesh) (f : List ℝ → ℝ → List β) {x : List ℝ}
    (_hx : x.length = o.L.numDec) :
    mapRows f ((List.range o.L.numStages).map fun s => o.stageVars x s) (mesh.map (· * o.scaleOf x))
      = .ok ((List.range o.L.numStages).map fun (s : Nat) => f (o.stageVars x s) (mesh.getD s 0 * o.scaleOf x)) := by
  unfold mapRows
  rw [if_pos (by simp [h.points]), mesh_as_range h.points, List.zipWith_map]
  congr 1
  rw [List.zipWith_self]

theorem stageConstraints_eq (h : StageGood o u mesh) {x : List ℝ} (hx : x.length = o.L.numDec) :
    o.stageConstraints u mesh x = .ok (o.stageFun u mesh x) := by
  unfold stageConstraints stageMesh
  rw [transformInputs_eq h hx, meshScale_eq h.toGood hx]
  simp only [bind, Except.bind, pure, Except.pure, mapRows_eq h u.con hx]
  rfl

theorem stageJacobian_eq (h : StageGood o u mesh) {x : List ℝ} (hx : x.length = o.L.numDec) :
    o.stageJacobian u mesh x = .ok (o.stageJacVals u mesh x) := by
  unfold stageJacobian stageMesh
  rw [transformInputs_eq h hx, meshScale_eq h.toGood hx]
  simp only [bind, Except.bind, pure, Except.pure, mapRows_eq h u.jac hx]
  rfl

theorem stageHessian_eq (h : StageGood o u mesh) {x lam : List ℝ} (hx : x.length = o.L.numDec)
    (hl : lam.length = o.L.numStages * u.numCon) :
    o.stageHessian u mesh x lam = .ok (o.stageHessVals u mesh x lam) := by
  unfold stageHessian stageMesh
  rw [transformInputs_eq h hx, meshScale_eq h.toGood hx]
  simp only [bind, Except.bind, pure, Except.pure]
  rw [if_neg (by rw [hl]; simp), if_pos (by simp [h.points])]
  rw [mesh_as_range h.points]
  unfold Np.reshapeRows
  rw [List.zip_map, List.zip_eq_zipWith, List.zipWith_self, List.map_map, List.zipWith_map, List.zipWith_self]
  rfl

theorem length_stageFun (h : StageGood o u mesh) (hu : UnitSize u) {x : List ℝ} (hx : x.length = o.L.numDec) :
    (o.stageFun u mesh x).length = o.L.numStages * u.numCon := by
  unfold stageFun
  have : Np.Rect o.L.numStages u.numCon ((List.range o.L.numStages).map fun (s : Nat) =>
      u.con (o.stageVars x s) (mesh.getD s 0 * o.scaleOf x)) := by
    refine ⟨by simp, ?_⟩
    intro r hr
    obtain ⟨s, hs, rfl⟩ := List.mem_map.mp hr
    exact hu _ _ (by rw [h.width, length_stageVars hx (List.mem_range.mp hs)])
  exact Np.flatten_rect_length this

theorem stageFun_at (h : StageGood o u mesh) (hu : UnitSize u) {x : List ℝ} (hx : x.length = o.L.numDec)
    {s r : Nat} (hs : s < o.L.numStages) (hr : r < u.numCon) :
    (o.stageFun u mesh x)[s * u.numCon + r]? =
      (u.con (o.stageVars x s) (mesh.getD s 0 * o.scaleOf x))[r]? := by
  unfold stageFun
  have : Np.Rect o.L.numStages u.numCon ((List.range o.L.numStages).map fun (s : Nat) =>
      u.con (o.stageVars x s) (mesh.getD s 0 * o.scaleOf x)) := by
    refine ⟨by simp, ?_⟩
    intro r hr
    obtain ⟨s, hs, rfl⟩ := List.mem_map.mp hr
    exact hu _ _ (by rw [h.width, length_stageVars hx (List.mem_range.mp hs)])
  rw [List.flatMap, Np.getElem?_flatten_rect this s r hr]
  simp [hs]

/-- **C31 (values).** The stage constraints are, stage by stage, the unit constraints at that row of
`get_stage_var_array(x)` and that mesh point (normalised mesh times mesh scale). -/
theorem C31_stage_values (h : StageGood o u mesh) (hu : UnitSize u) {x : List ℝ} (hx : x.length = o.L.numDec) :
    ∃ (con : List ℝ) (rows : List (List ℝ)) (ms : ℝ), o.stageConstraints u mesh x = .ok con ∧
      con.length = o.L.numStages * u.numCon ∧ o.L.stageVarArray x = .ok rows ∧
      (∀ s, o.fixedScale = some s → ms = s) ∧
      (o.fixedScale = none → o.L.getVar x "global" "mesh_scale" none = .ok (.scalar ms)) ∧
      ∀ s, s < o.L.numStages → ∃ v μ, rows[s]? = some v ∧ mesh[s]? = some μ ∧
        ∀ r, r < u.numCon → con[s * u.numCon + r]? = (u.con v (μ * ms))[r]? := by
  have hms := meshScale_eq h.toGood hx
  refine ⟨_, Np.reshapeRows o.L.numStages o.L.numVarStage (x.take (o.L.numDec - o.L.numGlobal)), o.scaleOf x,
    stageConstraints_eq h hx, length_stageFun h hu hx, ?_, ?_, ?_, ?_⟩
  · unfold stageVarArray
    dsimp only
    rw [if_pos]
    rw [List.length_take, hx]; unfold numDec numAllStageVar; omega
  · intro s hs; simp [scaleOf, hs]
  · intro hf
    unfold meshScale at hms
    rw [hf] at hms
    simp only [bind, Except.bind] at hms
    cases hg : o.L.getVar x "global" "mesh_scale" none with
    | error e => rw [hg] at hms; simp at hms
    | ok v =>
      rw [hg] at hms
      cases v with
      | array a => simp at hms
      | scalar a => simp [pure, Except.pure] at hms; rw [hms]
  · intro s hs
    have hm : s < mesh.length := by rw [h.points]; exact hs
    refine ⟨o.stageVars x s, mesh[s], ?_, by simp [hm], ?_⟩
    · rw [Np.getElem?_reshapeRows _ _ _ _ hs]
      simp only [Option.some.injEq, stageVars]
      rw [List.drop_take, List.take_take]
      congr 1
      have h3 : (s + 1) * o.L.numVarStage ≤ o.L.numStages * o.L.numVarStage := Nat.mul_le_mul_right _ hs
      rw [Nat.add_mul, Nat.one_mul] at h3
      unfold numDec numAllStageVar; omega
    · intro r hr
      rw [stageFun_at h hu hx hs hr]
      simp [hm]

/-- The unit constraints do not see a change of the mesh scale: the mesh is fixed or the unit problem does not
depend on the mesh (the "time-invariant" restriction in the docstring, convolution.py:38-40). -/
def MeshFree (o : OCP) (u : UnitProblem) : Prop :=
  o.fixedScale ≠ none ∨ ∀ v μ μ', u.con v μ = u.con v μ'

theorem con_scale_set (hm : MeshFree o u) (x v : List ℝ) (c : ℝ) (j : Nat) (t : ℝ) :
    u.con v (c * o.scaleOf (x.set j t)) = u.con v (c * o.scaleOf x) := by
  rcases hm with hm | hm
  · cases hf : o.fixedScale with
    | none => exact absurd hf hm
    | some s => simp [scaleOf, hf]
  · exact hm _ _ _

/-- Row lists of the block structure. -/
theorem stageJacStructure_eq (o : OCP) (u : UnitProblem) : o.stageJacStructure u = .ok
    ((List.range o.L.numStages).flatMap (fun k => u.jacStruct.1.map (· + k * u.numCon)),
     (List.range o.L.numStages).flatMap (fun k => u.jacStruct.2.map (· + k * o.L.numVarStage))) := by
  unfold stageJacStructure createOffsetStructure
  rw [if_neg (by unfold numStages; omega)]

theorem stageHessStructure_eq (o : OCP) (u : UnitProblem) : o.stageHessStructure u = .ok
    ((List.range o.L.numStages).flatMap (fun k => u.hessStruct.1.map (· + k * o.L.numVarStage)),
     (List.range o.L.numStages).flatMap (fun k => u.hessStruct.2.map (· + k * o.L.numVarStage))) := by
  unfold stageHessStructure createOffsetStructure
  rw [if_neg (by unfold numStages; omega)]

/-- The matrix assembled from blocks on the diagonal. -/
theorem assemble_blocks {n a b : Nat} {R C : List Nat} (hst : StructIn (R, C) a b) (V : Nat → List ℝ)
    (hV : ∀ s, s < n → (V s).length = R.length) {s r : Nat} (hs : s < n) (hr : r < a) (c : Nat) :
    assemble ((List.range n).flatMap (fun k => R.map (· + k * a))) ((List.range n).flatMap (fun k => C.map (· + k * b)))
        ((List.range n).flatMap V) (s * a + r) c
      = if s * b ≤ c then assemble R C (V s) r (c - s * b) else 0 := by
  obtain ⟨hlen, hR, hC⟩ := hst
  dsimp only at hlen hR hC
  rw [assemble_flatMap _ _ _ _ (by intro k _; simp [hlen])
    (by intro k hk; simp [hV k (List.mem_range.mp hk)]), sum_range_list]
  rw [sum_collapse _ hs]
  · rw [assemble_shift_rows, if_pos (by omega), assemble_shift_cols]
    have : s * a + r - s * a = r := by omega
    rw [this]
  · intro k hk hne
    rw [assemble_shift_rows]
    split
    · rename_i hle
      apply assemble_row_out
      intro hmem
      have h1 := hR _ hmem
      have : k < s := by
        rcases Nat.lt_or_ge k s with h | h
        · exact h
        · exfalso
          have h2 : (s + 1) * a ≤ k * a := Nat.mul_le_mul_right _ (by omega)
          rw [Nat.add_mul] at h2
          omega
      have h3 : (k + 1) * a ≤ s * a := Nat.mul_le_mul_right _ this
      rw [Nat.add_mul] at h3
      omega
    · rfl

theorem stage_row_decompose {n a r : Nat} (hr : r < n * a) : ∃ s q, s < n ∧ q < a ∧ r = s * a + q := by
  have ha : 0 < a := by
    rcases Nat.eq_zero_or_pos a with h | h
    · subst h; simp at hr
    · exact h
  refine ⟨r / a, r % a, ?_, Nat.mod_lt _ ha, ?_⟩
  · rwa [Nat.div_lt_iff_lt_mul ha]
  · rw [Nat.mul_comm]; exact (Nat.div_add_mod r a).symm

/-- Structures of the stage constraints stay inside the problem. -/
theorem structIn_blocks {n a b M N : Nat} {st : List Nat × List Nat} (hst : StructIn st a b) (hM : n * a ≤ M)
    (hN : n * b ≤ N) :
    StructIn ((List.range n).flatMap (fun k => st.1.map (· + k * a)), (List.range n).flatMap (fun k => st.2.map (· + k * b)))
      M N := by
  refine ⟨by simp [List.length_flatMap, hst.1], ?_, ?_⟩
  · intro r hr
    simp only [List.mem_flatMap, List.mem_range, List.mem_map] at hr
    obtain ⟨k, hk, q, hq, rfl⟩ := hr
    have := hst.2.1 q hq
    have h3 : (k + 1) * a ≤ n * a := Nat.mul_le_mul_right _ hk
    rw [Nat.add_mul] at h3
    omega
  · intro r hr
    simp only [List.mem_flatMap, List.mem_range, List.mem_map] at hr
    obtain ⟨k, hk, q, hq, rfl⟩ := hr
    have := hst.2.2 q hq
    have h3 : (k + 1) * b ≤ n * b := Nat.mul_le_mul_right _ hk
    rw [Nat.add_mul] at h3
    omega

theorem stage_userJac (h : StageGood o u mesh) (hu : UnitJac u D) (hm : MeshFree o u) :
    UserJac o.L.numDec (o.L.numStages * u.numCon) (o.stageFun u mesh) (o.stageJacVals u mesh)
      ((List.range o.L.numStages).flatMap (fun k => u.jacStruct.1.map (· + k * u.numCon)),
       (List.range o.L.numStages).flatMap (fun k => u.jacStruct.2.map (· + k * o.L.numVarStage))) (o.stageDom mesh D) := by
  refine ⟨?_, ?_⟩
  · refine structIn_blocks ?_ (le_refl _) (by unfold numDec numAllStageVar; omega)
    have := (hu 0).1
    rwa [h.width] at this
  · intro y hy
    have hvl : ∀ s, s < o.L.numStages → (o.stageVars y s).length = u.numIn := fun s hs => by
      rw [h.width, length_stageVars hy hs]
    have hJ : ∀ s, s < o.L.numStages → (u.jac (o.stageVars y s) (mesh.getD s 0 * o.scaleOf y)).length
        = u.jacStruct.1.length := fun s hs => ((hu _).2 _ (hvl s hs)).2.1
    refine ⟨length_stageFun h hu.size hy, ?_, ?_⟩
    · unfold stageJacVals
      have e : ∀ l : List Nat, (∀ s ∈ l, s < o.L.numStages) →
          (l.flatMap fun (s : Nat) => u.jac (o.stageVars y s) (mesh.getD s 0 * o.scaleOf y)).length
            = (l.flatMap fun (k : Nat) => u.jacStruct.1.map (· + k * u.numCon)).length := by
        intro l
        induction l with
        | nil => intro _; rfl
        | cons a l ih =>
          intro hl
          simp only [List.flatMap_cons, List.length_append, List.length_map]
          rw [hJ a (hl a (by simp)), ih (fun s hs => hl s (by simp [hs]))]
      exact e _ (fun s hs => List.mem_range.mp hs)
    · intro hD r hr j hj
      obtain ⟨s, q, hs, hq, rfl⟩ := stage_row_decompose hr
      have hst : StructIn (u.jacStruct.1, u.jacStruct.2) u.numCon o.L.numVarStage := by
        have := (hu 0).1; rwa [h.width] at this
      unfold stageJacVals
      rw [assemble_blocks hst _ hJ hs hq]
      have e : (fun t => (o.stageFun u mesh (y.set j t)).getD (s * u.numCon + q) 0)
          = fun t => (u.con (o.stageVars (y.set j t) s) (mesh.getD s 0 * o.scaleOf y)).getD q 0 := by
        funext t
        rw [List.getD_eq_getElem?_getD, stageFun_at h hu.size (by simp [hy]) hs hq, con_scale_set hm]
        simp
      rw [e]
      by_cases hin : s * o.L.numVarStage ≤ j ∧ j < s * o.L.numVarStage + o.L.numVarStage
      · rw [if_pos hin.1]
        have hd := ((hu (mesh.getD s 0 * o.scaleOf y)).2 _ (hvl s hs)).2.2 (hD s hs) q hq (j - s * o.L.numVarStage)
          (by rw [h.width]; omega)
        have e2 : (fun t => (u.con (o.stageVars (y.set j t) s) (mesh.getD s 0 * o.scaleOf y)).getD q 0)
            = fun t => (u.con ((o.stageVars y s).set (j - s * o.L.numVarStage) t) (mesh.getD s 0 * o.scaleOf y)).getD q 0 := by
          funext t
          rw [stageVars_set, if_pos hin]
        rw [e2]
        have e3 : (o.stageVars y s).getD (j - s * o.L.numVarStage) 0 = y.getD j 0 := by
          rw [getD_stageVars _ _ _ (by omega)]
          congr 1; omega
        rw [e3] at hd
        exact hd
      · have e2 : (fun t => (u.con (o.stageVars (y.set j t) s) (mesh.getD s 0 * o.scaleOf y)).getD q 0)
            = fun _ => (u.con (o.stageVars y s) (mesh.getD s 0 * o.scaleOf y)).getD q 0 := by
          funext t
          rw [stageVars_set, if_neg hin]
        rw [e2]
        have e3 : (if s * o.L.numVarStage ≤ j then
            assemble u.jacStruct.1 u.jacStruct.2 (u.jac (o.stageVars y s) (mesh.getD s 0 * o.scaleOf y)) q
              (j - s * o.L.numVarStage) else 0) = 0 := by
          split
          · rename_i hle
            apply assemble_col_out
            intro hmem
            have := hst.2.2 _ hmem
            omega
          · rfl
        rw [e3]
        exact hasDerivAt_const _ _


/-- **C31 (Jacobian).** When the unit Jacobian is the derivative of the unit constraints and the mesh scale has
no influence on them, the block Jacobian of the stage constraints is their derivative: `UserJac` is exactly the
hypothesis under which C09/C13 apply to the component. -/
theorem C31_stage_jacobian (h : StageGood o u mesh) (hu : UnitJac u D) (hm : MeshFree o u) :
    ∃ (F J : List ℝ → List ℝ) (st : List Nat × List Nat), o.stageJacStructure u = .ok st ∧
      (∀ y : List ℝ, y.length = o.L.numDec → o.stageConstraints u mesh y = .ok (F y) ∧
        o.stageJacobian u mesh y = .ok (J y)) ∧
      UserJac o.L.numDec (o.L.numStages * u.numCon) F J st (o.stageDom mesh D) :=
  ⟨o.stageFun u mesh, o.stageJacVals u mesh, _, stageJacStructure_eq o u,
    fun y hy => ⟨stageConstraints_eq h hy, stageJacobian_eq h hy⟩, stage_userJac h hu hm⟩

/-! ## Second derivatives -/

theorem dot_append {a1 a2 b1 b2 : List ℝ} (h : a1.length = b1.length) :
    dot (a1 ++ a2) (b1 ++ b2) = dot a1 b1 + dot a2 b2 := by
  unfold dot
  rw [List.zipWith_append h, List.sum_append]

theorem dot_flatten {A B : List (List ℝ)} (h : List.Forall₂ (fun a b => a.length = b.length) A B) :
    dot A.flatten B.flatten = (List.zipWith dot A B).sum := by
  induction h with
  | nil => simp [dot]
  | cons hab _ ih =>
    simp only [List.flatten_cons, List.zipWith_cons_cons, List.sum_cons]
    rw [dot_append hab, ih]

/-- The Lagrangian of a vector given by blocks is the sum of the block Lagrangians. -/
theorem dot_blocks {n m : Nat} {lam : List ℝ} (hl : lam.length = n * m) (f : Nat → List ℝ)
    (hf : ∀ s, s < n → (f s).length = m) :
    dot lam ((List.range n).flatMap f) = ∑ s ∈ Finset.range n, dot ((lam.drop (s * m)).take m) (f s) := by
  have h1 : lam = (Np.reshapeRows n m lam).flatten := by
    rw [Np.flatten_reshapeRows, ← hl, List.take_length]
  have h2 := Np.rect_reshapeRows n m lam (by omega)
  conv_lhs => rw [h1]
  rw [List.flatMap, dot_flatten]
  · unfold Np.reshapeRows
    rw [List.zipWith_map, List.zipWith_self, sum_range_list]
  · rw [List.forall₂_iff_get]
    refine ⟨by simp, ?_⟩
    intro i h3 h4
    simp only [List.get_eq_getElem]
    rw [h2.2 _ (List.getElem_mem _)]
    simp only [List.getElem_map, List.getElem_range]
    rw [hf i (by simpa using h4)]

theorem stage_userHess (h : StageGood o u mesh) (hsz : UnitSize u) {Pu P : Nat → Nat → Prop} (hu : UnitHess u Pu D)
    (hm : MeshFree o u)
    (hP : ∀ s i j, i < u.numIn → j < u.numIn → P (s * u.numIn + i) (s * u.numIn + j) → Pu i j) :
    UserHess o.L.numDec (o.L.numStages * u.numCon) (o.stageFun u mesh) (o.stageHessVals u mesh)
      ((List.range o.L.numStages).flatMap (fun k => u.hessStruct.1.map (· + k * o.L.numVarStage)),
       (List.range o.L.numStages).flatMap (fun k => u.hessStruct.2.map (· + k * o.L.numVarStage))) P (o.stageDom mesh D) := by
  have hw := numVarStage_pos h.toGood
  refine ⟨?_, ?_⟩
  · have := (hu 0).1
    rw [h.width] at this
    refine structIn_blocks this ?_ ?_ <;> (unfold numDec numAllStageVar; omega)
  · intro y lam hy hlam
    have hvl : ∀ {z : List ℝ}, z.length = o.L.numDec → ∀ s, s < o.L.numStages →
        (o.stageVars z s).length = u.numIn := fun hz s hs => by
      rw [h.width, length_stageVars hz hs]
    have hll : ∀ s, s < o.L.numStages → ((lam.drop (s * u.numCon)).take u.numCon).length = u.numCon := by
      intro s hs
      have h3 : (s + 1) * u.numCon ≤ o.L.numStages * u.numCon := Nat.mul_le_mul_right _ hs
      rw [Nat.add_mul, Nat.one_mul] at h3
      simp only [List.length_take, List.length_drop, hlam]
      omega
    have hst : StructIn (u.hessStruct.1, u.hessStruct.2) o.L.numVarStage o.L.numVarStage := by
      have := (hu 0).1; rwa [h.width] at this
    have hH : ∀ s, s < o.L.numStages → (u.hess (o.stageVars y s) ((lam.drop (s * u.numCon)).take u.numCon)
        (mesh.getD s 0 * o.scaleOf y)).length = u.hessStruct.1.length :=
      fun s hs => ((hu _).2 _ _ (hvl hy s hs) (hll s hs)).1
    refine ⟨?_, ?_⟩
    · unfold stageHessVals
      have e : ∀ l : List Nat, (∀ s ∈ l, s < o.L.numStages) →
          (l.flatMap fun (s : Nat) => u.hess (o.stageVars y s) ((lam.drop (s * u.numCon)).take u.numCon)
            (mesh.getD s 0 * o.scaleOf y)).length
            = (l.flatMap fun (k : Nat) => u.hessStruct.1.map (· + k * o.L.numVarStage)).length := by
        intro l
        induction l with
        | nil => intro _; rfl
        | cons a l ih =>
          intro hl
          simp only [List.flatMap_cons, List.length_append, List.length_map]
          rw [hH a (hl a (by simp)), ih (fun s hs => hl s (by simp [hs]))]
      exact e _ (fun s hs => List.mem_range.mp hs)
    · intro hD
      -- the unit gradients
      have hex : ∀ s, ∃ g : List ℝ → Nat → ℝ, s < o.L.numStages →
          (∀ k, k < u.numIn → ∀ᶠ t in nhds ((o.stageVars y s).getD k 0), IsGradientAt u.numIn
            (fun z => dot ((lam.drop (s * u.numCon)).take u.numCon) (u.con z (mesh.getD s 0 * o.scaleOf y)))
            ((o.stageVars y s).set k t) (g ((o.stageVars y s).set k t))) ∧
          ∀ i j, i < u.numIn → j < u.numIn → Pu i j →
            HasDerivAt (fun t => g ((o.stageVars y s).set j t) i)
              (assemble u.hessStruct.1 u.hessStruct.2 (u.hess (o.stageVars y s)
                ((lam.drop (s * u.numCon)).take u.numCon) (mesh.getD s 0 * o.scaleOf y)) i j)
              ((o.stageVars y s).getD j 0) := by
        intro s
        by_cases hs : s < o.L.numStages
        · obtain ⟨g, hg1, hg2⟩ := ((hu (mesh.getD s 0 * o.scaleOf y)).2 _ _ (hvl hy s hs) (hll s hs)).2 (hD s hs)
          exact ⟨g, fun _ => ⟨hg1, hg2⟩⟩
        · exact ⟨fun _ _ => 0, fun hs' => absurd hs' hs⟩
      choose g hg using hex
      -- near `y`, along one coordinate
      have hnear : ∀ k, k < o.L.numDec → ∀ᶠ t in nhds (y.getD k 0), ∀ s ∈ Finset.range o.L.numStages, IsGradientAt u.numIn
          (fun z => dot ((lam.drop (s * u.numCon)).take u.numCon) (u.con z (mesh.getD s 0 * o.scaleOf y)))
          (o.stageVars (y.set k t) s) (g s (o.stageVars (y.set k t) s)) := by
        intro k _
        rw [Filter.eventually_all_finset]
        intro s hs
        have hs := Finset.mem_range.mp hs
        by_cases hin : s * o.L.numVarStage ≤ k ∧ k < s * o.L.numVarStage + o.L.numVarStage
        · have := (hg s hs).1 (k - s * o.L.numVarStage) (by rw [h.width]; omega)
          rw [getD_stageVars _ _ _ (by omega)] at this
          have e2 : s * o.L.numVarStage + (k - s * o.L.numVarStage) = k := by omega
          rw [e2] at this
          simpa only [stageVars_set, if_pos hin] using this
        · simp only [stageVars_set, if_neg hin]
          have := ((hg s hs).1 0 (by rw [h.width]; exact hw)).self_of_nhds
          have e2 : (o.stageVars y s).set 0 ((o.stageVars y s).getD 0 0) = o.stageVars y s := by
            have hl : 0 < (o.stageVars y s).length := by rw [hvl hy s hs, h.width]; exact hw
            rw [List.getD_eq_getElem?_getD, List.getElem?_eq_getElem hl, Option.getD_some, List.set_getElem_self]
          rw [e2] at this
          exact Filter.Eventually.of_forall fun _ => this
      -- the value with the mesh scale frozen
      have hscale : ∀ z : List ℝ, ∀ v c, u.con v (c * o.scaleOf z) = u.con v (c * o.scaleOf y) := by
        intro z v c
        rcases hm with hm | hm
        · cases hf : o.fixedScale with
          | none => exact absurd hf hm
          | some s => simp [scaleOf, hf]
        · exact hm _ _ _
      have hval : ∀ z : List ℝ, z.length = o.L.numDec → dot lam (o.stageFun u mesh z)
          = ∑ s ∈ Finset.range o.L.numStages, dot ((lam.drop (s * u.numCon)).take u.numCon)
            (u.con (o.stageVars z s) (mesh.getD s 0 * o.scaleOf y)) := by
        intro z hz
        unfold stageFun
        rw [dot_blocks hlam _ (fun s hs => hsz _ _ (hvl hz s hs))]
        refine Finset.sum_congr rfl (fun s _ => by rw [hscale])
      refine ⟨fun z i => if i < o.L.numAllStageVar then
          g (i / o.L.numVarStage) (o.stageVars z (i / o.L.numVarStage)) (i % o.L.numVarStage) else 0, ?_, ?_⟩
      · intro k hk
        filter_upwards [hnear k hk] with t₀ hgr
        have hz : (y.set k t₀).length = o.L.numDec := by simp [hy]
        generalize y.set k t₀ = z at hgr hz
        intro j hj
        have e : (fun t => dot lam (o.stageFun u mesh (z.set j t))) = fun t =>
            ∑ s ∈ Finset.range o.L.numStages, dot ((lam.drop (s * u.numCon)).take u.numCon)
              (u.con (o.stageVars (z.set j t) s) (mesh.getD s 0 * o.scaleOf y)) := by
          funext t; exact hval _ (by simp [hz])
        rw [e]
        have hterm : ∀ s ∈ Finset.range o.L.numStages, HasDerivAt (fun t => dot ((lam.drop (s * u.numCon)).take u.numCon)
              (u.con (o.stageVars (z.set j t) s) (mesh.getD s 0 * o.scaleOf y)))
            (if s * o.L.numVarStage ≤ j ∧ j < s * o.L.numVarStage + o.L.numVarStage then
              g s (o.stageVars z s) (j - s * o.L.numVarStage) else 0) (z.getD j 0) := by
          intro s hs
          have hs := Finset.mem_range.mp hs
          by_cases hin : s * o.L.numVarStage ≤ j ∧ j < s * o.L.numVarStage + o.L.numVarStage
          · rw [if_pos hin]
            have := hgr s (Finset.mem_range.mpr hs) (j - s * o.L.numVarStage) (by rw [h.width]; omega)
            rw [getD_stageVars _ _ _ (by omega)] at this
            have e2 : s * o.L.numVarStage + (j - s * o.L.numVarStage) = j := by omega
            rw [e2] at this
            simpa only [stageVars_set, if_pos hin] using this
          · rw [if_neg hin]
            simp only [stageVars_set, if_neg hin]
            exact hasDerivAt_const _ _
        refine (HasDerivAt.fun_sum hterm).congr_deriv ?_
        dsimp only
        by_cases hja : j < o.L.numAllStageVar
        · rw [if_pos hja]
          obtain ⟨s, q, hs, hq, rfl⟩ := stage_row_decompose hja
          have hdiv : (s * o.L.numVarStage + q) / o.L.numVarStage = s := by
            rw [Nat.mul_comm, Nat.mul_add_div hw, Nat.div_eq_of_lt hq]; omega
          have hmod : (s * o.L.numVarStage + q) % o.L.numVarStage = q := by
            rw [Nat.mul_comm, Nat.mul_add_mod, Nat.mod_eq_of_lt hq]
          rw [sum_collapse _ hs, if_pos (by omega), hdiv, hmod]
          · congr 1; omega
          · intro a _ hne
            rw [if_neg]
            rintro ⟨h1, h2⟩
            rcases Nat.lt_or_gt_of_ne hne with hlt | hlt
            · have h3 : (a + 1) * o.L.numVarStage ≤ s * o.L.numVarStage := Nat.mul_le_mul_right _ hlt
              rw [Nat.add_mul] at h3; omega
            · have h3 : (s + 1) * o.L.numVarStage ≤ a * o.L.numVarStage := Nat.mul_le_mul_right _ hlt
              rw [Nat.add_mul] at h3; omega
        · rw [if_neg hja]
          apply Finset.sum_eq_zero
          intro s hs
          rw [if_neg]
          rintro ⟨h1, h2⟩
          have h3 : (s + 1) * o.L.numVarStage ≤ o.L.numStages * o.L.numVarStage :=
            Nat.mul_le_mul_right _ (Finset.mem_range.mp hs)
          rw [Nat.add_mul] at h3
          unfold numAllStageVar at hja
          omega
      · intro i j hi hj hp
        dsimp only
        by_cases hia : i < o.L.numAllStageVar
        · simp only [if_pos hia]
          obtain ⟨s, q, hs, hq, rfl⟩ := stage_row_decompose hia
          have hdiv : (s * o.L.numVarStage + q) / o.L.numVarStage = s := by
            rw [Nat.mul_comm, Nat.mul_add_div hw, Nat.div_eq_of_lt hq]; omega
          have hmod : (s * o.L.numVarStage + q) % o.L.numVarStage = q := by
            rw [Nat.mul_comm, Nat.mul_add_mod, Nat.mod_eq_of_lt hq]
          simp only [hdiv, hmod]
          unfold stageHessVals
          rw [assemble_blocks hst _ hH hs hq]
          by_cases hin : s * o.L.numVarStage ≤ j ∧ j < s * o.L.numVarStage + o.L.numVarStage
          · rw [if_pos hin.1]
            have hp' : Pu q (j - s * o.L.numVarStage) := by
              refine hP s q _ (by rw [h.width]; exact hq) (by rw [h.width]; omega) ?_
              rw [h.width]
              have e2 : s * o.L.numVarStage + (j - s * o.L.numVarStage) = j := by omega
              rwa [e2]
            have hd := (hg s hs).2 q (j - s * o.L.numVarStage) (by rw [h.width]; exact hq) (by rw [h.width]; omega) hp'
            rw [getD_stageVars _ _ _ (by omega)] at hd
            have e2 : s * o.L.numVarStage + (j - s * o.L.numVarStage) = j := by omega
            rw [e2] at hd
            simpa only [stageVars_set, if_pos hin] using hd
          · simp only [stageVars_set, if_neg hin]
            have e3 : (if s * o.L.numVarStage ≤ j then
                assemble u.hessStruct.1 u.hessStruct.2 (u.hess (o.stageVars y s) ((lam.drop (s * u.numCon)).take u.numCon)
                  (mesh.getD s 0 * o.scaleOf y)) q (j - s * o.L.numVarStage) else 0) = 0 := by
              split
              · apply assemble_col_out
                intro hmem
                have := hst.2.2 _ hmem
                omega
              · rfl
            rw [e3]
            exact hasDerivAt_const _ _
        · simp only [if_neg hia]
          rw [assemble_row_out]
          · exact hasDerivAt_const _ _
          · intro hmem
            have hb := structIn_blocks (n := o.L.numStages) hst (le_refl _) (le_refl _)
            have := hb.2.1 _ hmem
            unfold numAllStageVar at hia
            omega

/-- **C31 (Hessian).** When the unit Hessian is the second derivative of the unit Lagrangian on the index pairs `Pu`
(e.g. all pairs, or the upper triangle) and the mesh scale has no influence, the block Hessian is the second derivative
of the Lagrangian of the stage constraints on every set `P` of pairs that meets each diagonal block inside `Pu`.
A multiplier vector of the wrong length raises ValueError. -/
theorem C31_stage_hessian (h : StageGood o u mesh) (hsz : UnitSize u) {Pu P : Nat → Nat → Prop} (hu : UnitHess u Pu D)
    (hm : MeshFree o u)
    (hP : ∀ s i j, i < u.numIn → j < u.numIn → P (s * u.numIn + i) (s * u.numIn + j) → Pu i j) :
    ∃ (F : List ℝ → List ℝ) (H : List ℝ → List ℝ → List ℝ) (st : List Nat × List Nat),
      o.stageHessStructure u = .ok st ∧
      (∀ y lam : List ℝ, y.length = o.L.numDec → o.stageConstraints u mesh y = .ok (F y) ∧
        (lam.length = o.L.numStages * u.numCon → o.stageHessian u mesh y lam = .ok (H y lam)) ∧
        (lam.length ≠ o.L.numStages * u.numCon → o.stageHessian u mesh y lam = .error .valueError)) ∧
      UserHess o.L.numDec (o.L.numStages * u.numCon) F H st P (o.stageDom mesh D) := by
  refine ⟨o.stageFun u mesh, o.stageHessVals u mesh, _, stageHessStructure_eq o u, ?_, stage_userHess h hsz hu hm hP⟩
  intro y lam hy
  refine ⟨stageConstraints_eq h hy, fun hl => stageHessian_eq h hy hl, ?_⟩
  intro hl
  unfold stageHessian
  rw [transformInputs_eq h hy]
  simp only [bind, Except.bind]
  rw [if_pos (Ne.symm hl)]

/-! ## The mesh-scale column -/

/-- The declared structure never lists the mesh scale (or any other global variable). -/
theorem C31_no_global_column (h : StageGood o u mesh) (hst : StructIn u.jacStruct u.numCon u.numIn) :
    ∃ st, o.stageJacStructure u = .ok st ∧ ∀ c ∈ st.2, c < o.L.numAllStageVar := by
  refine ⟨_, stageJacStructure_eq o u, ?_⟩
  rw [h.width] at hst
  exact (structIn_blocks (n := o.L.numStages) hst (le_refl _) (le_refl _)).2.2

/-- A unit problem that returns its mesh point; its own derivatives are correct. -/
def meshUnit : UnitProblem :=
  { numIn := 7, numCon := 1, con := fun _ μ => [μ], jac := fun _ _ => [], hess := fun _ _ _ => []
    jacStruct := ([], []), hessStruct := ([], []) }

theorem meshUnit_jac : UnitJac meshUnit := by
  intro μ
  refine ⟨⟨rfl, by simp [meshUnit], by simp [meshUnit]⟩, ?_⟩
  intro y _
  refine ⟨rfl, rfl, ?_⟩
  intro _ r hr j _
  rw [show meshUnit.jacStruct = ([], []) from rfl, assemble_nil]
  exact hasDerivAt_const (y.getD j 0) (([μ] : List ℝ).getD r 0)

/-- Normalised mesh of the example: 7 stages. -/
noncomputable def exMesh : List ℝ := [0, 1/6, 2/6, 3/6, 4/6, 5/6, 1]

theorem exStageGood : StageGood exOCP meshUnit exMesh :=
  { exOCP_good with
    width := (by decide +kernel)
    points := (by simp only [exMesh, List.length_cons, List.length_nil]; decide +kernel) }

/-- **C31 (finding).** On a variable mesh, a unit problem that depends on the mesh gets a wrong Jacobian although the
unit problem itself is correct: here row 6 is the mesh scale itself, but no entry is listed in its column. -/
theorem C31_mesh_dependence_lost :
    ∃ (o : OCP) (u : UnitProblem) (mesh : List ℝ), StageGood o u mesh ∧ UnitJac u ∧ o.fixedScale = none ∧
      ∀ (F J : List ℝ → List ℝ) (st : List Nat × List Nat), o.stageJacStructure u = .ok st →
        (∀ y : List ℝ, y.length = o.L.numDec → o.stageConstraints u mesh y = .ok (F y) ∧
          o.stageJacobian u mesh y = .ok (J y)) →
        ∀ y : List ℝ, y.length = o.L.numDec →
          ¬ IsJacobianAt o.L.numDec (o.L.numStages * u.numCon) F y (assemble st.1 st.2 (J y)) := by
  refine ⟨exOCP, meshUnit, exMesh, exStageGood, meshUnit_jac, rfl, ?_⟩
  intro F J st hst hF y hy hjac
  have hn : exOCP.L.numDec = 50 := by decide +kernel
  have hS : exOCP.L.numStages = 7 := by decide +kernel
  have hM : exOCP.posM = 49 := by decide +kernel
  have h1 := hjac 6 (by rw [hS]; decide) 49 (by rw [hn]; decide)
  rw [assemble_col_out] at h1
  · have e : (fun t => (F (y.set 49 t)).getD 6 0) = fun t => t := by
      funext t
      have hl : (y.set 49 t).length = exOCP.L.numDec := by simp [hy]
      have h2 := (hF _ hl).1
      rw [stageConstraints_eq exStageGood hl] at h2
      simp only [Except.ok.injEq] at h2
      rw [← h2, List.getD_eq_getElem?_getD]
      have h3 := stageFun_at exStageGood meshUnit_jac.size hl (s := 6) (r := 0) (by rw [hS]; decide) (by decide)
      rw [show 6 * meshUnit.numCon + 0 = 6 from rfl] at h3
      rw [h3]
      have : 49 < y.length := by rw [hy, hn]; decide
      simp [meshUnit, exMesh, scaleOf, hM, this, show exOCP.fixedScale = none from rfl]
    rw [e] at h1
    have := h1.unique (hasDerivAt_id _)
    norm_num at this
  · obtain ⟨st', h2, h3⟩ := C31_no_global_column exStageGood (meshUnit_jac 0).1
    rw [hst] at h2
    cases h2
    intro hmem
    have := h3 _ hmem
    have hA : exOCP.L.numAllStageVar = 49 := by decide +kernel
    omega

end Lumos.Ocp.OCP
