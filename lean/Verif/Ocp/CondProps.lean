import Verif.Ocp.CondModel
import Verif.Ocp.AlgProps
/-!
# C28: the condensed constraints
-/

namespace Lumos.Ocp.CondOCP

open Lumos DecVar DecVar.Layout Conv NLP OCP

variable {c : CondOCP}

/-- What `build_condensed_problem` works on: an explicit model, its model algebra mapped over the stages, and the
decision variables laid out in the model's group order. -/
structure Good (c : CondOCP) : Prop where
  stage : StageGood c.o c.u c.mesh
  model : c.M.Good
  con : c.u.con = c.M.flatImplicit
  numIn : c.u.numIn = c.M.numVar
  numCon : c.u.numCon = c.M.numRes
  groups : c.o.L.groups = ["states", "inputs", "states_dot", "con_outputs"]
  sizeX : c.o.L.size "states" = c.M.nx
  sizeU : c.o.L.size "inputs" = c.M.nu
  sizeY : c.o.L.size "con_outputs" = c.M.ny

theorem Good.ocp (h : c.Good) : c.o.Good := h.stage.toGood

theorem Good.numStates (h : c.Good) : c.o.numStates = c.M.nx := h.sizeX

theorem Good.sizeD (h : c.Good) : c.o.L.size "states_dot" = c.M.nx := by rw [h.ocp.same, h.sizeX]

theorem Good.width (h : c.Good) : c.o.L.numVarStage = c.M.numVar := by rw [← h.stage.width, h.numIn]

theorem Good.width' (h : c.Good) : c.o.L.numVarStage = c.M.nx + c.M.nu + (c.M.nx + c.M.ny) := by
  rw [h.width, ExplicitModel.numVar_eq]

theorem Good.unitSize (h : c.Good) : UnitSize c.u := by
  intro v μ hv
  rw [h.con, h.numCon]
  exact ExplicitModel.length_flatImplicit h.model (by rw [hv, h.numIn]) μ

theorem Good.numCont (h : c.Good) : c.numCont = c.o.numContinuity := by
  unfold CondOCP.numCont numContinuity
  rw [h.numStates]; ring

theorem posG_states (h : c.Good) (s k : Nat) : c.o.posG "states" s k = s * c.o.L.numVarStage + k := by
  unfold posG offset
  rw [h.groups]
  simp; omega

theorem posG_dot (h : c.Good) (s k : Nat) :
    c.o.posG "states_dot" s k = s * c.o.L.numVarStage + (c.M.nx + c.M.nu + k) := by
  unfold posG offset sizes
  rw [h.groups]
  have : (["states", "inputs", "states_dot", "con_outputs"] : List String).idxOf "states_dot" = 2 := by decide
  rw [this]
  simp [h.sizeX, h.sizeU]; omega

/-! ## The index lists -/

theorem groupIndices_at (ho : c.o.L.Made) {g : String} (hg : g ∈ c.o.L.groups) {s : Nat} (hs : s < c.o.L.numStages) :
    c.o.L.groupIndicesAtStage g (s : Int) = .ok ((List.range (c.o.L.size g)).map fun k => c.o.posG g s k) := by
  obtain ⟨is, h1, h2, _, h4⟩ := C05_group_at_stage ho hg (lookup_of_group ho hg) s hs
  rw [h1]
  congr 1
  apply List.ext_getElem?
  intro k
  by_cases hk : k < c.o.L.size g
  · have hk' : k < (c.o.L.namesOf g).length := hk
    obtain ⟨p, hp, hq⟩ := h4 k _ (List.getElem?_eq_getElem hk')
    have h5 := index_posG ho hg hk hs
    have e : (c.o.L.namesOf g).getD k "" = (c.o.L.namesOf g)[k] := by simp [hk']
    rw [e] at h5
    have h6 : c.o.L.indexInDec g (c.o.L.namesOf g)[k] (some (s : Int)) = .ok (.scalar p) := hq
    rw [h5] at h6
    simp only [Except.ok.injEq, Idx.scalar.injEq] at h6
    rw [hp, ← h6]
    simp [hk]
  · have hk' : (c.o.L.namesOf g).length ≤ k := Nat.le_of_not_lt hk
    rw [List.getElem?_eq_none (by omega)]
    simp [Nat.le_of_not_lt hk]

/-- Positions of the `states_dot` entries, in order. -/
def idxSd (c : CondOCP) : List Nat :=
  (List.range c.o.L.numStages).flatMap fun (s : Nat) => (List.range c.M.nx).map fun k => c.o.posG "states_dot" s k

theorem groupIndices_dec (h : c.Good) : c.o.L.groupIndicesInDec "states_dot" = .ok c.idxSd := by
  unfold groupIndicesInDec
  have hm := mapM_ok (fun (s : Nat) => c.o.L.groupIndicesAtStage "states_dot" (s : Int))
    (fun (s : Nat) => (List.range (c.o.L.size "states_dot")).map fun k => c.o.posG "states_dot" s k) (List.range c.o.L.numStages)
    (fun s hs => groupIndices_at h.ocp.made h.ocp.statesDot (List.mem_range.mp hs))
  rw [hm]
  simp only [bind, Except.bind, pure, Except.pure, idxSd, List.flatMap, h.sizeD]

theorem mem_idxSd {p : Nat} : p ∈ c.idxSd ↔ ∃ s k, s < c.o.L.numStages ∧ k < c.M.nx ∧ p = c.o.posG "states_dot" s k := by
  simp only [idxSd, List.mem_flatMap, List.mem_range, List.mem_map]
  constructor
  · rintro ⟨s, hs, k, hk, rfl⟩; exact ⟨s, k, hs, hk, rfl⟩
  · rintro ⟨s, k, hs, hk, rfl⟩; exact ⟨s, hs, k, hk, rfl⟩

theorem getElem?_idxSd {s k : Nat} (hs : s < c.o.L.numStages) (hk : k < c.M.nx) :
    c.idxSd[s * c.M.nx + k]? = some (c.o.posG "states_dot" s k) := by
  have hr : Np.Rect c.o.L.numStages c.M.nx ((List.range c.o.L.numStages).map fun (s : Nat) =>
      (List.range c.M.nx).map fun k => c.o.posG "states_dot" s k) := by
    refine ⟨by simp, ?_⟩
    intro r hr
    obtain ⟨s, _, rfl⟩ := List.mem_map.mp hr
    simp
  unfold idxSd
  rw [List.flatMap, Np.getElem?_flatten_rect hr s k hk]
  simp [hs, hk]

theorem length_zeroAt (x : List ℝ) (idx : List Nat) : (zeroAt x idx).length = x.length := by
  unfold zeroAt
  induction idx generalizing x with
  | nil => rfl
  | cons a l ih => simp [ih]

theorem getD_zeroAt (x : List ℝ) (idx : List Nat) (i : Nat) :
    (zeroAt x idx).getD i 0 = if i ∈ idx then 0 else x.getD i 0 := by
  induction idx generalizing x with
  | nil => simp [zeroAt]
  | cons a l ih =>
    have : zeroAt x (a :: l) = zeroAt (x.set a 0) l := rfl
    rw [this, ih]
    by_cases h1 : i ∈ l
    · simp [h1]
    · by_cases h2 : i = a
      · subst h2
        simp only [h1, if_false, List.mem_cons, true_or, if_true, List.getD_eq_getElem?_getD, List.getElem?_set]
        split <;> simp
      · simp only [h1, h2, if_false, List.mem_cons, or_self, List.getD_eq_getElem?_getD]
        rw [List.getElem?_set_ne (by omega)]

/-! ## The vector with the model's state derivatives -/

/-- The variables of stage `s` with the state derivatives replaced by the model's. -/
noncomputable def condStage (c : CondOCP) (x : List ℝ) (s : Nat) : List ℝ :=
  let v := c.o.stageVars x s
  c.M.xOf v ++ (c.M.uOf v ++ (c.M.f (c.M.xOf v) (c.M.uOf v) (c.mesh.getD s 0 * c.o.scaleOf x) ++ (c.M.wOf v).drop c.M.nx))

/-- The decision vector with the state derivatives replaced by the model's. -/
noncomputable def condX (c : CondOCP) (x : List ℝ) : List ℝ :=
  (List.range c.o.L.numStages).flatMap (fun (s : Nat) => c.condStage x s) ++ x.drop c.o.L.numAllStageVar

theorem len_v (h : c.Good) {x : List ℝ} (hx : x.length = c.o.L.numDec) {s : Nat} (hs : s < c.o.L.numStages) :
    (c.o.stageVars x s).length = c.M.numVar := by rw [length_stageVars hx hs, h.width]

theorem length_condStage (h : c.Good) {x : List ℝ} (hx : x.length = c.o.L.numDec) {s : Nat} (hs : s < c.o.L.numStages) :
    (c.condStage x s).length = c.o.L.numVarStage := by
  have hv := len_v h hx hs
  simp only [condStage, List.length_append, List.length_drop]
  rw [h.model.lenF _ _ _ (ExplicitModel.length_xOf hv) (ExplicitModel.length_uOf hv), ExplicitModel.length_xOf hv,
    ExplicitModel.length_uOf hv, ExplicitModel.length_wOf hv, h.width']
  omega

theorem rect_condStage (h : c.Good) {x : List ℝ} (hx : x.length = c.o.L.numDec) :
    Np.Rect c.o.L.numStages c.o.L.numVarStage ((List.range c.o.L.numStages).map fun (s : Nat) => c.condStage x s) := by
  refine ⟨by simp, ?_⟩
  intro r hr
  obtain ⟨s, hs, rfl⟩ := List.mem_map.mp hr
  exact length_condStage h hx (List.mem_range.mp hs)

theorem length_condX (h : c.Good) {x : List ℝ} (hx : x.length = c.o.L.numDec) : (c.condX x).length = c.o.L.numDec := by
  unfold condX
  rw [List.length_append, List.flatMap, Np.flatten_rect_length (rect_condStage h hx), List.length_drop, hx]
  unfold numDec numAllStageVar; omega

theorem stageVars_condX (h : c.Good) {x : List ℝ} (hx : x.length = c.o.L.numDec) {s : Nat} (hs : s < c.o.L.numStages) :
    c.o.stageVars (c.condX x) s = c.condStage x s := by
  have hr := rect_condStage h hx
  have hl := Np.flatten_rect_length hr
  have h3 : (s + 1) * c.o.L.numVarStage ≤ c.o.L.numStages * c.o.L.numVarStage := Nat.mul_le_mul_right _ hs
  rw [Nat.add_mul, Nat.one_mul] at h3
  apply List.ext_getElem?
  intro q
  by_cases hq : q < c.o.L.numVarStage
  · unfold stageVars condX
    rw [List.getElem?_take_of_lt hq, List.getElem?_drop, List.flatMap, List.getElem?_append_left (by omega),
      Np.getElem?_flatten_rect hr s q hq]
    simp [hs]
  · rw [List.getElem?_eq_none, List.getElem?_eq_none]
    · rw [length_condStage h hx hs]; omega
    · rw [length_stageVars (length_condX h hx) hs]; omega

theorem getD_condX_glob (h : c.Good) {x : List ℝ} (hx : x.length = c.o.L.numDec) {p : Nat}
    (hp : c.o.L.numAllStageVar ≤ p) : (c.condX x).getD p 0 = x.getD p 0 := by
  have hl := Np.flatten_rect_length (rect_condStage h hx)
  have : c.o.L.numAllStageVar = c.o.L.numStages * c.o.L.numVarStage := rfl
  unfold condX
  rw [List.getD_eq_getElem?_getD, List.flatMap, List.getElem?_append_right (by omega), List.getElem?_drop, hl,
    List.getD_eq_getElem?_getD]
  congr 2; omega

theorem scaleOf_condX (h : c.Good) {x : List ℝ} (hx : x.length = c.o.L.numDec) :
    c.o.scaleOf (c.condX x) = c.o.scaleOf x := by
  unfold scaleOf
  cases hf : c.o.fixedScale with
  | some s => rfl
  | none =>
    dsimp only
    exact getD_condX_glob h hx (by unfold posM; omega)

/-- The derivative of state `k` at stage `s`, as the model computes it. -/
noncomputable def fAt (c : CondOCP) (x : List ℝ) (s k : Nat) : ℝ :=
  (c.M.f (c.M.xOf (c.o.stageVars x s)) (c.M.uOf (c.o.stageVars x s)) (c.mesh.getD s 0 * c.o.scaleOf x)).getD k 0

theorem getD_of_stage {x : List ℝ} {s q : Nat} (hq : q < c.o.L.numVarStage) :
    x.getD (s * c.o.L.numVarStage + q) 0 = (c.o.stageVars x s).getD q 0 := (getD_stageVars c.o x s hq).symm

theorem getD_replaceDot {v d : List ℝ} (hv : v.length = c.M.numVar) (hd : d.length = c.M.nx) (q : Nat) :
    (c.M.xOf v ++ (c.M.uOf v ++ (d ++ (c.M.wOf v).drop c.M.nx))).getD q 0 =
      if c.M.nx + c.M.nu ≤ q ∧ q < c.M.nx + c.M.nu + c.M.nx then d.getD (q - (c.M.nx + c.M.nu)) 0
      else v.getD q 0 := by
  have lx := ExplicitModel.length_xOf hv
  have lu := ExplicitModel.length_uOf hv
  simp only [List.getD_eq_getElem?_getD]
  by_cases h1 : q < c.M.nx
  · rw [List.getElem?_append_left (by omega), if_neg (by omega)]
    unfold ExplicitModel.xOf
    rw [List.getElem?_take_of_lt h1]
  · rw [List.getElem?_append_right (by omega), lx]
    by_cases h2 : q < c.M.nx + c.M.nu
    · rw [List.getElem?_append_left (by omega), if_neg (by omega)]
      unfold ExplicitModel.uOf
      rw [List.getElem?_drop, List.getElem?_take_of_lt (by omega)]
      congr 2; omega
    · rw [List.getElem?_append_right (by omega), lu]
      by_cases h3 : q < c.M.nx + c.M.nu + c.M.nx
      · rw [List.getElem?_append_left (by omega), if_pos (by omega)]
        congr 2; omega
      · rw [List.getElem?_append_right (by omega), hd, if_neg (by omega), List.getElem?_drop]
        unfold ExplicitModel.wOf
        rw [List.getElem?_drop]
        congr 2; omega

theorem getD_condStage (h : c.Good) {x : List ℝ} (hx : x.length = c.o.L.numDec) {s : Nat} (hs : s < c.o.L.numStages)
    (q : Nat) : (c.condStage x s).getD q 0 =
      if c.M.nx + c.M.nu ≤ q ∧ q < c.M.nx + c.M.nu + c.M.nx then c.fAt x s (q - (c.M.nx + c.M.nu))
      else (c.o.stageVars x s).getD q 0 := by
  have hv := len_v h hx hs
  exact getD_replaceDot hv (h.model.lenF _ _ _ (ExplicitModel.length_xOf hv) (ExplicitModel.length_uOf hv)) q

theorem condX_states (h : c.Good) {x : List ℝ} (hx : x.length = c.o.L.numDec) {s k : Nat} (hs : s < c.o.L.numStages)
    (hk : k < c.M.nx) : (c.condX x).getD (c.o.posG "states" s k) 0 = x.getD (c.o.posG "states" s k) 0 := by
  have := h.width'
  rw [posG_states h, getD_of_stage (by omega), getD_of_stage (by omega), stageVars_condX h hx hs, getD_condStage h hx hs,
    if_neg (by omega)]

theorem condX_dot (h : c.Good) {x : List ℝ} (hx : x.length = c.o.L.numDec) {s k : Nat} (hs : s < c.o.L.numStages)
    (hk : k < c.M.nx) : (c.condX x).getD (c.o.posG "states_dot" s k) 0 = c.fAt x s k := by
  have := h.width'
  rw [posG_dot h, getD_of_stage (by omega), stageVars_condX h hx hs, getD_condStage h hx hs, if_pos (by omega)]
  congr 1; omega

/-- Outside the `states_dot` positions nothing changes. -/
theorem condX_other (h : c.Good) {x : List ℝ} (hx : x.length = c.o.L.numDec) {p : Nat} (hp : p ∉ c.idxSd) :
    (c.condX x).getD p 0 = x.getD p 0 := by
  by_cases hg : c.o.L.numAllStageVar ≤ p
  · exact getD_condX_glob h hx hg
  · obtain ⟨s, q, hs, hq, rfl⟩ := stage_row_decompose (Nat.lt_of_not_le hg)
    rw [getD_of_stage hq, getD_of_stage hq, stageVars_condX h hx hs, getD_condStage h hx hs, if_neg]
    rintro ⟨h1, h2⟩
    apply hp
    rw [mem_idxSd]
    refine ⟨s, q - (c.M.nx + c.M.nu), hs, by omega, ?_⟩
    rw [posG_dot h]; omega

/-! ## Structured variables -/

theorem xOf_append {x w : List ℝ} (hx : x.length = c.M.nx) : c.M.xOf (x ++ w) = x := List.take_left' hx

theorem uOf_append {x u w : List ℝ} (hx : x.length = c.M.nx) (hu : u.length = c.M.nu) : c.M.uOf (x ++ (u ++ w)) = u := by
  unfold ExplicitModel.uOf
  rw [← hx, ← hu, ← List.append_assoc, List.take_left' (by simp), List.drop_left' rfl]

theorem wOf_append {x u w : List ℝ} (hx : x.length = c.M.nx) (hu : u.length = c.M.nu) : c.M.wOf (x ++ (u ++ w)) = w := by
  unfold ExplicitModel.wOf
  rw [← hx, ← hu, ← List.append_assoc, List.drop_left' (by simp)]

theorem parts_of (v : List ℝ) :
    v = c.M.xOf v ++ (c.M.uOf v ++ ((c.M.wOf v).take c.M.nx ++ (c.M.wOf v).drop c.M.nx)) := by
  rw [List.take_append_drop]
  unfold ExplicitModel.xOf ExplicitModel.uOf ExplicitModel.wOf
  have e : v.take c.M.nx ++ (v.take (c.M.nx + c.M.nu)).drop c.M.nx = v.take (c.M.nx + c.M.nu) := by
    conv_rhs => rw [← List.take_append_drop c.M.nx (v.take (c.M.nx + c.M.nu))]
    rw [List.take_take, Nat.min_eq_left (by omega)]
  rw [← List.append_assoc, e, List.take_append_drop]

theorem flatImplicit_parts (hM : c.M.Good) {x u d y : List ℝ} (hx : x.length = c.M.nx) (hu : u.length = c.M.nu)
    (hd : d.length = c.M.nx) (hy : y.length = c.M.ny) (μ : ℝ) :
    c.M.flatImplicit (x ++ (u ++ (d ++ y))) μ
      = List.zipWith (· - ·) (c.M.f x u μ) d ++ (List.zipWith (· - ·) (c.M.h x u μ) y ++ c.M.r x u μ) := by
  have hv : (x ++ (u ++ (d ++ y))).length = c.M.numVar := by
    rw [ExplicitModel.numVar_eq]; simp [hx, hu, hd, hy]; omega
  rw [ExplicitModel.flatImplicit_eq hM hv]
  unfold ExplicitModel.rhs
  rw [xOf_append hx, uOf_append hx hu, wOf_append hx hu, List.zipWith_append, List.append_assoc]
  rw [hM.lenF _ _ _ hx hu, hd]

/-- The structured variables of a decision vector. -/
theorem unflattenVar_eq (h : c.Good) {x : List ℝ} (hx : x.length = c.o.L.numDec) :
    c.o.L.unflattenVar x = .ok ⟨[
      ("states", (List.range c.o.L.numStages).map fun s => c.M.xOf (c.o.stageVars x s)),
      ("inputs", (List.range c.o.L.numStages).map fun s => c.M.uOf (c.o.stageVars x s)),
      ("states_dot", (List.range c.o.L.numStages).map fun s => (c.M.wOf (c.o.stageVars x s)).take c.M.nx),
      ("con_outputs", (List.range c.o.L.numStages).map fun s => (c.M.wOf (c.o.stageVars x s)).drop c.M.nx)],
      c.o.L.globals.zip (x.drop c.o.L.numAllStageVar)⟩ := by
  have hw := numVarStage_pos h.ocp
  have hlen : (x.take c.o.L.numAllStageVar).length = c.o.L.numStages * c.o.L.numVarStage := by
    rw [List.length_take, hx]; unfold numDec numAllStageVar; omega
  have hrows : Np.reshapeRows c.o.L.numStages c.o.L.numVarStage (x.take c.o.L.numAllStageVar)
      = (List.range c.o.L.numStages).map fun s => c.o.stageVars x s := by
    unfold Np.reshapeRows
    apply List.map_congr_left
    intro s hs
    have h3 : (s + 1) * c.o.L.numVarStage ≤ c.o.L.numStages * c.o.L.numVarStage :=
      Nat.mul_le_mul_right _ (List.mem_range.mp hs)
    rw [Nat.add_mul, Nat.one_mul] at h3
    unfold stageVars
    rw [List.drop_take, List.take_take]
    congr 1
    unfold numAllStageVar; omega
  have hsizes : c.o.L.sizes = [c.M.nx, c.M.nu, c.M.nx, c.M.ny] := by
    unfold sizes; rw [h.groups]; simp [h.sizeX, h.sizeU, h.sizeD, h.sizeY]
  have hc : Np.cumsum ([c.M.nx, c.M.nu, c.M.nx, c.M.ny] : List Nat).dropLast
      = [c.M.nx, c.M.nx + c.M.nu, c.M.nx + c.M.nu + c.M.nx] := by
    simp [Np.cumsum, Nat.add_assoc]
  unfold unflattenVar reshapeInfer
  dsimp only
  rw [if_neg (by omega), hlen, Nat.mul_mod_left, if_pos rfl, Nat.mul_div_cancel _ hw, hrows, hsizes, hc]
  simp only [bind, Except.bind]
  rw [if_pos h.ocp.fields.nodup, if_neg (by rw [List.length_drop, hx]; unfold numDec numGlobal; omega)]
  simp only [pure, Except.pure, Except.ok.injEq, Vars.mk.injEq, and_true]
  rw [h.groups]
  have hr : List.range 4 = [0, 1, 2, 3] := by decide
  simp only [splitCols, List.length_cons, List.length_nil, hr, List.map_cons, List.map_nil, List.map_map, List.zip_cons_cons,
    List.zip_nil_left, Np.split, Np.splitFrom]
  simp only [List.cons.injEq, Prod.mk.injEq, true_and, and_true]
  refine ⟨?_, ?_, ?_, ?_⟩ <;> apply List.map_congr_left <;> intro s hs <;>
    simp only [Function.comp, List.getD_cons_zero, List.getD_cons_succ, List.drop_zero, ExplicitModel.xOf,
      ExplicitModel.uOf, ExplicitModel.wOf]
  · rw [List.drop_take]; simp
  · rw [List.drop_drop]

theorem xOf_condStage (h : c.Good) {x : List ℝ} (hx : x.length = c.o.L.numDec) {s : Nat} (hs : s < c.o.L.numStages) :
    c.M.xOf (c.condStage x s) = c.M.xOf (c.o.stageVars x s) :=
  xOf_append (ExplicitModel.length_xOf (len_v h hx hs))

theorem uOf_condStage (h : c.Good) {x : List ℝ} (hx : x.length = c.o.L.numDec) {s : Nat} (hs : s < c.o.L.numStages) :
    c.M.uOf (c.condStage x s) = c.M.uOf (c.o.stageVars x s) :=
  uOf_append (ExplicitModel.length_xOf (len_v h hx hs)) (ExplicitModel.length_uOf (len_v h hx hs))

theorem wOf_condStage (h : c.Good) {x : List ℝ} (hx : x.length = c.o.L.numDec) {s : Nat} (hs : s < c.o.L.numStages) :
    c.M.wOf (c.condStage x s) =
      c.M.f (c.M.xOf (c.o.stageVars x s)) (c.M.uOf (c.o.stageVars x s)) (c.mesh.getD s 0 * c.o.scaleOf x)
        ++ (c.M.wOf (c.o.stageVars x s)).drop c.M.nx :=
  wOf_append (ExplicitModel.length_xOf (len_v h hx hs)) (ExplicitModel.length_uOf (len_v h hx hs))

theorem lenF (h : c.Good) {x : List ℝ} (hx : x.length = c.o.L.numDec) {s : Nat} (hs : s < c.o.L.numStages) (μ : ℝ) :
    (c.M.f (c.M.xOf (c.o.stageVars x s)) (c.M.uOf (c.o.stageVars x s)) μ).length = c.M.nx :=
  h.model.lenF _ _ _ (ExplicitModel.length_xOf (len_v h hx hs)) (ExplicitModel.length_uOf (len_v h hx hs))

theorem drop_condX (h : c.Good) {x : List ℝ} (hx : x.length = c.o.L.numDec) :
    (c.condX x).drop c.o.L.numAllStageVar = x.drop c.o.L.numAllStageVar := by
  unfold condX
  rw [List.drop_left']
  rw [List.flatMap, Np.flatten_rect_length (rect_condStage h hx)]; rfl

theorem unflatten_condX (h : c.Good) {x : List ℝ} (hx : x.length = c.o.L.numDec) :
    c.o.L.unflattenVar (c.condX x) = .ok ⟨[
      ("states", (List.range c.o.L.numStages).map fun s => c.M.xOf (c.o.stageVars x s)),
      ("inputs", (List.range c.o.L.numStages).map fun s => c.M.uOf (c.o.stageVars x s)),
      ("states_dot", (List.range c.o.L.numStages).map fun s =>
        c.M.f (c.M.xOf (c.o.stageVars x s)) (c.M.uOf (c.o.stageVars x s)) (c.mesh.getD s 0 * c.o.scaleOf x)),
      ("con_outputs", (List.range c.o.L.numStages).map fun s => (c.M.wOf (c.o.stageVars x s)).drop c.M.nx)],
      c.o.L.globals.zip (x.drop c.o.L.numAllStageVar)⟩ := by
  rw [unflattenVar_eq h (length_condX h hx), drop_condX h hx]
  simp only [Except.ok.injEq, Vars.mk.injEq, List.cons.injEq, Prod.mk.injEq, true_and, and_true]
  refine ⟨?_, ?_, ?_, ?_⟩ <;> apply List.map_congr_left <;> intro s hs <;> have hs := List.mem_range.mp hs <;>
    rw [stageVars_condX h hx hs]
  · exact xOf_condStage h hx hs
  · exact uOf_condStage h hx hs
  · rw [wOf_condStage h hx hs, List.take_left' (lenF h hx hs _)]
  · rw [wOf_condStage h hx hs, List.drop_left' (lenF h hx hs _)]

theorem withModelDot_eq (h : c.Good) {x : List ℝ} (hx : x.length = c.o.L.numDec) :
    c.withModelDot x = .ok (c.condX x) := by
  have hfl : ∃ v, c.o.L.unflattenVar (c.condX x) = .ok v ∧ c.o.L.flattenVar v = .ok (c.condX x) := by
    obtain ⟨v, h1, _, h3⟩ := C03_flatten_unflatten h.ocp.fields (c.condX x) (length_condX h hx)
    exact ⟨v, h1, h3⟩
  obtain ⟨v, h1, h2⟩ := hfl
  rw [unflatten_condX h hx] at h1
  simp only [Except.ok.injEq] at h1
  unfold withModelDot
  dsimp only
  rw [unflattenVar_eq h hx, meshScale_eq h.ocp hx]
  simp only [bind, Except.bind, field]
  have l1 : ∀ a b d e : List (List ℝ), (([("states", a), ("inputs", b), ("states_dot", d), ("con_outputs", e)] :
      List (String × List (List ℝ))).lookup "states" = some a) ∧
      (([("states", a), ("inputs", b), ("states_dot", d), ("con_outputs", e)] :
      List (String × List (List ℝ))).lookup "inputs" = some b) ∧
      (([("states", a), ("inputs", b), ("states_dot", d), ("con_outputs", e)] :
      List (String × List (List ℝ))).lookup "con_outputs" = some e) := by
    intro a b d e; exact ⟨rfl, rfl, rfl⟩
  rw [(l1 _ _ _ _).1, (l1 _ _ _ _).2.1, (l1 _ _ _ _).2.2]
  dsimp only
  have hz : List.zipWith (fun (p : List ℝ × List ℝ) m => c.M.f p.1 p.2 m)
      (((List.range c.o.L.numStages).map fun s => c.M.xOf (c.o.stageVars x s)).zip
        ((List.range c.o.L.numStages).map fun s => c.M.uOf (c.o.stageVars x s))) (c.mesh.map (· * c.o.scaleOf x))
      = (List.range c.o.L.numStages).map fun s =>
        c.M.f (c.M.xOf (c.o.stageVars x s)) (c.M.uOf (c.o.stageVars x s)) (c.mesh.getD s 0 * c.o.scaleOf x) := by
    rw [mesh_as_range h.stage.points, List.zip_map, List.zip_eq_zipWith, List.zipWith_self, List.map_map,
      List.zipWith_map, List.zipWith_self]
    rfl
  rw [hz, ← h2, ← h1]
  unfold flattenVar
  rw [h.groups]
  rfl

/-! ## The condensed constraints in closed form -/

theorem ext_getD {a b : List ℝ} (hl : a.length = b.length) (h : ∀ i, a.getD i 0 = b.getD i 0) : a = b := by
  apply List.ext_getElem?
  intro i
  by_cases hi : i < a.length
  · have hi' : i < b.length := by omega
    have := h i
    simp only [List.getD_eq_getElem?_getD, List.getElem?_eq_getElem hi, List.getElem?_eq_getElem hi',
      Option.getD_some] at this
    rw [List.getElem?_eq_getElem hi, List.getElem?_eq_getElem hi', this]
  · rw [List.getElem?_eq_none (by omega), List.getElem?_eq_none (by omega)]

theorem mem_idxSd_iff (h : c.Good) {s q : Nat} (hs : s < c.o.L.numStages) (hq : q < c.o.L.numVarStage) :
    s * c.o.L.numVarStage + q ∈ c.idxSd ↔ c.M.nx + c.M.nu ≤ q ∧ q < c.M.nx + c.M.nu + c.M.nx := by
  have hw := h.width'
  rw [mem_idxSd]
  constructor
  · rintro ⟨s', k, _, hk, e⟩
    rw [posG_dot h] at e
    have hq' : c.M.nx + c.M.nu + k < c.o.L.numVarStage := by omega
    have e2 : q = c.M.nx + c.M.nu + k := by
      have := congrArg (· % c.o.L.numVarStage) e
      simp only [Nat.mul_add_mod_self_right, Nat.mod_eq_of_lt hq, Nat.mod_eq_of_lt hq'] at this
      exact this
    omega
  · rintro ⟨h1, h2⟩
    refine ⟨s, q - (c.M.nx + c.M.nu), hs, by omega, ?_⟩
    rw [posG_dot h]; omega

theorem stageVars_zero (h : c.Good) {x : List ℝ} (hx : x.length = c.o.L.numDec) {s : Nat} (hs : s < c.o.L.numStages) :
    c.o.stageVars (zeroAt x c.idxSd) s = c.M.xOf (c.o.stageVars x s) ++ (c.M.uOf (c.o.stageVars x s) ++
      (List.replicate c.M.nx 0 ++ (c.M.wOf (c.o.stageVars x s)).drop c.M.nx)) := by
  have hv := len_v h hx hs
  have hw := h.width'
  have lx := ExplicitModel.length_xOf hv
  have lu := ExplicitModel.length_uOf hv
  have lw := ExplicitModel.length_wOf hv
  apply ext_getD
  · rw [length_stageVars (by rw [length_zeroAt, hx]) hs]
    simp only [List.length_append, List.length_replicate, List.length_drop, lx, lu, lw]
    omega
  · intro q
    rw [getD_replaceDot hv (by simp)]
    by_cases hq : q < c.o.L.numVarStage
    · rw [getD_stageVars _ _ _ hq, getD_zeroAt]
      by_cases hin : c.M.nx + c.M.nu ≤ q ∧ q < c.M.nx + c.M.nu + c.M.nx
      · rw [if_pos ((mem_idxSd_iff h hs hq).mpr hin), if_pos hin]
        have : q - (c.M.nx + c.M.nu) < c.M.nx := by omega
        simp [this]
      · rw [if_neg (fun hm => hin ((mem_idxSd_iff h hs hq).mp hm)), if_neg hin, getD_stageVars _ _ _ hq]
    · have l1 := length_stageVars (o := c.o) (x := zeroAt x c.idxSd) (by rw [length_zeroAt, hx]) hs
      rw [if_neg (by omega)]
      simp only [List.getD_eq_getElem?_getD]
      rw [List.getElem?_eq_none (by omega), List.getElem?_eq_none (by rw [hv, ← h.width]; omega)]

theorem scaleOf_zero (h : c.Good) (x : List ℝ) : c.o.scaleOf (zeroAt x c.idxSd) = c.o.scaleOf x := by
  unfold scaleOf
  cases hf : c.o.fixedScale with
  | some s => rfl
  | none =>
    dsimp only
    rw [getD_zeroAt, if_neg]
    rw [mem_idxSd]
    rintro ⟨s, k, hs, hk, e⟩
    have := posG_lt (o := c.o) h.ocp.made h.ocp.statesDot (by rw [h.sizeD]; exact hk) hs
    unfold posM at e
    omega

/-- The model-algebra rows of a stage other than the state derivatives. -/
noncomputable def algRest (c : CondOCP) (x : List ℝ) (s : Nat) : List ℝ :=
  (c.M.flatImplicit (c.o.stageVars x s) (c.mesh.getD s 0 * c.o.scaleOf x)).drop c.M.nx

theorem zipWith_sub_zero (l : List ℝ) : List.zipWith (· - ·) l (List.replicate l.length 0) = l := by
  induction l with
  | nil => rfl
  | cons a l ih => simp [List.replicate_succ, ih]

/-- The model algebra at the point with zero state derivatives: the model's derivatives, then the other rows. -/
theorem alg_zero (h : c.Good) {x : List ℝ} (hx : x.length = c.o.L.numDec) {s : Nat} (hs : s < c.o.L.numStages) (μ : ℝ) :
    c.M.flatImplicit (c.o.stageVars (zeroAt x c.idxSd) s) μ =
      c.M.f (c.M.xOf (c.o.stageVars x s)) (c.M.uOf (c.o.stageVars x s)) μ
        ++ (c.M.flatImplicit (c.o.stageVars x s) μ).drop c.M.nx := by
  have hv := len_v h hx hs
  have lx := ExplicitModel.length_xOf hv
  have lu := ExplicitModel.length_uOf hv
  have lw := ExplicitModel.length_wOf hv
  have lf := lenF h hx hs μ
  have ly : ((c.M.wOf (c.o.stageVars x s)).drop c.M.nx).length = c.M.ny := by rw [List.length_drop, lw]; omega
  have ld : ((c.M.wOf (c.o.stageVars x s)).take c.M.nx).length = c.M.nx := by rw [List.length_take, lw]; omega
  rw [stageVars_zero h hx hs, flatImplicit_parts h.model lx lu (by simp) ly]
  conv_rhs => rw [parts_of (c := c) (c.o.stageVars x s)]
  rw [xOf_append lx, uOf_append lx lu, flatImplicit_parts h.model lx lu ld ly]
  congr 1
  · rw [← lf]; exact zipWith_sub_zero _
  · rw [List.drop_left']
    rw [List.length_zipWith, lf, ld]; simp

/-- The condensed constraints as a plain function. -/
noncomputable def condFun (c : CondOCP) (x : List ℝ) : List ℝ :=
  c.o.contFun (c.condX x) ++ (List.range c.o.L.numStages).flatMap fun (s : Nat) => c.algRest x s

theorem field_states {x : List ℝ} {v : Vars ℝ} (hv : c.o.L.unflattenVar x = .ok v) {g : String} {m : List (List ℝ)}
    (hm : v.stage.lookup g = some m) : intervalTensor c.o.L x g = batchConv1d m c.o.L.nspi (c.o.L.nspi - 1) := by
  unfold intervalTensor
  simp only [hv, bind, Except.bind, hm]

theorem constraints_eq (h : c.Good) {x : List ℝ} (hx : x.length = c.o.L.numDec) :
    c.constraints x = .ok (c.condFun x) := by
  have hz : (zeroAt x c.idxSd).length = c.o.L.numDec := by rw [length_zeroAt, hx]
  have hS : 0 < c.o.L.numStages := by unfold numStages; omega
  -- the model algebra, reshaped
  have hrect : Np.Rect c.o.L.numStages c.M.numRes ((List.range c.o.L.numStages).map fun (s : Nat) =>
      c.u.con (c.o.stageVars (zeroAt x c.idxSd) s) (c.mesh.getD s 0 * c.o.scaleOf (zeroAt x c.idxSd))) := by
    refine ⟨by simp, ?_⟩
    intro r hr
    obtain ⟨s, hs, rfl⟩ := List.mem_map.mp hr
    rw [← h.numCon]
    exact h.unitSize _ _ (by rw [h.numIn, len_v h hz (List.mem_range.mp hs)])
  have hresh : reshapeCols c.o.L.numStages (c.o.stageFun c.u c.mesh (zeroAt x c.idxSd)) =
      .ok ((List.range c.o.L.numStages).map fun (s : Nat) =>
        c.M.f (c.M.xOf (c.o.stageVars x s)) (c.M.uOf (c.o.stageVars x s)) (c.mesh.getD s 0 * c.o.scaleOf x)
          ++ c.algRest x s) := by
    have hl := Np.flatten_rect_length hrect
    unfold reshapeCols
    have e : c.o.stageFun c.u c.mesh (zeroAt x c.idxSd) = ((List.range c.o.L.numStages).map fun (s : Nat) =>
      c.u.con (c.o.stageVars (zeroAt x c.idxSd) s) (c.mesh.getD s 0 * c.o.scaleOf (zeroAt x c.idxSd))).flatten := rfl
    rw [e, if_neg (by omega), hl, Nat.mul_mod_right, if_pos rfl, Nat.mul_div_cancel_left _ hS,
      Np.reshapeRows_flatten hrect]
    congr 1
    apply List.map_congr_left
    intro s hs
    rw [h.con, scaleOf_zero h, alg_zero h hx (List.mem_range.mp hs)]
    rfl
  have htake : ((List.range c.o.L.numStages).map fun (s : Nat) =>
        c.M.f (c.M.xOf (c.o.stageVars x s)) (c.M.uOf (c.o.stageVars x s)) (c.mesh.getD s 0 * c.o.scaleOf x)
          ++ c.algRest x s).map (·.take c.M.nx) = (List.range c.o.L.numStages).map fun (s : Nat) =>
        c.M.f (c.M.xOf (c.o.stageVars x s)) (c.M.uOf (c.o.stageVars x s)) (c.mesh.getD s 0 * c.o.scaleOf x) := by
    rw [List.map_map]
    apply List.map_congr_left
    intro s hs
    exact List.take_left' (lenF h hx (List.mem_range.mp hs) _)
  have hdrop : ((List.range c.o.L.numStages).map fun (s : Nat) =>
        c.M.f (c.M.xOf (c.o.stageVars x s)) (c.M.uOf (c.o.stageVars x s)) (c.mesh.getD s 0 * c.o.scaleOf x)
          ++ c.algRest x s).map (·.drop c.M.nx) = (List.range c.o.L.numStages).map fun (s : Nat) => c.algRest x s := by
    rw [List.map_map]
    apply List.map_congr_left
    intro s hs
    exact List.drop_left' (lenF h hx (List.mem_range.mp hs) _)
  have hx' := length_condX h hx
  obtain ⟨X, hX, hXat⟩ := tensor_at h.ocp hx' h.ocp.states
  obtain ⟨Xd, hXd, hXdat⟩ := tensor_at h.ocp hx' h.ocp.statesDot
  rw [field_states (unflatten_condX h hx) (g := "states") rfl] at hX
  rw [field_states (unflatten_condX h hx) (g := "states_dot") rfl] at hXd
  unfold constraints
  dsimp only
  rw [unflattenVar_eq h hx, groupIndices_dec h]
  simp only [bind, Except.bind]
  rw [stageConstraints_eq h.stage hz]
  dsimp only
  rw [hresh, meshScale_eq h.ocp hx]
  dsimp only [field]
  rw [htake, hdrop, hXd]
  have l1 : ∀ a b d e : List (List ℝ), (([("states", a), ("inputs", b), ("states_dot", d), ("con_outputs", e)] :
      List (String × List (List ℝ))).lookup "states" = some a) := fun _ _ _ _ => rfl
  rw [l1]
  dsimp only
  rw [hX]
  simp only [pure, Except.pure, Except.ok.injEq, condFun, List.flatMap]
  congr 1
  simp only [ravel, contFun]
  rw [h.numStates]
  apply List.map_congr_left
  intro t ht
  obtain ⟨i, l, k, rfl, hi, hl, hk⟩ := mem_multi3 ht
  simp only [List.getD_cons_zero, List.getD_cons_succ, sumStages, sum_range_list, defect]
  have hh : (c.o.normLen.map (· * c.o.scaleOf x)).getD i 0 = c.o.normLen.getD i 0 * c.o.scaleOf x := by
    have : i < c.o.normLen.length := by rw [h.ocp.lens]; exact hi
    simp [this]
  rw [scaleOf_condX h hx]
  congr 1
  · refine Finset.sum_congr rfl (fun j hj => ?_)
    rw [hXat i j k hi (Finset.mem_range.mp hj) (by rw [h.sizeX]; exact hk)]; rfl
  · refine Finset.sum_congr rfl (fun j hj => ?_)
    rw [hXdat i j k hi (Finset.mem_range.mp hj) (by rw [h.sizeD]; exact hk), hh]; rfl

/-! ## C28 -/

/-- Two decision vectors agree on everything but the state derivatives. -/
def SameButDot (c : CondOCP) (x y : List ℝ) : Prop :=
  ∃ idx, c.o.L.groupIndicesInDec "states_dot" = .ok idx ∧ ∀ p, p ∉ idx → y.getD p 0 = x.getD p 0

/-- All entries are zero. -/
def AllZero (l : List ℝ) : Prop := ∀ a ∈ l, a = 0

theorem sameButDot_iff (h : c.Good) {x y : List ℝ} :
    c.SameButDot x y ↔ ∀ p, p ∉ c.idxSd → y.getD p 0 = x.getD p 0 := by
  unfold SameButDot
  rw [groupIndices_dec h]
  constructor
  · rintro ⟨idx, e, h1⟩
    simp only [Except.ok.injEq] at e
    subst e
    exact h1
  · intro h1; exact ⟨_, rfl, h1⟩

theorem zeroAt_congr (h : c.Good) {x y : List ℝ} (hx : x.length = c.o.L.numDec) (hy : y.length = c.o.L.numDec)
    (hs : c.SameButDot x y) : zeroAt y c.idxSd = zeroAt x c.idxSd := by
  rw [sameButDot_iff h] at hs
  apply ext_getD
  · rw [length_zeroAt, length_zeroAt, hx, hy]
  · intro i
    rw [getD_zeroAt, getD_zeroAt]
    split
    · rfl
    · rename_i hi; exact hs i hi

theorem same_parts (h : c.Good) {x y : List ℝ} (hx : x.length = c.o.L.numDec) (hy : y.length = c.o.L.numDec)
    (hxy : c.SameButDot x y) {s : Nat} (hs : s < c.o.L.numStages) :
    c.M.xOf (c.o.stageVars y s) = c.M.xOf (c.o.stageVars x s) ∧
    c.M.uOf (c.o.stageVars y s) = c.M.uOf (c.o.stageVars x s) ∧
    (c.M.wOf (c.o.stageVars y s)).drop c.M.nx = (c.M.wOf (c.o.stageVars x s)).drop c.M.nx := by
  have e := zeroAt_congr h hx hy hxy
  have e1 := stageVars_zero h hx hs
  have e2 := stageVars_zero h hy hs
  rw [e, e1] at e2
  have lx := ExplicitModel.length_xOf (len_v h hx hs)
  have lu := ExplicitModel.length_uOf (len_v h hx hs)
  have lx' := ExplicitModel.length_xOf (len_v h hy hs)
  have lu' := ExplicitModel.length_uOf (len_v h hy hs)
  obtain ⟨h1, h2⟩ := List.append_inj e2 (by omega)
  obtain ⟨h3, h4⟩ := List.append_inj h2 (by omega)
  obtain ⟨_, h5⟩ := List.append_inj h4 (by simp)
  exact ⟨h1.symm, h3.symm, h5.symm⟩

theorem same_scale (h : c.Good) {x y : List ℝ} (hxy : c.SameButDot x y) : c.o.scaleOf y = c.o.scaleOf x := by
  rw [sameButDot_iff h] at hxy
  unfold scaleOf
  cases hf : c.o.fixedScale with
  | some s => rfl
  | none =>
    dsimp only
    apply hxy
    rw [mem_idxSd]
    rintro ⟨s, k, hs, hk, e⟩
    have := posG_lt (o := c.o) h.ocp.made h.ocp.statesDot (by rw [h.sizeD]; exact hk) hs
    unfold posM at e
    omega

theorem condX_congr (h : c.Good) {x y : List ℝ} (hx : x.length = c.o.L.numDec) (hy : y.length = c.o.L.numDec)
    (hxy : c.SameButDot x y) : c.condX y = c.condX x := by
  have hsc := same_scale h hxy
  apply ext_getD
  · rw [length_condX h hx, length_condX h hy]
  · intro p
    by_cases hp : p ∈ c.idxSd
    · obtain ⟨s, k, hs, hk, rfl⟩ := mem_idxSd.mp hp
      obtain ⟨h1, h2, _⟩ := same_parts h hx hy hxy hs
      rw [condX_dot h hx hs hk, condX_dot h hy hs hk]
      unfold fAt
      rw [h1, h2, hsc]
    · rw [condX_other h hx hp, condX_other h hy hp]
      exact (sameButDot_iff h).mp hxy p hp

theorem algRest_congr (h : c.Good) {x y : List ℝ} (hx : x.length = c.o.L.numDec) (hy : y.length = c.o.L.numDec)
    (hxy : c.SameButDot x y) {s : Nat} (hs : s < c.o.L.numStages) : c.algRest y s = c.algRest x s := by
  have hsc := same_scale h hxy
  have e1 := alg_zero h hx hs (c.mesh.getD s 0 * c.o.scaleOf x)
  have e2 := alg_zero h hy hs (c.mesh.getD s 0 * c.o.scaleOf x)
  rw [zeroAt_congr h hx hy hxy, e1] at e2
  have := (List.append_inj e2 (by rw [lenF h hx hs, lenF h hy hs])).2
  unfold algRest
  rw [hsc, ← this]

theorem sameButDot_condX (h : c.Good) {x : List ℝ} (hx : x.length = c.o.L.numDec) : c.SameButDot x (c.condX x) :=
  (sameButDot_iff h).mpr (fun _ hp => condX_other h hx hp)

theorem condFun_congr (h : c.Good) {x y : List ℝ} (hx : x.length = c.o.L.numDec) (hy : y.length = c.o.L.numDec)
    (hxy : c.SameButDot x y) : c.condFun y = c.condFun x := by
  unfold condFun
  rw [condX_congr h hx hy hxy]
  congr 1
  rw [List.flatMap, List.flatMap]
  congr 1
  apply List.map_congr_left
  intro s hs
  exact algRest_congr h hx hy hxy (List.mem_range.mp hs)

/-- Row `k` of the model algebra is the model's derivative minus the `states_dot` entry. -/
theorem alg_row (h : c.Good) {y : List ℝ} (hy : y.length = c.o.L.numDec) {s k : Nat} (hs : s < c.o.L.numStages)
    (hk : k < c.M.nx) :
    (c.o.stageFun c.u c.mesh y).getD (s * c.M.numRes + k) 0 = c.fAt y s k - y.getD (c.o.posG "states_dot" s k) 0 := by
  have hv := len_v h hy hs
  have lx := ExplicitModel.length_xOf hv
  have lu := ExplicitModel.length_uOf hv
  have lw := ExplicitModel.length_wOf hv
  have lf := lenF h hy hs (c.mesh.getD s 0 * c.o.scaleOf y)
  have ly : ((c.M.wOf (c.o.stageVars y s)).drop c.M.nx).length = c.M.ny := by rw [List.length_drop, lw]; omega
  have ld : ((c.M.wOf (c.o.stageVars y s)).take c.M.nx).length = c.M.nx := by rw [List.length_take, lw]; omega
  have hw := h.width'
  rw [List.getD_eq_getElem?_getD, ← h.numCon, stageFun_at h.stage h.unitSize hy hs
    (by rw [h.numCon]; unfold ExplicitModel.numRes; omega), h.con]
  rw [parts_of (c := c) (c.o.stageVars y s), flatImplicit_parts h.model lx lu ld ly, List.getElem?_append_left
    (by rw [List.length_zipWith]; omega), posG_dot h, getD_of_stage (by omega)]
  unfold fAt
  have hkf : k < (c.M.f (c.M.xOf (c.o.stageVars y s)) (c.M.uOf (c.o.stageVars y s))
    (c.mesh.getD s 0 * c.o.scaleOf y)).length := by omega
  have hkd : k < ((c.M.wOf (c.o.stageVars y s)).take c.M.nx).length := by omega
  have e : ((c.M.wOf (c.o.stageVars y s)).take c.M.nx)[k] = (c.o.stageVars y s).getD (c.M.nx + c.M.nu + k) 0 := by
    have h1 : c.M.nx + c.M.nu + k < (c.o.stageVars y s).length := by rw [hv, ← h.width]; omega
    simp only [List.getElem_take, ExplicitModel.wOf, List.getElem_drop, List.getD_eq_getElem?_getD,
      List.getElem?_eq_getElem h1, Option.getD_some]
  rw [List.getElem?_zipWith, List.getElem?_eq_getElem hkf, List.getElem?_eq_getElem hkd, e,
    List.getD_eq_getElem?_getD (l := c.M.f _ _ _), List.getElem?_eq_getElem hkf]
  rfl

/-- The blocks of the model algebra. -/
theorem stageFun_block (h : c.Good) {y : List ℝ} (hy : y.length = c.o.L.numDec) {s : Nat} (hs : s < c.o.L.numStages) :
    (((c.o.stageFun c.u c.mesh y).drop (s * c.M.numRes)).take c.M.numRes).drop c.M.nx = c.algRest y s := by
  have hrect : Np.Rect c.o.L.numStages c.M.numRes ((List.range c.o.L.numStages).map fun (s : Nat) =>
      c.u.con (c.o.stageVars y s) (c.mesh.getD s 0 * c.o.scaleOf y)) := by
    refine ⟨by simp, ?_⟩
    intro r hr
    obtain ⟨s, hs, rfl⟩ := List.mem_map.mp hr
    rw [← h.numCon]
    exact h.unitSize _ _ (by rw [h.numIn, len_v h hy (List.mem_range.mp hs)])
  have e := Np.reshapeRows_flatten hrect
  have e1 := congrArg (fun l => l[s]?) e
  rw [Np.getElem?_reshapeRows _ _ _ _ hs] at e1
  simp only [List.getElem?_map, List.getElem?_range hs, Option.map_some, Option.some.injEq] at e1
  unfold stageFun algRest
  rw [List.flatMap, e1, h.con]

/-- **C28 (values).** The condensed constraints at `x` are the lifted constraints at `x` with the state derivatives
replaced by the model's: first the continuity constraints, then for each stage the model-algebra rows other than the
state-derivative rows, which vanish there. -/
theorem C28_condensed_value (h : c.Good) {x : List ℝ} (hx : x.length = c.o.L.numDec) :
    ∃ con x' cc lift : List ℝ, c.constraints x = .ok con ∧ con.length = c.numCon ∧
      x'.length = c.o.L.numDec ∧ c.SameButDot x x' ∧
      c.o.contConstraints x' = .ok cc ∧ c.o.stageConstraints c.u c.mesh x' = .ok lift ∧
      (∀ s k, s < c.o.L.numStages → k < c.M.nx → lift[s * c.M.numRes + k]? = some 0) ∧
      con = cc ++ (List.range c.o.L.numStages).flatMap fun (s : Nat) =>
        ((lift.drop (s * c.M.numRes)).take c.M.numRes).drop c.M.nx := by
  have hx' := length_condX h hx
  have hsame := sameButDot_condX h hx
  have hrest : c.condFun x = c.o.contFun (c.condX x) ++ (List.range c.o.L.numStages).flatMap fun (s : Nat) =>
      (((c.o.stageFun c.u c.mesh (c.condX x)).drop (s * c.M.numRes)).take c.M.numRes).drop c.M.nx := by
    unfold condFun
    congr 1
    rw [List.flatMap, List.flatMap]
    congr 1
    apply List.map_congr_left
    intro s hs
    rw [stageFun_block h hx' (List.mem_range.mp hs), algRest_congr h hx hx' hsame (List.mem_range.mp hs)]
  refine ⟨_, _, _, _, constraints_eq h hx, ?_, hx', hsame, contConstraints_eq h.ocp hx', stageConstraints_eq h.stage hx',
    ?_, hrest⟩
  · unfold condFun
    have hr : Np.Rect c.o.L.numStages (c.M.numRes - c.M.nx) ((List.range c.o.L.numStages).map fun s => c.algRest x s) := by
      refine ⟨by simp, ?_⟩
      intro r hr
      obtain ⟨s, hs, rfl⟩ := List.mem_map.mp hr
      unfold algRest
      rw [List.length_drop, ExplicitModel.length_flatImplicit h.model (len_v h hx (List.mem_range.mp hs))]
    rw [List.length_append, length_contFun, ← h.numCont, List.flatMap, Np.flatten_rect_length hr]
    rfl
  · intro s k hs hk
    have h1 := alg_row h hx' hs hk
    rw [condX_dot h hx hs hk] at h1
    obtain ⟨e1, e2, _⟩ := same_parts h hx hx' hsame hs
    have h2 : c.fAt (c.condX x) s k = c.fAt x s k := by
      unfold fAt; rw [e1, e2, scaleOf_condX h hx]
    rw [h2, sub_self] at h1
    have hlt : s * c.M.numRes + k < (c.o.stageFun c.u c.mesh (c.condX x)).length := by
      rw [length_stageFun h.stage h.unitSize hx', h.numCon]
      have h3 : (s + 1) * c.M.numRes ≤ c.o.L.numStages * c.M.numRes := Nat.mul_le_mul_right _ hs
      rw [Nat.add_mul, Nat.one_mul] at h3
      have : c.M.nx ≤ c.M.numRes := by unfold ExplicitModel.numRes; omega
      omega
    rw [List.getD_eq_getElem?_getD, List.getElem?_eq_getElem hlt, Option.getD_some] at h1
    rw [List.getElem?_eq_getElem hlt, h1]

/-- **C28 (same solutions).** The condensed constraints vanish at `x` exactly when some choice of the state derivatives
makes both lifted constraint sets vanish. -/
theorem C28_same_solutions (h : c.Good) {x : List ℝ} (hx : x.length = c.o.L.numDec) :
    (∃ con, c.constraints x = .ok con ∧ AllZero con) ↔
      ∃ y cc lift : List ℝ, y.length = c.o.L.numDec ∧ c.SameButDot x y ∧ c.o.contConstraints y = .ok cc ∧
        c.o.stageConstraints c.u c.mesh y = .ok lift ∧ AllZero cc ∧ AllZero lift := by
  obtain ⟨con, x', cc, lift, h1, _, hx', hs', h3, h4, h5, h6⟩ := C28_condensed_value h hx
  constructor
  · rintro ⟨con', e, hz⟩
    rw [h1] at e
    simp only [Except.ok.injEq] at e
    subst e
    refine ⟨x', cc, lift, hx', hs', h3, h4, fun a ha => hz a (by rw [h6]; simp [ha]), ?_⟩
    intro a ha
    have hlen : lift.length = c.o.L.numStages * c.M.numRes := by
      rw [stageConstraints_eq h.stage hx'] at h4
      simp only [Except.ok.injEq] at h4
      rw [← h4, length_stageFun h.stage h.unitSize hx', h.numCon]
    obtain ⟨r, hr⟩ := List.mem_iff_getElem?.mp ha
    have hrl := (List.getElem?_eq_some_iff.mp hr).1
    obtain ⟨s, q, hs, hq, rfl⟩ := stage_row_decompose (by rw [← hlen]; exact hrl)
    by_cases hk : q < c.M.nx
    · rw [h5 s q hs hk] at hr
      simpa using hr.symm
    · apply hz
      rw [h6, List.mem_append, List.mem_flatMap]
      right
      refine ⟨s, List.mem_range.mpr hs, ?_⟩
      rw [List.mem_iff_getElem?]
      refine ⟨q - c.M.nx, ?_⟩
      rw [List.getElem?_drop, List.getElem?_take_of_lt (by omega), List.getElem?_drop, ← hr]
      congr 1; omega
  · rintro ⟨y, cc', lift', hy, hsy, h7, h8, hz1, hz2⟩
    refine ⟨_, constraints_eq h hx, ?_⟩
    rw [stageConstraints_eq h.stage hy] at h8
    rw [contConstraints_eq h.ocp hy] at h7
    simp only [Except.ok.injEq] at h7 h8
    subst h7 h8
    have hgz : ∀ r, (c.o.stageFun c.u c.mesh y).getD r 0 = 0 := by
      intro r
      by_cases hr : r < (c.o.stageFun c.u c.mesh y).length
      · rw [List.getD_eq_getElem?_getD, List.getElem?_eq_getElem hr]
        exact hz2 _ (List.getElem_mem hr)
      · rw [List.getD_eq_getElem?_getD, List.getElem?_eq_none (by omega)]; rfl
    have hyx : c.condX x = y := by
      rw [← condX_congr h hx hy hsy]
      apply ext_getD
      · rw [length_condX h hy, hy]
      · intro p
        by_cases hp : p ∈ c.idxSd
        · obtain ⟨s, k, hs, hk, rfl⟩ := mem_idxSd.mp hp
          rw [condX_dot h hy hs hk]
          have := alg_row h hy hs hk
          rw [hgz] at this
          linarith
        · exact condX_other h hy hp
    unfold condFun
    rw [hyx]
    intro a ha
    rw [List.mem_append] at ha
    rcases ha with ha | ha
    · exact hz1 a ha
    · obtain ⟨s, hs, ha⟩ := List.mem_flatMap.mp ha
      have hs := List.mem_range.mp hs
      rw [← algRest_congr h hx hy hsy hs, ← stageFun_block h hy hs] at ha
      exact hz2 a (List.mem_of_mem_drop (List.mem_of_mem_take (List.mem_of_mem_drop ha)))

/-- **C28 (independence).** The condensed constraints do not depend on the `states_dot` entries. -/
theorem C28_independent_of_states_dot (h : c.Good) {x y : List ℝ} (hx : x.length = c.o.L.numDec)
    (hy : y.length = c.o.L.numDec) (hxy : c.SameButDot x y) : c.constraints y = c.constraints x := by
  rw [constraints_eq h hx, constraints_eq h hy, condFun_congr h hx hy hxy]

end Lumos.Ocp.CondOCP
