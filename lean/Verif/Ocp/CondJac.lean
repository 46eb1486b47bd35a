import Verif.Ocp.CondProps
/-!
# C29: the condensed Jacobian
-/

namespace Lumos.Ocp.CondOCP

open Lumos DecVar DecVar.Layout Conv NLP OCP

variable {c : CondOCP} {D : List ℝ → ℝ → Prop}

/-! ## The matrices that enter the chain rule -/

/-- The lifted model-algebra Jacobian as a matrix. -/
noncomputable def algMat (c : CondOCP) (x : List ℝ) : Nat → Nat → ℝ :=
  assemble ((List.range c.o.L.numStages).flatMap (fun k => c.u.jacStruct.1.map (· + k * c.u.numCon)))
    ((List.range c.o.L.numStages).flatMap (fun k => c.u.jacStruct.2.map (· + k * c.o.L.numVarStage)))
    (c.o.stageJacVals c.u c.mesh x)

theorem algJac_eq (h : c.Good) {x : List ℝ} (hx : x.length = c.o.L.numDec) : c.algJac x = .ok (c.algMat x) := by
  unfold algJac
  rw [stageJacStructure_eq, stageJacobian_eq h.stage hx]
  rfl

theorem algMat_deriv (h : c.Good) (hu : UnitJac c.u D) (hm : MeshFree c.o c.u) {x : List ℝ} (hx : x.length = c.o.L.numDec)
    (hA : c.o.stageDom c.mesh D x) {r : Nat} (hr : r < c.o.L.numStages * c.M.numRes) {p : Nat} (hp : p < c.o.L.numDec) :
    HasDerivAt (fun t => (c.o.stageFun c.u c.mesh (x.set p t)).getD r 0) (c.algMat x r p) (x.getD p 0) :=
  ((stage_userJac h.stage hu hm).2 x hx).2.2 hA r (by rw [h.numCon]; exact hr) p hp

/-- The continuity Jacobian as a matrix. -/
noncomputable def contMat (c : CondOCP) (x : List ℝ) : Nat → Nat → ℝ := assemble c.o.jacRows c.o.jacCols (c.o.jacVals x)

theorem toNat_cast (l : List Nat) : (l.map (fun (n : Nat) => (n : Int))).map Int.toNat = l := by
  rw [List.map_map]
  conv_rhs => rw [← List.map_id l]
  apply List.map_congr_left
  intro a _
  simp

theorem contJac_eq (h : c.Good) {x : List ℝ} (hx : x.length = c.o.L.numDec) : c.contJac x = .ok (c.contMat x) := by
  unfold contJac
  rw [contJacStructure_eq h.ocp, contJacobian_eq h.ocp hx]
  simp only [bind, Except.bind, pure, Except.pure, toNat_cast]
  rfl

/-- Rows of the state-derivative equations. -/
def idxEq (c : CondOCP) : List Nat :=
  (List.range c.o.L.numStages).flatMap fun (s : Nat) => (List.range c.M.nx).map fun k => s * c.M.numRes + k

theorem xdotEqs_eq (c : CondOCP) : c.xdotEqs = .ok c.idxEq := by
  have hS : c.o.L.numStages ≠ 0 := by unfold numStages; omega
  unfold xdotEqs stackAndIncrement
  rw [if_neg hS, if_neg (by simp)]
  simp only [bind, Except.bind, pure, Except.pure, List.length_cons, List.length_nil]
  norm_num [stackCopies, incrementAlong]
  simp only [ravel, List.map_map, idxEq, multiIndices, List.flatMap, List.map_flatten]
  congr 1
  apply List.map_congr_left
  intro s _
  have e : ∀ l : List Nat, (l.map (fun (k : Nat) => [[s, k]])).flatten = l.map (fun k => [s, k]) := by
    intro l
    induction l with
    | nil => rfl
    | cons a l ih => simp only [List.map_cons, List.flatten_cons, ih]; rfl
  simp only [List.map_cons, List.map_nil, List.map_map, Function.comp_def]
  rw [e, List.map_map]
  apply List.map_congr_left
  intro k _
  simp
  omega

theorem length_blocks {n m : Nat} (f : Nat → Nat → Nat) :
    ((List.range n).flatMap fun (s : Nat) => (List.range m).map fun k => f s k).length = n * m := by
  simp [List.length_flatMap]

theorem getElem?_blocks {n m : Nat} (f : Nat → Nat → Nat) {s k : Nat} (hs : s < n) (hk : k < m) :
    ((List.range n).flatMap fun (s : Nat) => (List.range m).map fun k => f s k)[s * m + k]? = some (f s k) := by
  have hr : Np.Rect n m ((List.range n).map fun (s : Nat) => (List.range m).map fun k => f s k) := by
    refine ⟨by simp, ?_⟩
    intro r hr
    obtain ⟨s, _, rfl⟩ := List.mem_map.mp hr
    simp
  rw [List.flatMap, Np.getElem?_flatten_rect hr s k hk]
  simp [hs, hk]

theorem sum_blocks (n m : Nat) (f : Nat → ℝ) :
    ∑ a ∈ Finset.range (n * m), f a = ∑ s ∈ Finset.range n, ∑ k ∈ Finset.range m, f (s * m + k) := by
  induction n with
  | zero => simp
  | succ n ih => rw [Nat.succ_mul, Finset.sum_range_add, ih, Finset.sum_range_succ]

theorem mem_idxEq_iff {s q : Nat} (hs : s < c.o.L.numStages) (hq : q < c.M.numRes) :
    s * c.M.numRes + q ∈ c.idxEq ↔ q < c.M.nx := by
  simp only [idxEq, List.mem_flatMap, List.mem_range, List.mem_map]
  have hle : c.M.nx ≤ c.M.numRes := by unfold ExplicitModel.numRes; omega
  constructor
  · rintro ⟨s', _, k, hk, e⟩
    have := congrArg (· % c.M.numRes) e
    simp only [Nat.mul_add_mod_self_right, Nat.mod_eq_of_lt hq, Nat.mod_eq_of_lt (lt_of_lt_of_le hk hle)] at this
    omega
  · intro hk; exact ⟨s, hs, q, hk, rfl⟩

theorem range_blocks (n m : Nat) :
    List.range (n * m) = (List.range n).flatMap fun (s : Nat) => (List.range m).map fun q => s * m + q := by
  induction n with
  | zero => simp
  | succ n ih => rw [Nat.succ_mul, List.range_add, ih, List.range_succ, List.flatMap_append]; simp

/-- The rows kept from the model algebra. -/
theorem keepRows_eq (c : CondOCP) :
    (List.range (c.o.L.numStages * c.M.numRes)).filter (fun (i : Nat) => decide (i ∉ c.idxEq))
      = (List.range c.o.L.numStages).flatMap fun (s : Nat) =>
        (List.range (c.M.numRes - c.M.nx)).map fun q => s * c.M.numRes + (c.M.nx + q) := by
  have hle : c.M.nx ≤ c.M.numRes := by unfold ExplicitModel.numRes; omega
  rw [range_blocks, List.filter_flatMap]
  rw [List.flatMap, List.flatMap]
  congr 1
  apply List.map_congr_left
  intro s hs
  have hs := List.mem_range.mp hs
  have e : List.range c.M.numRes = List.range c.M.nx ++ (List.range (c.M.numRes - c.M.nx)).map (c.M.nx + ·) := by
    rw [← List.range_add]; congr 1; omega
  conv_lhs => rw [e]
  rw [List.map_append, List.filter_append]
  have e1 : List.filter (fun (i : Nat) => decide (i ∉ c.idxEq)) ((List.range c.M.nx).map fun q => s * c.M.numRes + q) = [] := by
    rw [List.filter_eq_nil_iff]
    intro a ha
    obtain ⟨q, hq, rfl⟩ := List.mem_map.mp ha
    have hq := List.mem_range.mp hq
    simp [(mem_idxEq_iff hs (lt_of_lt_of_le hq hle)).mpr hq]
  have e2 : List.filter (fun (i : Nat) => decide (i ∉ c.idxEq))
      (((List.range (c.M.numRes - c.M.nx)).map (c.M.nx + ·)).map fun q => s * c.M.numRes + q)
      = ((List.range (c.M.numRes - c.M.nx)).map (c.M.nx + ·)).map fun q => s * c.M.numRes + q := by
    rw [List.filter_eq_self]
    intro a ha
    obtain ⟨q', hq', rfl⟩ := List.mem_map.mp ha
    obtain ⟨q, hq, rfl⟩ := List.mem_map.mp hq'
    have hq := List.mem_range.mp hq
    simp only [decide_eq_true_eq]
    rw [mem_idxEq_iff hs (by omega)]
    omega
  rw [e1, e2, List.nil_append, List.map_map]
  rfl

/-! ## Rows of the condensed constraints -/

theorem condFun_cont (h : c.Good) (y : List ℝ) {i l k : Nat} (hi : i < c.o.L.numIntervals) (hl : l < c.o.L.nspi - 1)
    (hk : k < c.M.nx) : (c.condFun y).getD (c.o.rowOf i l k) 0 = c.o.defect (c.condX y) i l k := by
  have hk' : k < c.o.numStates := by rw [h.numStates]; exact hk
  have h1 := contFun_at c.o (c.condX y) hi hl hk'
  have hlt := (List.getElem?_eq_some_iff.mp h1).1
  unfold condFun rowOf
  rw [List.getD_eq_getElem?_getD, List.getElem?_append_left hlt, h1]
  rfl

theorem condFun_alg (h : c.Good) {y : List ℝ} (hy : y.length = c.o.L.numDec) {s q : Nat} (hs : s < c.o.L.numStages)
    (hq : q < c.M.numRes - c.M.nx) :
    (c.condFun y).getD (c.numCont + (s * (c.M.numRes - c.M.nx) + q)) 0
      = (c.o.stageFun c.u c.mesh y).getD (s * c.M.numRes + (c.M.nx + q)) 0 := by
  have hr : Np.Rect c.o.L.numStages (c.M.numRes - c.M.nx) ((List.range c.o.L.numStages).map fun s => c.algRest y s) := by
    refine ⟨by simp, ?_⟩
    intro r hr
    obtain ⟨s, hs, rfl⟩ := List.mem_map.mp hr
    unfold algRest
    rw [List.length_drop, ExplicitModel.length_flatImplicit h.model (len_v h hy (List.mem_range.mp hs))]
  unfold condFun
  have hlen := length_contFun c.o (c.condX y)
  rw [← h.numCont] at hlen
  rw [List.getD_eq_getElem?_getD, List.getElem?_append_right (by omega), hlen, Nat.add_sub_cancel_left, List.flatMap,
    Np.getElem?_flatten_rect hr s q hq]
  simp only [List.getElem?_map, List.getElem?_range hs, Option.map_some, Option.bind_some]
  rw [← stageFun_block h hy hs, List.getElem?_drop, List.getElem?_take_of_lt (by omega), List.getElem?_drop,
    ← List.getD_eq_getElem?_getD]

/-- Derivative of the model's state derivative along a decision variable. -/
theorem fAt_deriv (h : c.Good) (hu : UnitJac c.u D) (hm : MeshFree c.o c.u) {x : List ℝ} (hx : x.length = c.o.L.numDec)
    (hA : c.o.stageDom c.mesh D x) {s k : Nat} (hs : s < c.o.L.numStages) (hk : k < c.M.nx) {p : Nat} (hp : p < c.o.L.numDec) :
    HasDerivAt (fun t => c.fAt (x.set p t) s k)
      (c.algMat x (s * c.M.numRes + k) p + if c.o.posG "states_dot" s k = p then 1 else 0) (x.getD p 0) := by
  have hr : s * c.M.numRes + k < c.o.L.numStages * c.M.numRes := by
    have h3 : (s + 1) * c.M.numRes ≤ c.o.L.numStages * c.M.numRes := Nat.mul_le_mul_right _ hs
    rw [Nat.add_mul, Nat.one_mul] at h3
    have : c.M.nx ≤ c.M.numRes := by unfold ExplicitModel.numRes; omega
    omega
  have h1 := algMat_deriv h hu hm hx hA hr hp
  have h2 := hasDerivAt_coord x (by rw [hx]; exact hp) (c.o.posG "states_dot" s k) (x.getD p 0)
  refine (h1.add h2).congr_of_eventuallyEq (Filter.Eventually.of_forall fun t => ?_)
  have := alg_row h (y := x.set p t) (by simp [hx]) hs hk
  simp only [Pi.add_apply]
  rw [this]; ring

/-- The value of the chain-rule row. -/
theorem cond_row_deriv (h : c.Good) (hu : UnitJac c.u D) (hm : MeshFree c.o c.u) {x : List ℝ} (hx : x.length = c.o.L.numDec)
    (hA : c.o.stageDom c.mesh D x)
    {i l k : Nat} (hi : i < c.o.L.numIntervals) (hl : l < c.o.L.nspi - 1) (hk : k < c.M.nx) {p : Nat}
    (hp : p < c.o.L.numDec) :
    HasDerivAt (fun t => (c.condFun (x.set p t)).getD (c.o.rowOf i l k) 0)
      ((∑ j ∈ Finset.range c.o.L.nspi, if c.o.posS i j k = p then c.o.A l j else 0)
        - ∑ j ∈ Finset.range c.o.L.nspi,
          ((c.algMat x ((i * (c.o.L.nspi - 1) + j) * c.M.numRes + k) p + if c.o.posD i j k = p then 1 else 0)
              * (c.o.normLen.getD i 0 * c.o.scaleOf x)
            + c.fAt x (i * (c.o.L.nspi - 1) + j) k *
              (c.o.normLen.getD i 0 * if "mesh_scale" ∈ c.o.L.globals ∧ c.o.posM = p then 1 else 0)) * c.o.B l j)
      (x.getD p 0) := by
  have hp' : p < x.length := by rw [hx]; exact hp
  have e : (fun t => (c.condFun (x.set p t)).getD (c.o.rowOf i l k) 0) = fun t =>
      (∑ j ∈ Finset.range c.o.L.nspi, (x.set p t).getD (c.o.posS i j k) 0 * c.o.A l j) -
        ∑ j ∈ Finset.range c.o.L.nspi, c.fAt (x.set p t) (i * (c.o.L.nspi - 1) + j) k *
          (c.o.normLen.getD i 0 * c.o.scaleOf (x.set p t)) * c.o.B l j := by
    funext t
    have hxt : (x.set p t).length = c.o.L.numDec := by simp [hx]
    rw [condFun_cont h _ hi hl hk]
    unfold defect
    rw [scaleOf_condX h hxt]
    congr 1
    · refine Finset.sum_congr rfl (fun j hj => ?_)
      unfold posS
      rw [condX_states h hxt (stage_lt h.ocp hi (Finset.mem_range.mp hj)) hk]
    · refine Finset.sum_congr rfl (fun j hj => ?_)
      unfold posD
      rw [condX_dot h hxt (stage_lt h.ocp hi (Finset.mem_range.mp hj)) hk]
  rw [e]
  have hsc := hasDerivAt_scaleOf h.ocp hp' (x.getD p 0)
  have h1 : HasDerivAt (fun t => ∑ j ∈ Finset.range c.o.L.nspi, (x.set p t).getD (c.o.posS i j k) 0 * c.o.A l j)
      (∑ j ∈ Finset.range c.o.L.nspi, if c.o.posS i j k = p then c.o.A l j else 0) (x.getD p 0) := by
    refine (HasDerivAt.fun_sum (fun j _ => (hasDerivAt_coord x hp' _ _).mul_const _)).congr_deriv ?_
    refine Finset.sum_congr rfl (fun j _ => ?_)
    split <;> simp
  refine h1.sub (HasDerivAt.fun_sum (fun j hj => ?_))
  have h2 := fAt_deriv h hu hm hx hA (stage_lt h.ocp hi (Finset.mem_range.mp hj)) hk hp
  have := (h2.mul (hsc.const_mul (c.o.normLen.getD i 0))).mul_const (c.o.B l j)
  rw [set_getD_self] at this
  exact this

theorem posS_ne_dot (h : c.Good) {i j k s k' : Nat} (hk : k < c.M.nx) (hk' : k' < c.M.nx) :
    c.o.posS i j k ≠ c.o.posG "states_dot" s k' := by
  have hw := h.width'
  unfold posS
  rw [posG_states h, posG_dot h]
  intro e
  have := congrArg (· % c.o.L.numVarStage) e
  simp only [Nat.mul_add_mod_self_right, Nat.mod_eq_of_lt (show k < c.o.L.numVarStage by omega),
    Nat.mod_eq_of_lt (show c.M.nx + c.M.nu + k' < c.o.L.numVarStage by omega)] at this
  omega

theorem posG_dot_inj (h : c.Good) {s k s' k' : Nat} (hk : k < c.M.nx) (hk' : k' < c.M.nx)
    (e : c.o.posG "states_dot" s k = c.o.posG "states_dot" s' k') : s = s' ∧ k = k' := by
  have hw := h.width'
  have hp := numVarStage_pos h.ocp
  rw [posG_dot h, posG_dot h] at e
  have e1 := congrArg (· % c.o.L.numVarStage) e
  simp only [Nat.mul_add_mod_self_right, Nat.mod_eq_of_lt (show c.M.nx + c.M.nu + k < c.o.L.numVarStage by omega),
    Nat.mod_eq_of_lt (show c.M.nx + c.M.nu + k' < c.o.L.numVarStage by omega)] at e1
  exact ⟨Nat.eq_of_mul_eq_mul_right hp (by omega), by omega⟩

theorem posM_ne_dot (h : c.Good) {s k : Nat} (hs : s < c.o.L.numStages) (hk : k < c.M.nx) :
    c.o.posM ≠ c.o.posG "states_dot" s k := by
  have := posG_lt (o := c.o) h.ocp.made h.ocp.statesDot (by rw [h.sizeD]; exact hk) hs
  unfold posM
  omega

/-- The chain-rule sum over all state derivatives collapses to the stages of the row's interval. -/
theorem chain_sum (h : c.Good) (x : List ℝ) (G : Nat → ℝ) {i l k : Nat} (hi : i < c.o.L.numIntervals)
    (hl : l < c.o.L.nspi - 1) (hk : k < c.M.nx) :
    ((List.range c.idxEq.length).map fun (a : Nat) =>
      c.contMat x (c.o.rowOf i l k) (c.idxSd.getD a 0) * G (c.idxEq.getD a 0)).sum
    = ∑ j ∈ Finset.range c.o.L.nspi, -c.o.B l j * (c.o.normLen.getD i 0 * c.o.scaleOf x) *
        G ((i * (c.o.L.nspi - 1) + j) * c.M.numRes + k) := by
  have hk0 : k < c.o.numStates := by rw [h.numStates]; exact hk
  rw [sum_range_list, show c.idxEq.length = c.o.L.numStages * c.M.nx from length_blocks _, sum_blocks]
  have e : ∀ s ∈ Finset.range c.o.L.numStages, ∀ k' ∈ Finset.range c.M.nx,
      c.contMat x (c.o.rowOf i l k) (c.idxSd.getD (s * c.M.nx + k') 0) * G (c.idxEq.getD (s * c.M.nx + k') 0)
      = ∑ j ∈ Finset.range c.o.L.nspi, if i * (c.o.L.nspi - 1) + j = s ∧ k = k' then
          -c.o.B l j * (c.o.normLen.getD i 0 * c.o.scaleOf x) * G (s * c.M.numRes + k') else 0 := by
    intro s hs k' hk'
    have hs := Finset.mem_range.mp hs
    have hk' := Finset.mem_range.mp hk'
    have g1 : c.idxSd.getD (s * c.M.nx + k') 0 = c.o.posG "states_dot" s k' := by
      rw [List.getD_eq_getElem?_getD, getElem?_idxSd hs hk']; rfl
    have g2 : c.idxEq.getD (s * c.M.nx + k') 0 = s * c.M.numRes + k' := by
      rw [List.getD_eq_getElem?_getD]
      unfold idxEq
      rw [getElem?_blocks _ hs hk']; rfl
    rw [g1, g2]
    unfold contMat
    rw [assembled_entry c.o x hi hl hk0]
    have z1 : (∑ j ∈ Finset.range c.o.L.nspi, if c.o.posS i j k = c.o.posG "states_dot" s k' then c.o.A l j else 0) = 0 := by
      apply Finset.sum_eq_zero
      intro j _
      rw [if_neg (posS_ne_dot h hk hk')]
    rw [z1, if_neg (fun hc => posM_ne_dot h hs hk' hc.2), zero_add, add_zero, Finset.sum_mul]
    refine Finset.sum_congr rfl (fun j _ => ?_)
    by_cases hc : i * (c.o.L.nspi - 1) + j = s ∧ k = k'
    · rw [if_pos hc, if_pos]
      unfold posD
      rw [hc.1, hc.2]
    · rw [if_neg hc, if_neg, zero_mul]
      intro e
      exact hc (posG_dot_inj h hk hk' e)
  rw [Finset.sum_congr rfl (fun s hs => Finset.sum_congr rfl (e s hs))]
  have e2 : ∀ s ∈ Finset.range c.o.L.numStages, (∑ k' ∈ Finset.range c.M.nx, ∑ j ∈ Finset.range c.o.L.nspi,
      if i * (c.o.L.nspi - 1) + j = s ∧ k = k' then
          -c.o.B l j * (c.o.normLen.getD i 0 * c.o.scaleOf x) * G (s * c.M.numRes + k') else 0)
      = ∑ j ∈ Finset.range c.o.L.nspi, if i * (c.o.L.nspi - 1) + j = s then
          -c.o.B l j * (c.o.normLen.getD i 0 * c.o.scaleOf x) * G (s * c.M.numRes + k) else 0 := by
    intro s _
    rw [sum_collapse _ hk]
    · simp
    · intro a _ hne
      apply Finset.sum_eq_zero
      intro j _
      rw [if_neg (fun hc => hne hc.2.symm)]
  rw [Finset.sum_congr rfl e2, Finset.sum_comm]
  refine Finset.sum_congr rfl (fun j hj => ?_)
  rw [sum_collapse _ (stage_lt h.ocp hi (Finset.mem_range.mp hj)), if_pos rfl]
  intro a _ hne
  rw [if_neg (fun hc => hne hc.symm)]

/-- The vector handed to the continuity Jacobian. -/
noncomputable def contArg (c : CondOCP) (x : List ℝ) : List ℝ := if "mesh_scale" ∈ c.o.L.globals then c.condX x else x

theorem length_contArg (h : c.Good) {x : List ℝ} (hx : x.length = c.o.L.numDec) : (c.contArg x).length = c.o.L.numDec := by
  unfold contArg; split
  · exact length_condX h hx
  · exact hx

/-- The chain-rule matrix. -/
noncomputable def bigMat (c : CondOCP) (x : List ℝ) : Nat → Nat → ℝ :=
  c.chainrule c.idxSd c.idxEq (c.contMat (c.contArg x)) (c.algMat x)

theorem bigJac_eq (h : c.Good) {x : List ℝ} (hx : x.length = c.o.L.numDec) : c.bigJac x = .ok (c.bigMat x) := by
  unfold bigJac
  have hl := length_contArg h hx
  rw [algJac_eq h hx]
  simp only [bind, Except.bind]
  by_cases hmem : "mesh_scale" ∈ c.o.L.globals
  · have e : c.contArg x = c.condX x := if_pos hmem
    rw [e] at hl
    rw [if_pos hmem, withModelDot_eq h hx]
    dsimp only
    rw [contJac_eq h hl, groupIndices_dec h, xdotEqs_eq]
    unfold bigMat
    rw [e]
    rfl
  · have e : c.contArg x = x := if_neg hmem
    rw [if_neg hmem]
    simp only [pure, Except.pure]
    rw [contJac_eq h hx, groupIndices_dec h, xdotEqs_eq]
    unfold bigMat
    rw [e]

theorem bigMat_isJacobian (h : c.Good) (hu : UnitJac c.u D) (hm : MeshFree c.o c.u) {x : List ℝ}
    (hx : x.length = c.o.L.numDec) (hA : c.o.stageDom c.mesh D x) : IsJacobianAt c.o.L.numDec c.numCon c.condFun x (c.bigMat x) := by
  intro r hr p hp
  by_cases hrc : r < c.numCont
  · obtain ⟨i, l, k, hi, hl, hk, rfl⟩ := decompose3 (show r < c.o.L.numIntervals * (c.o.L.nspi - 1) * c.M.nx from hrc)
    have hk0 : k < c.o.numStates := by rw [h.numStates]; exact hk
    have erow : (i * (c.o.L.nspi - 1) + l) * c.M.nx + k = c.o.rowOf i l k := by unfold rowOf; rw [h.numStates]
    rw [erow] at hrc ⊢
    refine (cond_row_deriv h hu hm hx hA hi hl hk hp).congr_deriv ?_
    unfold bigMat chainrule
    dsimp only
    rw [if_pos hrc, chain_sum h _ (fun a => c.algMat x a p) hi hl hk]
    unfold contMat
    rw [assembled_entry c.o _ hi hl hk0]
    have hscale : c.o.scaleOf (c.contArg x) = c.o.scaleOf x := by
      unfold contArg; split
      · exact scaleOf_condX h hx
      · rfl
    rw [hscale]
    have hM : (if "mesh_scale" ∈ c.o.L.globals ∧ c.o.posM = p then
          (∑ j ∈ Finset.range c.o.L.nspi, -c.o.B l j * (c.contArg x).getD (c.o.posD i j k) 0) * c.o.normLen.getD i 0
        else 0) = ∑ j ∈ Finset.range c.o.L.nspi, -c.o.B l j * (c.fAt x (i * (c.o.L.nspi - 1) + j) k *
          (c.o.normLen.getD i 0 * if "mesh_scale" ∈ c.o.L.globals ∧ c.o.posM = p then 1 else 0)) := by
      split
      · rename_i hc
        rw [Finset.sum_mul]
        refine Finset.sum_congr rfl (fun j hj => ?_)
        unfold contArg posD
        rw [if_pos hc.1, condX_dot h hx (stage_lt h.ocp hi (Finset.mem_range.mp hj)) hk]
        ring
      · simp
    rw [hM, add_assoc, add_assoc, sub_eq_add_neg]
    congr 1
    rw [← Finset.sum_neg_distrib, ← Finset.sum_add_distrib, ← Finset.sum_add_distrib]
    refine Finset.sum_congr rfl (fun j _ => ?_)
    split <;> split <;> ring
  · obtain ⟨a, rfl⟩ := Nat.exists_eq_add_of_le (Nat.le_of_not_lt hrc)
    have ha : a < c.o.L.numStages * (c.M.numRes - c.M.nx) := by unfold numCon at hr; omega
    obtain ⟨s, q, hs, hq, rfl⟩ := stage_row_decompose ha
    have hr' : s * c.M.numRes + (c.M.nx + q) < c.o.L.numStages * c.M.numRes := by
      have h3 : (s + 1) * c.M.numRes ≤ c.o.L.numStages * c.M.numRes := Nat.mul_le_mul_right _ hs
      rw [Nat.add_mul, Nat.one_mul] at h3
      omega
    have h1 := algMat_deriv h hu hm hx hA hr' hp
    have e : (fun t => (c.condFun (x.set p t)).getD (c.numCont + (s * (c.M.numRes - c.M.nx) + q)) 0) = fun t =>
        (c.o.stageFun c.u c.mesh (x.set p t)).getD (s * c.M.numRes + (c.M.nx + q)) 0 := by
      funext t
      exact condFun_alg h (by simp [hx]) hs hq
    rw [e]
    refine h1.congr_deriv ?_
    unfold bigMat chainrule
    dsimp only
    rw [if_neg (by omega), keepRows_eq, Nat.add_sub_cancel_left, List.getD_eq_getElem?_getD, getElem?_blocks _ hs hq]
    rfl

/-- **C29.** The matrix of `_condensed_jacobian` is the derivative of the condensed constraints in every entry (where the model's is), for
every mesh (fixed or scaled), every transcription and every model whose algebra does not depend on the mesh scale. The
columns of the state derivatives are zero. -/
theorem C29_condensed_jacobian (h : c.Good) (hu : UnitJac c.u D) (hm : MeshFree c.o c.u) :
    ∃ F : List ℝ → List ℝ, (∀ y : List ℝ, y.length = c.o.L.numDec → c.constraints y = .ok (F y)) ∧
      ∀ x : List ℝ, x.length = c.o.L.numDec → ∃ J, c.bigJac x = .ok J ∧
        (c.o.stageDom c.mesh D x → IsJacobianAt c.o.L.numDec c.numCon F x J ∧
        ∀ idx, c.o.L.groupIndicesInDec "states_dot" = .ok idx → ∀ p ∈ idx, ∀ r, r < c.numCon → J r p = 0) := by
  refine ⟨c.condFun, fun y hy => constraints_eq h hy, fun x hx => ⟨_, bigJac_eq h hx, fun hA => ⟨bigMat_isJacobian h hu hm hx hA, ?_⟩⟩⟩
  intro idx hidx p hp r hr
  have hidx' := hidx
  rw [groupIndices_dec h] at hidx
  simp only [Except.ok.injEq] at hidx
  subst hidx
  have hpn : p < c.o.L.numDec := by
    obtain ⟨s, k, hs, hk, rfl⟩ := mem_idxSd.mp hp
    exact lt_of_lt_of_le (posG_lt (o := c.o) h.ocp.made h.ocp.statesDot (by rw [h.sizeD]; exact hk) hs)
      (allStage_le_numDec _)
  have h1 := bigMat_isJacobian h hu hm hx hA r hr p hpn
  have e : (fun t => (c.condFun (x.set p t)).getD r 0) = fun _ => (c.condFun x).getD r 0 := by
    funext t
    rw [condFun_congr h hx (by simp [hx])]
    rw [sameButDot_iff h]
    intro a ha
    simp only [List.getD_eq_getElem?_getD]
    rw [List.getElem?_set_ne (by rintro rfl; exact ha hp)]
  rw [e] at h1
  exact h1.unique (hasDerivAt_const _ _)

/-- **C29 (values at a structure).** The values returned at a stored structure without repetitions assemble to the
derivative wherever the structure lists all non-zero entries of the matrix at that point. -/
theorem C29_values_at_structure {x : List ℝ} (S : List Nat × List Nat) (hS : StructIn S c.numCon c.o.L.numDec) (hnd : (S.1.zip S.2).Nodup)
    {J : Nat → Nat → ℝ} (hJ : c.bigJac x = .ok J)
    (hcov : ∀ r p, r < c.numCon → p < c.o.L.numDec → J r p ≠ 0 → (r, p) ∈ S.1.zip S.2) :
    ∃ vals, c.jacobian S x = .ok vals ∧ vals.length = S.1.length ∧
      ∀ r p, r < c.numCon → p < c.o.L.numDec → assemble S.1 S.2 vals r p = J r p := by
  refine ⟨List.zipWith J S.1 S.2, ?_, ?_, ?_⟩
  · unfold jacobian
    rw [hJ]; rfl
  · rw [List.length_zipWith, hS.1]; simp
  · intro r p hr hp
    rw [assemble_extract J S.1 S.2 hS.1 hnd]
    split
    · rfl
    · rename_i hn
      by_contra hne
      exact hn (hcov r p hr hp (fun e => hne e.symm))

end Lumos.Ocp.CondOCP
