import Verif.Ocp.ContProps
import Verif.NLP.CompositeProps
/-!
# Continuity Hessian (C26), fixed mesh and time objectives (C27)
-/

namespace Lumos.Ocp.OCP

open Lumos DecVar DecVar.Layout Conv

variable {o : OCP}

/-! ## C26 -/

/-- Row and column lists of the Hessian, in closed form. -/
def hessRows (o : OCP) : List Nat :=
  (multiIndices [o.L.numIntervals, o.L.nspi, o.numStates]).map fun t => o.posD (t.getD 0 0) (t.getD 1 0) (t.getD 2 0)

/-- See `hessRows`. -/
def hessCols (o : OCP) : List Nat :=
  (multiIndices [o.L.numIntervals, o.L.nspi, o.numStates]).map fun _ => o.posM

/-- See `hessRows`. -/
noncomputable def hessVals (o : OCP) (lam : List ℝ) : List ℝ :=
  (multiIndices [o.L.numIntervals, o.L.nspi, o.numStates]).map fun t =>
    ∑ l ∈ Finset.range (o.L.nspi - 1),
      lam.getD (o.rowOf (t.getD 0 0) l (t.getD 2 0)) 0 * o.normLen.getD (t.getD 0 0) 0 * (-o.B l (t.getD 1 0))

theorem groupIndices_zero (ho : o.L.Made) {g : String} (hg : g ∈ o.L.groups) :
    o.L.groupIndicesAtStage g 0 = .ok ((List.range (o.L.size g)).map fun k => o.posG g 0 k) := by
  have hst : (0 : Nat) < o.L.numStages := by unfold numStages; omega
  have hb : o.L.badStage 0 = false := by
    have := badStage_nat o.L 0
    have hne : o.L.numStages ≠ 0 := by omega
    simpa [hne] using this
  have hw : o.L.wrapStage 0 = 0 := wrapStage_nat o.L 0 hst
  unfold groupIndicesAtStage
  rw [hb]
  simp only [Bool.false_eq_true, if_false, getNames, lookup_of_group ho hg, bind, Except.bind, hw]
  have h1 : o.L.groups[o.L.groups.idxOf g]? = some g := by
    rw [List.getElem?_eq_getElem (List.idxOf_lt_length_of_mem hg)]
    simp
  have hmap : (o.L.namesOf g).mapM (fun n => o.L.stageEnum (fullName g n)) =
      .ok ((o.L.namesOf g).map fun n => o.L.stageVarNames.idxOf (fullName g n)) := by
    refine mapM_ok _ _ _ (fun n hn => ?_)
    have hmem := fullName_mem o.L hg hn
    simp [stageEnum, hmem]
  rw [hmap]
  simp only [pure, Except.pure, Except.ok.injEq]
  apply List.ext_getElem?
  intro k
  by_cases hk : k < o.L.size g
  · have hk' : k < (o.L.namesOf g).length := hk
    have h2 := idxOf_fullName o.L ho.nodup _ g h1 k _ (List.getElem?_eq_getElem hk')
    simp [hk', hk, h2, posG]
  · have hk' : (o.L.namesOf g).length ≤ k := Nat.le_of_not_lt hk
    simp [hk', Nat.le_of_not_lt hk]

theorem contHessStructure_eq (ho : o.Good) (hm : "mesh_scale" ∈ o.L.globals) :
    o.contHessStructure = .ok (o.hessRows.map (fun (n : Nat) => (n : Int)), o.hessCols.map (fun (n : Nat) => (n : Int))) := by
  have hnv : ((o.L.numVarInterval : Int) - o.L.numVarStage) = ((o.L.nspi - 1 : Nat) : Int) * o.L.numVarStage := by
    have := ho.stages
    unfold numVarInterval
    rw [Nat.cast_sub (by omega)]
    push_cast; ring
  have hidx : o.L.indexInDec "global" "mesh_scale" none = .ok (.scalar o.posM) := by
    simp [indexInDec, globalEnum, hm, Except.map, posM]
  unfold contHessStructure
  simp only [groupIndices_zero ho.made ho.statesDot, bind, Except.bind, hidx, scalarIdx, pure, Except.pure,
    Except.ok.injEq, Prod.mk.injEq, ravel, List.length_map, List.length_range, ho.same, hnv]
  refine ⟨?_, ?_⟩
  · unfold hessRows
    rw [List.map_map]
    apply List.map_congr_left
    intro t ht
    obtain ⟨i, j, k, rfl, hi, hj, hk⟩ := mem_multi3 ht
    have hk' : k < o.L.size "states" := hk
    simp only [List.getD_cons_zero, List.getD_cons_succ, Function.comp]
    have e : ((List.range (o.L.size "states")).map fun k => o.posG "states_dot" 0 k).getD k 0 =
        o.posG "states_dot" 0 k := by simp [hk']
    rw [e]
    unfold posD posG
    push_cast; ring
  · unfold hessCols
    rw [List.map_map]
    apply List.map_congr_left
    intro t _
    simp

theorem contHessian_eq (x lam : List ℝ) (hlam : lam.length = o.numContinuity) :
    o.contHessian x lam = .ok (o.hessVals lam) := by
  unfold contHessian
  rw [if_neg]
  · simp only [Except.ok.injEq, ravel, hessVals, sum_range_list]
    rfl
  · rw [not_not, hlam]
    unfold numContinuity
    ring

/-- A multiplier vector, listed by interval, equation and state. -/
theorem lam_eq (o : OCP) (lam : List ℝ) (hlam : lam.length = o.numContinuity) :
    lam = (multiIndices [o.L.numIntervals, o.L.nspi - 1, o.numStates]).map fun t =>
      lam.getD (o.rowOf (t.getD 0 0) (t.getD 1 0) (t.getD 2 0)) 0 := by
  have hl : o.numContinuity = o.L.numIntervals * (o.L.nspi - 1) * o.numStates := by
    unfold numContinuity; ring
  apply List.ext_getElem?
  intro r
  by_cases hr : r < lam.length
  · have hr' : r < o.L.numIntervals * (o.L.nspi - 1) * o.numStates := by rw [← hl, ← hlam]; exact hr
    obtain ⟨i, l, k, hi, hl, hk, e⟩ := decompose3 hr'
    have hm := multi3 _ _ _ i l k hi hl hk
    rw [← e] at hm
    rw [List.getElem?_map, hm]
    simp only [Option.map_some, List.getD_cons_zero, List.getD_cons_succ, rowOf, ← e]
    simp [hr]
  · have hr' : lam.length ≤ r := Nat.le_of_not_lt hr
    rw [List.getElem?_eq_none hr', List.getElem?_eq_none]
    simp only [List.length_map, length_multiIndices, List.prod_cons, List.prod_nil, mul_one]
    rw [hlam, hl] at hr'
    linarith

theorem dot_map {ι : Type} (l : List ι) (f g : ι → ℝ) :
    dot (l.map f) (l.map g) = (l.map fun t => f t * g t).sum := by
  induction l with
  | nil => simp [dot]
  | cons a l ih => simp only [dot, List.map_cons, List.zipWith_cons_cons, List.sum_cons] at ih ⊢; rw [ih]

/-- The Lagrangian of the continuity constraints. -/
theorem dot_contFun (o : OCP) (lam x : List ℝ) (hlam : lam.length = o.numContinuity) :
    dot lam (o.contFun x) = ((multiIndices [o.L.numIntervals, o.L.nspi - 1, o.numStates]).map fun t =>
      lam.getD (o.rowOf (t.getD 0 0) (t.getD 1 0) (t.getD 2 0)) 0 *
        o.defect x (t.getD 0 0) (t.getD 1 0) (t.getD 2 0)).sum := by
  conv_lhs => rw [lam_eq o lam hlam]
  exact dot_map _ _ _

/-- First derivative of a defect w.r.t. variable `c`. -/
noncomputable def dDefect (o : OCP) (x : List ℝ) (i l k c : Nat) : ℝ :=
  (∑ j ∈ Finset.range o.L.nspi, if o.posS i j k = c then o.A l j else 0)
  + (∑ j ∈ Finset.range o.L.nspi,
      if o.posD i j k = c then -o.B l j * (o.normLen.getD i 0 * o.scaleOf x) else 0)
  + if "mesh_scale" ∈ o.L.globals ∧ o.posM = c then
      (∑ j ∈ Finset.range o.L.nspi, -o.B l j * x.getD (o.posD i j k) 0) * o.normLen.getD i 0
    else 0

/-- Second derivative of a defect w.r.t. `c` then `c'`. -/
theorem hasDerivAt_dDefect (ho : o.Good) {x : List ℝ} {c' : Nat} (hc : c' < x.length) (i l k c : Nat) :
    HasDerivAt (fun t => o.dDefect (x.set c' t) i l k c)
      ((∑ j ∈ Finset.range o.L.nspi, if o.posD i j k = c ∧ "mesh_scale" ∈ o.L.globals ∧ o.posM = c' then
          -o.B l j * o.normLen.getD i 0 else 0)
      + ∑ j ∈ Finset.range o.L.nspi, if o.posD i j k = c' ∧ "mesh_scale" ∈ o.L.globals ∧ o.posM = c then
          -o.B l j * o.normLen.getD i 0 else 0) (x.getD c' 0) := by
  have hs := hasDerivAt_scaleOf ho hc (x.getD c' 0)
  have h1 := hasDerivAt_const (x.getD c' 0) (∑ j ∈ Finset.range o.L.nspi, if o.posS i j k = c then o.A l j else 0)
  have h2 : HasDerivAt (fun t => ∑ j ∈ Finset.range o.L.nspi,
      if o.posD i j k = c then -o.B l j * (o.normLen.getD i 0 * o.scaleOf (x.set c' t)) else 0)
      (∑ j ∈ Finset.range o.L.nspi, if o.posD i j k = c ∧ "mesh_scale" ∈ o.L.globals ∧ o.posM = c' then
          -o.B l j * o.normLen.getD i 0 else 0) (x.getD c' 0) := by
    refine HasDerivAt.fun_sum (fun j _ => ?_)
    by_cases h : o.posD i j k = c
    · simp only [h, if_true, true_and]
      refine ((hs.const_mul (o.normLen.getD i 0)).const_mul (-o.B l j)).congr_deriv ?_
      split <;> simp
    · simp only [h, if_false, false_and]
      exact hasDerivAt_const _ _
  have h3 : HasDerivAt (fun t => if "mesh_scale" ∈ o.L.globals ∧ o.posM = c then
      (∑ j ∈ Finset.range o.L.nspi, -o.B l j * (x.set c' t).getD (o.posD i j k) 0) * o.normLen.getD i 0
    else 0) (∑ j ∈ Finset.range o.L.nspi, if o.posD i j k = c' ∧ "mesh_scale" ∈ o.L.globals ∧ o.posM = c then
          -o.B l j * o.normLen.getD i 0 else 0) (x.getD c' 0) := by
    by_cases h : "mesh_scale" ∈ o.L.globals ∧ o.posM = c
    · simp only [if_pos h]
      have : HasDerivAt (fun t => ∑ j ∈ Finset.range o.L.nspi, -o.B l j * (x.set c' t).getD (o.posD i j k) 0)
          (∑ j ∈ Finset.range o.L.nspi, -o.B l j * (if o.posD i j k = c' then 1 else 0)) (x.getD c' 0) :=
        HasDerivAt.fun_sum (fun j _ => (hasDerivAt_coord x hc _ _).const_mul _)
      refine (this.mul_const (o.normLen.getD i 0)).congr_deriv ?_
      rw [Finset.sum_mul]
      refine Finset.sum_congr rfl (fun j _ => ?_)
      by_cases h' : o.posD i j k = c'
      · simp [h', h]
      · simp [h']
    · simp only [if_neg h]
      refine (hasDerivAt_const (x.getD c' 0) (0 : ℝ)).congr_deriv ?_
      symm
      refine Finset.sum_eq_zero (fun j _ => ?_)
      rw [if_neg (fun h' => h h'.2)]
  refine ((h1.add h2).add h3).congr_deriv ?_
  rw [zero_add]

/-- **C26.** On a scaled mesh, for every multiplier vector of the right length, the Hessian structure and values exist
and have equal length, all listed positions are in the upper triangle, and the assembled matrix is, on the upper
triangle, the second derivative of `λ · continuity constraints` (so every entry not listed is zero). -/
theorem C26_continuity_hessian (ho : o.Good) (hm : o.fixedScale = none) :
    ∃ (rows cols : List Nat) (F : List ℝ → List ℝ),
      o.contHessStructure = .ok (rows.map (fun (n : Nat) => (n : Int)), cols.map (fun (n : Nat) => (n : Int))) ∧
      rows.length = cols.length ∧ (∀ q ∈ rows.zip cols, q.1 < q.2 ∧ q.2 < o.L.numDec) ∧
      (∀ y : List ℝ, y.length = o.L.numDec → o.contConstraints y = .ok (F y)) ∧
      ∀ x lam : List ℝ, x.length = o.L.numDec → lam.length = o.numContinuity →
        ∃ vals, o.contHessian x lam = .ok vals ∧ vals.length = rows.length ∧
          IsHessianAt o.L.numDec (fun y => dot lam (F y)) x NLP.Upper (assemble rows cols vals) := by
  have hmem : "mesh_scale" ∈ o.L.globals := ho.mesh.mpr hm
  have hMlt := posM_lt hmem
  have hDM : ∀ {i j k}, i < o.L.numIntervals → j < o.L.nspi → k < o.numStates → o.posD i j k < o.posM := by
    intro i j k hi hj hk
    have := posD_lt ho hi hj hk
    unfold posM; omega
  refine ⟨o.hessRows, o.hessCols, o.contFun, contHessStructure_eq ho hmem, by simp [hessRows, hessCols], ?_,
    fun y hy => contConstraints_eq ho hy, ?_⟩
  · intro q hq
    unfold hessRows hessCols at hq
    rw [List.zip_map', List.mem_map] at hq
    obtain ⟨t, ht, rfl⟩ := hq
    obtain ⟨i, j, k, rfl, hi, hj, hk⟩ := mem_multi3 ht
    exact ⟨hDM hi hj hk, hMlt⟩
  · intro x lam hx hlam
    refine ⟨o.hessVals lam, contHessian_eq x lam hlam, by simp [hessVals, hessRows], ?_⟩
    refine IsHessianAt.of_global hx ⟨fun y c => ((multiIndices [o.L.numIntervals, o.L.nspi - 1, o.numStates]).map fun t =>
      lam.getD (o.rowOf (t.getD 0 0) (t.getD 1 0) (t.getD 2 0)) 0 *
        o.dDefect y (t.getD 0 0) (t.getD 1 0) (t.getD 2 0) c).sum, ?_, ?_⟩
    · intro y hy c hc
      have hc' : c < y.length := by rw [hy]; exact hc
      simp only [dot_contFun o lam _ hlam]
      refine NLP.hasDerivAt_list_sum _ _ _ _ (fun t _ => ?_)
      exact (hasDerivAt_defect ho hc' _ _ _).const_mul _
    · intro a b ha hb hab
      have hb' : b < x.length := by rw [hx]; exact hb
      have hder := NLP.hasDerivAt_list_sum (multiIndices [o.L.numIntervals, o.L.nspi - 1, o.numStates])
        (fun t s => lam.getD (o.rowOf (t.getD 0 0) (t.getD 1 0) (t.getD 2 0)) 0 *
          o.dDefect (x.set b s) (t.getD 0 0) (t.getD 1 0) (t.getD 2 0) a) _ (x.getD b 0)
        (fun t _ => (hasDerivAt_dDefect ho hb' (t.getD 0 0) (t.getD 1 0) (t.getD 2 0) a).const_mul
          (lam.getD (o.rowOf (t.getD 0 0) (t.getD 1 0) (t.getD 2 0)) 0))
      refine hder.congr_deriv ?_
      simp only [hessRows, hessCols, hessVals]
      rw [assemble_map]
      simp only [sum_multi, sum_multi_nil, List.getD_cons_zero, List.getD_cons_succ]
      refine Finset.sum_congr rfl (fun i hi => ?_)
      have hi := Finset.mem_range.mp hi
      -- the lower-triangle part vanishes
      have hz : ∀ l, ∀ k ∈ Finset.range o.numStates, (∑ j ∈ Finset.range o.L.nspi,
          if o.posD i j k = b ∧ "mesh_scale" ∈ o.L.globals ∧ o.posM = a then
          -o.B l j * o.normLen.getD i 0 else 0) = 0 := by
        intro l k hk
        refine Finset.sum_eq_zero (fun j hj => ?_)
        rw [if_neg]
        rintro ⟨h1, _, h2⟩
        have := hDM hi (Finset.mem_range.mp hj) (Finset.mem_range.mp hk)
        have hab : a ≤ b := hab
        omega
      have hz' : ∑ l ∈ Finset.range (o.L.nspi - 1), ∑ k ∈ Finset.range o.numStates,
          lam.getD (o.rowOf i l k) 0 * ((∑ j ∈ Finset.range o.L.nspi,
            if o.posD i j k = a ∧ "mesh_scale" ∈ o.L.globals ∧ o.posM = b then
              -o.B l j * o.normLen.getD i 0 else 0) + ∑ j ∈ Finset.range o.L.nspi,
            if o.posD i j k = b ∧ "mesh_scale" ∈ o.L.globals ∧ o.posM = a then
              -o.B l j * o.normLen.getD i 0 else 0) =
          ∑ l ∈ Finset.range (o.L.nspi - 1), ∑ k ∈ Finset.range o.numStates, ∑ j ∈ Finset.range o.L.nspi,
            if o.posD i j k = a ∧ o.posM = b then
              lam.getD (o.rowOf i l k) 0 * o.normLen.getD i 0 * (-o.B l j) else 0 := by
        refine Finset.sum_congr rfl (fun l _ => Finset.sum_congr rfl (fun k hk => ?_))
        rw [hz l k hk, add_zero, Finset.mul_sum]
        refine Finset.sum_congr rfl (fun j _ => ?_)
        simp only [hmem, true_and]
        split
        · ring
        · simp
      rw [hz']
      -- reorder the sums
      rw [Finset.sum_comm]
      have : ∀ k ∈ Finset.range o.numStates, (∑ l ∈ Finset.range (o.L.nspi - 1), ∑ j ∈ Finset.range o.L.nspi,
            if o.posD i j k = a ∧ o.posM = b then
              lam.getD (o.rowOf i l k) 0 * o.normLen.getD i 0 * (-o.B l j) else 0) =
          ∑ j ∈ Finset.range o.L.nspi, if o.posD i j k = a ∧ o.posM = b then
            ∑ l ∈ Finset.range (o.L.nspi - 1), lam.getD (o.rowOf i l k) 0 * o.normLen.getD i 0 * (-o.B l j) else 0 := by
        intro k _
        rw [Finset.sum_comm]
        refine Finset.sum_congr rfl (fun j _ => ?_)
        split
        · rfl
        · simp
      rw [Finset.sum_congr rfl this, Finset.sum_comm]

/-- A multiplier vector of the wrong length raises ValueError. -/
theorem C26_wrong_length (x lam : List ℝ) (h : lam.length ≠ o.numContinuity) :
    o.contHessian x lam = .error .valueError := by
  unfold contHessian
  rw [if_pos]
  intro h'
  apply h
  rw [h']
  unfold numContinuity
  ring

/-! ## C27 -/

/-- **C27 (linear).** On a fixed mesh with scale `s` the continuity constraints are a linear function of the decision
vector (no constant term), the Jacobian values do not depend on the point, and they assemble to the matrix of that
linear function; this holds for every scale, so also after `set_mesh_scale`. -/
theorem C27_fixed_mesh_linear (ho : o.Good) {s : ℝ} (hs : o.fixedScale = some s) :
    ∃ (rows cols : List Nat) (vals : List ℝ) (F : List ℝ → List ℝ),
      o.contJacStructure = .ok (rows.map (fun (n : Nat) => (n : Int)), cols.map (fun (n : Nat) => (n : Int))) ∧
      (∀ x : List ℝ, x.length = o.L.numDec → o.contJacobian x = .ok vals ∧ o.contConstraints x = .ok (F x)) ∧
      NLP.Affine o.L.numDec o.numContinuity F (assemble rows cols vals) (fun _ => 0) := by
  have hm : ¬ "mesh_scale" ∈ o.L.globals := by rw [ho.mesh, hs]; simp
  have hscale : ∀ x, o.scaleOf x = s := fun x => by simp [scaleOf, hs]
  have hconst : ∀ x, o.jacVals x = o.jacVals [] := by
    intro x
    simp [jacVals, hm, hscale]
  refine ⟨o.jacRows, o.jacCols, o.jacVals [], o.contFun, contJacStructure_eq ho, ?_, ?_⟩
  · intro x hx
    exact ⟨by rw [contJacobian_eq ho hx, hconst], contConstraints_eq ho hx⟩
  · intro y hy
    refine ⟨length_contFun o y, ?_⟩
    intro r hr
    have hr' : r < o.L.numIntervals * (o.L.nspi - 1) * o.numStates := by
      unfold numContinuity at hr
      calc r < _ := hr
        _ = _ := by ring
    obtain ⟨i, l, k, hi, hl, hk, rfl⟩ := decompose3 hr'
    rw [List.getD_eq_getElem?_getD, contFun_at o _ hi hl hk]
    simp only [Option.getD_some, add_zero, sum_range_list]
    have hent := assembled_entry o [] hi hl hk
    unfold rowOf at hent
    simp only [hent]
    simp only [hm, false_and, if_false, add_zero, hscale, add_mul, Finset.sum_add_distrib]
    have key : ∀ (pos : Nat → Nat) (v : Nat → ℝ), (∀ j, j < o.L.nspi → pos j < o.L.numDec) →
        ∑ c ∈ Finset.range o.L.numDec, (∑ j ∈ Finset.range o.L.nspi, if pos j = c then v j else 0) * y.getD c 0
          = ∑ j ∈ Finset.range o.L.nspi, v j * y.getD (pos j) 0 := by
      intro pos v hpos
      simp only [Finset.sum_mul]
      rw [Finset.sum_comm]
      refine Finset.sum_congr rfl (fun j hj => ?_)
      rw [sum_collapse _ (hpos j (Finset.mem_range.mp hj))]
      · simp
      · intro c _ hne
        rw [if_neg (Ne.symm hne), zero_mul]
    rw [key (fun j => o.posS i j k) (fun j => o.A l j)
      (fun j hj => lt_of_lt_of_le (posS_lt ho hi hj hk) (allStage_le_numDec _)),
      key (fun j => o.posD i j k) (fun j => -o.B l j * (o.normLen.getD i 0 * s))
      (fun j hj => lt_of_lt_of_le (posD_lt ho hi hj hk) (allStage_le_numDec _))]
    simp only [defect, hscale]
    rw [sub_eq_add_neg, ← Finset.sum_neg_distrib]
    congr 1
    · refine Finset.sum_congr rfl (fun j _ => by ring)
    · refine Finset.sum_congr rfl (fun j _ => by ring)

/-- **C27 (time objective, scaled mesh).** The objective is the mesh scale, and its gradient is 1 at the position of the
mesh scale and 0 elsewhere; it is the gradient. -/
theorem C27_scaled_time_objective (ho : o.Good) (hf : o.fixedScale = none) :
    ∃ f : List ℝ → ℝ, (∀ y : List ℝ, y.length = o.L.numDec → o.timeObjective y = .ok (f y) ∧
        o.L.getVar y "global" "mesh_scale" none = .ok (.scalar (f y))) ∧
      ∀ x : List ℝ, x.length = o.L.numDec → ∃ g, o.timeGradient x = .ok g ∧ g.length = o.L.numDec ∧
        (∀ c, g.getD c 0 = if o.L.indexInDec "global" "mesh_scale" none = .ok (.scalar c) then 1 else 0) ∧
        IsGradientAt o.L.numDec f x (fun c => g.getD c 0) := by
  have hm : "mesh_scale" ∈ o.L.globals := ho.mesh.mpr hf
  have hlt := posM_lt hm
  have hidx : o.L.indexInDec "global" "mesh_scale" none = .ok (.scalar o.posM) := by
    simp [indexInDec, globalEnum, hm, Except.map, posM]
  refine ⟨fun y => y.getD o.posM 0, ?_, ?_⟩
  · intro y hy
    have hlt' : o.posM < y.length := by rw [hy]; exact hlt
    constructor
    · obtain ⟨v, hv, hsh, hfl⟩ := C03_flatten_unflatten ho.fields y hy
      unfold timeObjective
      rw [hv]
      simp only [bind, Except.bind]
      have hg : v.glob = o.L.globals.zip (y.drop o.L.numAllStageVar) := by
        unfold unflattenVar at hv
        simp only [bind, Except.bind] at hv
        split at hv
        · simp at hv
        · split at hv
          · split at hv
            · simp at hv
            · simp only [pure, Except.pure, Except.ok.injEq] at hv
              rw [← hv]
          · simp at hv
      have hkeys : ∀ (ks : List String) (vs : List ℝ), "mesh_scale" ∈ ks → ks.length ≤ vs.length →
          (ks.zip vs).lookup "mesh_scale" = vs[ks.idxOf "mesh_scale"]? := by
        intro ks
        induction ks with
        | nil => intro vs h; simp at h
        | cons k ks ih =>
          intro vs h hl
          cases vs with
          | nil => simp at hl
          | cons a vs =>
            simp only [List.zip_cons_cons, List.lookup_cons]
            by_cases hk : "mesh_scale" = k
            · subst hk; simp
            · have hb : ("mesh_scale" == k) = false := by simpa using hk
              rw [hb]
              simp only
              rw [ih vs (by simpa [hk] using h) (by simpa using hl), List.idxOf_cons_ne _ (Ne.symm hk)]
              simp
      rw [hg, hkeys _ _ hm (by simp [hy, numDec, numGlobal])]
      have e : (y.drop o.L.numAllStageVar)[o.L.globals.idxOf "mesh_scale"]? = some (y.getD o.posM 0) := by
        rw [List.getElem?_drop]
        show y[o.posM]? = _
        simp [hlt']
      rw [e]
      rfl
    · simp only [getVar, hidx, bind, Except.bind, getIdx, getAt]
      simp [hlt', pure, Except.pure]
  · intro x hx
    refine ⟨(x.map fun _ => (0 : ℝ)).set o.posM 1, ?_, by simp [hx], ?_, ?_⟩
    · simp [timeGradient, hidx, bind, Except.bind, scalarIdx, pure, Except.pure]
    · intro c
      rw [hidx]
      by_cases hc : o.posM = c
      · subst hc
        have : o.posM < x.length := by rw [hx]; exact hlt
        simp [this]
      · by_cases hcx : c < x.length
        · simp [hc, hcx]
        · simp [hc, Nat.le_of_not_lt hcx]
    · intro c hc
      have hc' : c < x.length := by rw [hx]; exact hc
      refine (hasDerivAt_coord x hc' o.posM (x.getD c 0)).congr_deriv ?_
      by_cases h : o.posM = c
      · subst h; simp [hc']
      · simp [h, hc']

/-- **C27 (time objective, fixed mesh).** The objective is `time` at the last stage minus `time` at the first; the
gradient is +1 and -1 at exactly those positions, and it is the gradient. -/
theorem C27_fixed_time_objective (ho : o.Good) {k : Nat} (hk : (o.L.namesOf "states")[k]? = some "time") :
    ∃ f : List ℝ → ℝ, (∀ y : List ℝ, y.length = o.L.numDec → o.fixedTimeObjective y = .ok (f y) ∧
        ∃ a b, o.L.getVar y "states" "time" (some (-1)) = .ok (.scalar a) ∧
          o.L.getVar y "states" "time" (some 0) = .ok (.scalar b) ∧ f y = a - b) ∧
      ∀ x : List ℝ, x.length = o.L.numDec → ∃ g, o.fixedTimeGradient x = .ok g ∧ g.length = o.L.numDec ∧
        IsGradientAt o.L.numDec f x (fun c => g.getD c 0) := by
  have hks : k < o.L.size "states" := (List.getElem?_eq_some_iff.mp hk).1
  have hst : (0 : Nat) < o.L.numStages := by unfold numStages; omega
  have hlast : o.L.numStages - 1 < o.L.numStages := by omega
  have hname : (o.L.namesOf "states").getD k "" = "time" := by simp [hk]
  have i0 := index_posG ho.made ho.states hks hst
  have i1 := index_posG ho.made ho.states hks hlast
  rw [hname] at i0 i1
  have i1' : o.L.indexInDec "states" "time" (some (-1)) = .ok (.scalar (o.posG "states" (o.L.numStages - 1) k)) := by
    rw [C02_negative_stage o.L "states" "time" (-1) (by omega) (by omega), ← i1]
    congr 2
    omega
  simp only [Nat.cast_zero] at i0
  have l0 := lt_of_lt_of_le (posG_lt ho.made ho.states hks hst) (allStage_le_numDec _)
  have l1 := lt_of_lt_of_le (posG_lt ho.made ho.states hks hlast) (allStage_le_numDec _)
  set p0 := o.posG "states" 0 k with hp0
  set p1 := o.posG "states" (o.L.numStages - 1) k with hp1
  have hne : p1 ≠ p0 := by
    have hnv := ho.fields.pos
    have h2 : 1 ≤ o.L.numStages - 1 := by
      have h3 := Nat.mul_le_mul ho.intervals (Nat.le_sub_one_of_lt ho.stages)
      unfold numStages; omega
    have := Nat.mul_le_mul_right o.L.numVarStage h2
    simp only [hp0, hp1, posG]
    omega
  refine ⟨fun y => y.getD p1 0 - y.getD p0 0, ?_, ?_⟩
  · intro y hy
    have l0' : p0 < y.length := by rw [hy]; exact l0
    have l1' : p1 < y.length := by rw [hy]; exact l1
    refine ⟨?_, y.getD p1 0, y.getD p0 0, ?_, ?_, rfl⟩
    · simp only [fixedTimeObjective, i0, i1', bind, Except.bind, scalarIdx, Int.toNat_natCast, getAt,
        List.getElem?_eq_getElem l0', List.getElem?_eq_getElem l1', pure, Except.pure]
      simp [l0', l1']
    · simp only [getVar, i1', bind, Except.bind, getIdx, getAt, List.getElem?_eq_getElem l1']
      simp [l1', pure, Except.pure]
    · simp only [getVar, i0, bind, Except.bind, getIdx, getAt, List.getElem?_eq_getElem l0']
      simp [l0', pure, Except.pure]
  · intro x hx
    refine ⟨((x.map fun _ => (0 : ℝ)).set p1 1).set p0 (-1), ?_, by simp [hx], ?_⟩
    · simp [fixedTimeGradient, i0, i1', bind, Except.bind, scalarIdx, pure, Except.pure]
    · intro c hc
      have hc' : c < x.length := by rw [hx]; exact hc
      have h0 := hasDerivAt_coord x hc' p0 (x.getD c 0)
      have h1 := hasDerivAt_coord x hc' p1 (x.getD c 0)
      refine (h1.sub h0).congr_deriv ?_
      by_cases e0 : p0 = c
      · subst e0
        simp [hne, hc']
      · by_cases e1 : p1 = c
        · subst e1
          simp [e0, hc', hne.symm]
        · simp [e0, e1, hc']

/-! ## Non-vacuity -/

/-- A double integrator with 3 intervals of 3 stages and a free mesh scale. -/
def exOCP : OCP :=
  { L := ⟨[("states", ["time", "x", "v"]), ("inputs", ["u"]), ("states_dot", ["time", "x", "v"]), ("con_outputs", [])],
      ["states", "inputs", "states_dot", "con_outputs"], ["mesh_scale"], 3, 3⟩
    A := fun l j => if j = 0 then -1 else if j = l + 1 then 1 else 0
    B := fun l j => if j = l + 1 then 1 else 0
    normLen := [1, 2, 3]
    fixedScale := none }

/-- The same on a fixed mesh. -/
def exFixed : OCP :=
  { exOCP with
    L := { exOCP.L with globals := [] }
    fixedScale := some 2 }

theorem exOCP_good : exOCP.Good :=
  ⟨⟨by decide +kernel, by decide, by decide⟩, ⟨by decide, by decide +kernel⟩, by decide, by decide, by decide, by decide,
    by decide +kernel, by decide +kernel, rfl, by simp [exOCP]⟩

theorem exFixed_good : exFixed.Good :=
  ⟨⟨by decide +kernel, by decide, by decide⟩, ⟨by decide, by decide +kernel⟩, by decide, by decide, by decide, by decide,
    by decide +kernel, by decide +kernel, rfl, by simp [exFixed]⟩

example : exOCP.numContinuity = 18 := by decide +kernel

end Lumos.Ocp.OCP
