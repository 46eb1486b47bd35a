import Verif.Ocp.ContLemmas
import Verif.NLP.Props
/-!
# Properties of the continuity constraints (C24 – C27)
-/

namespace Lumos.Ocp.OCP

open Lumos DecVar DecVar.Layout Conv

variable {o : OCP}

/-! ## C24 -/

/-- **C24.** For every problem and decision vector the continuity constraints can be evaluated, there are
`num_states * (stages_per_interval - 1) * num_intervals` of them, and the one of interval `i`, equation `l`,
state `k` is `sum_j A[l,j] x_k(stage i,j) - h_i * mesh_scale * sum_j B[l,j] xdot_k(stage i,j)`, where the values
of the states, their derivatives and the mesh scale are those a user reads with `get_var`. -/
theorem C24_continuity_value (ho : o.Good) {x : List ℝ} (hx : x.length = o.L.numDec) :
    ∃ (con : List ℝ) (ms : ℝ), o.contConstraints x = .ok con ∧ con.length = o.numContinuity ∧
      (∀ s, o.fixedScale = some s → ms = s) ∧
      (o.fixedScale = none → o.L.getVar x "global" "mesh_scale" none = .ok (.scalar ms)) ∧
      ∀ (i l k : Nat) (n nd : String), i < o.L.numIntervals → l < o.L.nspi - 1 →
        (o.L.namesOf "states")[k]? = some n → (o.L.namesOf "states_dot")[k]? = some nd →
        ∃ (xs xd : Nat → ℝ),
          (∀ j, j < o.L.nspi →
            o.L.getVar x "states" n (some ((i * (o.L.nspi - 1) + j : Nat) : Int)) = .ok (.scalar (xs j)) ∧
            o.L.getVar x "states_dot" nd (some ((i * (o.L.nspi - 1) + j : Nat) : Int)) = .ok (.scalar (xd j))) ∧
          con[(i * (o.L.nspi - 1) + l) * o.numStates + k]? =
            some ((∑ j ∈ Finset.range o.L.nspi, o.A l j * xs j)
              - o.normLen.getD i 0 * ms * ∑ j ∈ Finset.range o.L.nspi, o.B l j * xd j) := by
  refine ⟨o.contFun x, o.scaleOf x, contConstraints_eq ho hx, length_contFun o x, ?_, ?_, ?_⟩
  · intro s hs; simp [scaleOf, hs]
  · intro hf
    have hm := ho.mesh.mpr hf
    have hlt := posM_lt hm
    have hidx : o.L.indexInDec "global" "mesh_scale" none = .ok (.scalar o.posM) := by
      simp [indexInDec, globalEnum, hm, Except.map, posM]
    rw [← hx] at hlt
    simp [getVar, hidx, bind, Except.bind, getIdx, getAt, hlt, pure, Except.pure, scaleOf, hf]
  · intro i l k n nd hi hl hn hnd
    have hk : k < o.numStates := (List.getElem?_eq_some_iff.mp hn).1
    refine ⟨fun j => x.getD (o.posS i j k) 0, fun j => x.getD (o.posD i j k) 0, ?_, ?_⟩
    · intro j hj
      have key : ∀ (g : String) (n : String), g ∈ o.L.groups → (o.L.namesOf g)[k]? = some n →
          o.L.getVar x g n (some ((i * (o.L.nspi - 1) + j : Nat) : Int)) =
            .ok (.scalar (x.getD (o.posG g (i * (o.L.nspi - 1) + j) k) 0)) := by
        intro g n hg hn
        have hk : k < o.L.size g := (List.getElem?_eq_some_iff.mp hn).1
        have hidx := index_posG ho.made hg hk (stage_lt ho hi hj)
        have hlt := posG_lt ho.made hg hk (stage_lt ho hi hj)
        have hlt' := lt_of_lt_of_le hlt (allStage_le_numDec _)
        rw [← hx] at hlt'
        have e : (o.L.namesOf g).getD k "" = n := by simp [hn]
        rw [e] at hidx
        simp only [getVar, hidx, bind, Except.bind, getIdx, getAt]
        simp [hlt', pure, Except.pure]
      exact ⟨key _ _ ho.states hn, key _ _ ho.statesDot hnd⟩
    · rw [contFun_at o x hi hl hk, defect, Finset.mul_sum]
      congr 2
      · refine Finset.sum_congr rfl (fun j _ => by ring)
      · refine Finset.sum_congr rfl (fun j _ => by ring)

/-! ## C25: structure and values -/

/-- Row number of equation `l`, state `k` of interval `i`. -/
def rowOf (o : OCP) (i l k : Nat) : Nat := (i * (o.L.nspi - 1) + l) * o.numStates + k

/-- The row and column lists, in closed form. -/
def jacRows (o : OCP) : List Nat :=
  let m4 := multiIndices [o.L.numIntervals, o.L.nspi - 1, o.L.nspi, o.numStates]
  let m3 := multiIndices [o.L.numIntervals, o.L.nspi - 1, o.numStates]
  let r4 := m4.map fun t => o.rowOf (t.getD 0 0) (t.getD 1 0) (t.getD 3 0)
  r4 ++ r4 ++ if "mesh_scale" ∈ o.L.globals then m3.map fun t => o.rowOf (t.getD 0 0) (t.getD 1 0) (t.getD 2 0) else []

/-- See `jacRows`. -/
def jacCols (o : OCP) : List Nat :=
  let m4 := multiIndices [o.L.numIntervals, o.L.nspi - 1, o.L.nspi, o.numStates]
  let m3 := multiIndices [o.L.numIntervals, o.L.nspi - 1, o.numStates]
  m4.map (fun t => o.posS (t.getD 0 0) (t.getD 2 0) (t.getD 3 0)) ++
  m4.map (fun t => o.posD (t.getD 0 0) (t.getD 2 0) (t.getD 3 0)) ++
  if "mesh_scale" ∈ o.L.globals then m3.map fun _ => o.posM else []

/-- See `jacRows`. -/
noncomputable def jacVals (o : OCP) (x : List ℝ) : List ℝ :=
  let m4 := multiIndices [o.L.numIntervals, o.L.nspi - 1, o.L.nspi, o.numStates]
  let m3 := multiIndices [o.L.numIntervals, o.L.nspi - 1, o.numStates]
  m4.map (fun t => o.A (t.getD 1 0) (t.getD 2 0)) ++
  m4.map (fun t => -o.B (t.getD 1 0) (t.getD 2 0) * (o.normLen.getD (t.getD 0 0) 0 * o.scaleOf x)) ++
  if "mesh_scale" ∈ o.L.globals then m3.map (fun t =>
    (∑ j ∈ Finset.range o.L.nspi, -o.B (t.getD 1 0) j * x.getD (o.posD (t.getD 0 0) j (t.getD 2 0)) 0)
      * o.normLen.getD (t.getD 0 0) 0) else []

theorem firstName_eq (ho : o.L.Made) {g : String} (hg : g ∈ o.L.groups) (hk : 0 < o.L.size g) :
    o.firstName g = .ok ((o.L.namesOf g).getD 0 "") := by
  have hl := lookup_of_group ho hg
  simp only [firstName, getNames, hl, bind, Except.bind]
  have : 0 < (o.L.namesOf g).length := hk
  cases hn : o.L.namesOf g with
  | nil => rw [hn] at this; simp at this
  | cons n ns => simp [pure, Except.pure]

theorem contJacStructure_eq (ho : o.Good) :
    o.contJacStructure = .ok (o.jacRows.map (fun (n : Nat) => (n : Int)), o.jacCols.map (fun (n : Nat) => (n : Int))) := by
  have hst : (0 : Nat) < o.L.numStages := by unfold numStages; omega
  have h1 := index_posG ho.made ho.states ho.pos hst
  have h2 := index_posG ho.made ho.statesDot (by rw [ho.same]; exact ho.pos) hst
  have hI : o.L.numIntervals ≠ 0 := by have := ho.intervals; omega
  have hK : o.numStates ≠ 0 := by have := ho.pos; unfold numStates; omega
  have hnv : ((o.L.numVarInterval : Int) - o.L.numVarStage) = ((o.L.nspi - 1 : Nat) : Int) * o.L.numVarStage := by
    have := ho.stages
    unfold numVarInterval
    rw [Nat.cast_sub (by omega)]
    push_cast; ring
  have hm1 : ((o.L.nspi : Int) - 1) = ((o.L.nspi - 1 : Nat) : Int) := by
    have := ho.stages
    rw [Nat.cast_sub (by omega)]; simp
  simp only [Nat.cast_zero] at h1 h2
  unfold contJacStructure
  simp only [firstName_eq ho.made ho.states ho.pos,
    firstName_eq ho.made ho.statesDot (by rw [ho.same]; exact ho.pos), bind, Except.bind, h1, h2, scalarIdx,
    pure, Except.pure, hnv, hm1]
  have s0 : ∀ (x : Nd Int) (inc : Int), x.shape = [o.L.nspi - 1, o.L.nspi] →
      stackAndIncrement x 0 o.L.numIntervals inc =
        .ok ⟨o.L.numIntervals :: x.shape, fun idx => x.get (idx.eraseIdx 0) + ((idx.getD 0 0 : Nat) : Int) * inc⟩ := by
    intro x inc hsh
    unfold stackAndIncrement
    rw [if_neg hI, if_neg (by rw [hsh]; simp)]
    simp [stackCopies, incrementAlong, hsh]
  have s3 : ∀ (x : Nd Int) (inc : Int), x.shape = [o.L.numIntervals, o.L.nspi - 1, o.L.nspi] →
      stackAndIncrement x (-1) o.numStates inc =
        .ok ⟨[o.L.numIntervals, o.L.nspi - 1, o.L.nspi, o.numStates],
          fun idx => x.get (idx.eraseIdx 3) + ((idx.getD 3 0 : Nat) : Int) * inc⟩ := by
    intro x inc hsh
    unfold stackAndIncrement
    rw [if_neg hK, if_neg (by rw [hsh]; simp)]
    simp [stackCopies, incrementAlong, hsh]
  rw [s0 _ _ rfl, s0 _ _ rfl]
  simp only []
  rw [s3 _ _ rfl, s3 _ _ rfl]
  simp only []
  have e4r : (multiIndices [o.L.numIntervals, o.L.nspi - 1, o.L.nspi, o.numStates]).map (fun t =>
      ((((t.eraseIdx 3).eraseIdx 0).getD 0 0 : Nat) : Int) * o.numStates
        + ((((t.eraseIdx 3).getD 0 0 : Nat) : Int)) * (((o.L.nspi - 1 : Nat) : Int) * o.numStates)
        + ((t.getD 3 0 : Nat) : Int) * 1) =
      ((multiIndices [o.L.numIntervals, o.L.nspi - 1, o.L.nspi, o.numStates]).map fun t =>
        o.rowOf (t.getD 0 0) (t.getD 1 0) (t.getD 3 0)).map (fun (n : Nat) => (n : Int)) := by
    rw [List.map_map]
    apply List.map_congr_left
    intro t ht
    obtain ⟨i, l, j, k, rfl, -⟩ := mem_multi4 ht
    simp only [List.eraseIdx, List.getD_cons_zero, List.getD_cons_succ, Function.comp, rowOf]
    push_cast; ring
  have e4s : (multiIndices [o.L.numIntervals, o.L.nspi - 1, o.L.nspi, o.numStates]).map (fun t =>
      (o.posG "states" 0 0 : Int) + ((((t.eraseIdx 3).eraseIdx 0).getD 1 0 : Nat) : Int) * o.L.numVarStage
        + ((((t.eraseIdx 3).getD 0 0 : Nat) : Int)) * (((o.L.nspi - 1 : Nat) : Int) * o.L.numVarStage)
        + ((t.getD 3 0 : Nat) : Int) * 1) =
      ((multiIndices [o.L.numIntervals, o.L.nspi - 1, o.L.nspi, o.numStates]).map fun t =>
        o.posS (t.getD 0 0) (t.getD 2 0) (t.getD 3 0)).map (fun (n : Nat) => (n : Int)) := by
    rw [List.map_map]
    apply List.map_congr_left
    intro t ht
    obtain ⟨i, l, j, k, rfl, -⟩ := mem_multi4 ht
    simp only [List.eraseIdx, List.getD_cons_zero, List.getD_cons_succ, Function.comp, posS, posG]
    push_cast; ring
  have e4d : (multiIndices [o.L.numIntervals, o.L.nspi - 1, o.L.nspi, o.numStates]).map (fun t =>
      (o.posG "states" 0 0 : Int) + ((((t.eraseIdx 3).eraseIdx 0).getD 1 0 : Nat) : Int) * o.L.numVarStage
        + ((((t.eraseIdx 3).getD 0 0 : Nat) : Int)) * (((o.L.nspi - 1 : Nat) : Int) * o.L.numVarStage)
        + ((t.getD 3 0 : Nat) : Int) * 1 + ((o.posG "states_dot" 0 0 : Int) - o.posG "states" 0 0)) =
      ((multiIndices [o.L.numIntervals, o.L.nspi - 1, o.L.nspi, o.numStates]).map fun t =>
        o.posD (t.getD 0 0) (t.getD 2 0) (t.getD 3 0)).map (fun (n : Nat) => (n : Int)) := by
    rw [List.map_map]
    apply List.map_congr_left
    intro t ht
    obtain ⟨i, l, j, k, rfl, -⟩ := mem_multi4 ht
    simp only [List.eraseIdx, List.getD_cons_zero, List.getD_cons_succ, Function.comp, posD, posG]
    push_cast; ring
  by_cases hm : "mesh_scale" ∈ o.L.globals
  · have hidx : o.L.indexInDec "global" "mesh_scale" none = .ok (.scalar o.posM) := by
      simp [indexInDec, globalEnum, hm, Except.map, posM]
    simp only [if_pos hm, hidx, jacRows, jacCols, ravel, List.map_append, Except.ok.injEq, Prod.mk.injEq]
    refine ⟨?_, ?_⟩
    · congr 1
      · exact congrArg₂ (· ++ ·) e4r e4r
      · rw [List.map_map]
        apply List.map_congr_left
        intro t ht
        obtain ⟨i, l, k, rfl, -⟩ := mem_multi3 ht
        simp [Function.comp, rowOf]
        push_cast; ring
    · congr 1
      · exact congrArg₂ (· ++ ·) e4s e4d
      · rw [List.map_map]
        apply List.map_congr_left
        intro t _
        simp
  · simp only [if_neg hm, jacRows, jacCols, ravel, List.map_append, List.append_nil, Except.ok.injEq,
      Prod.mk.injEq]
    exact ⟨congrArg₂ (· ++ ·) e4r e4r, congrArg₂ (· ++ ·) e4s e4d⟩

theorem contJacobian_eq (ho : o.Good) {x : List ℝ} (hx : x.length = o.L.numDec) :
    o.contJacobian x = .ok (o.jacVals x) := by
  obtain ⟨Xd, hXd, hXdat⟩ := tensor_at ho hx ho.statesDot
  have hh : ∀ i, i < o.L.numIntervals →
      (o.normLen.map (· * o.scaleOf x)).getD i 0 = o.normLen.getD i 0 * o.scaleOf x := by
    intro i hi
    have : i < o.normLen.length := by rw [ho.lens]; exact hi
    simp [this]
  have hb : (multiIndices [o.L.numIntervals, o.L.nspi - 1, o.L.nspi, o.numStates]).map (fun t =>
      -o.B (t.getD 1 0) (t.getD 2 0) * (o.normLen.map (· * o.scaleOf x)).getD (t.getD 0 0) 0) =
      (multiIndices [o.L.numIntervals, o.L.nspi - 1, o.L.nspi, o.numStates]).map (fun t =>
      -o.B (t.getD 1 0) (t.getD 2 0) * (o.normLen.getD (t.getD 0 0) 0 * o.scaleOf x)) := by
    apply List.map_congr_left
    intro t ht
    obtain ⟨i, l, j, k, rfl, hi, -⟩ := mem_multi4 ht
    simp only [List.getD_cons_zero, List.getD_cons_succ]
    rw [hh i hi]
  unfold contJacobian
  rw [meshScale_eq ho hx]
  simp only [bind, Except.bind]
  by_cases hm : "mesh_scale" ∈ o.L.globals
  · simp only [if_pos hm, hXd, pure, Except.pure, Except.ok.injEq, jacVals, ravel]
    rw [hb]
    congr 1
    apply List.map_congr_left
    intro t ht
    obtain ⟨i, l, k, rfl, hi, hl, hk⟩ := mem_multi3 ht
    simp only [List.getD_cons_zero, List.getD_cons_succ, sumStages, sum_range_list]
    congr 1
    refine Finset.sum_congr rfl (fun j hj => ?_)
    rw [hXdat i j k hi (Finset.mem_range.mp hj) (by rw [ho.same]; exact hk)]; rfl
  · simp only [if_neg hm, pure, Except.pure, Except.ok.injEq, jacVals, ravel, List.append_nil]
    rw [hb]

theorem sum_collapse {n : Nat} (f : Nat → ℝ) {i : Nat} (hi : i < n) (h : ∀ a, a < n → a ≠ i → f a = 0) :
    ∑ a ∈ Finset.range n, f a = f i := by
  refine Finset.sum_eq_single i (fun a ha hne => h a (Finset.mem_range.mp ha) hne) ?_
  intro hni
  exact absurd (Finset.mem_range.mpr hi) hni

theorem assemble4 (o : OCP) (col : List Nat → Nat) (val : List Nat → ℝ) {i l k : Nat}
    (hi : i < o.L.numIntervals) (hl : l < o.L.nspi - 1) (hk : k < o.numStates) (c : Nat) :
    assemble ((multiIndices [o.L.numIntervals, o.L.nspi - 1, o.L.nspi, o.numStates]).map fun t =>
        o.rowOf (t.getD 0 0) (t.getD 1 0) (t.getD 3 0))
      ((multiIndices [o.L.numIntervals, o.L.nspi - 1, o.L.nspi, o.numStates]).map col)
      ((multiIndices [o.L.numIntervals, o.L.nspi - 1, o.L.nspi, o.numStates]).map val) (o.rowOf i l k) c =
    ∑ j ∈ Finset.range o.L.nspi, if col [i, l, j, k] = c then val [i, l, j, k] else 0 := by
  rw [assemble_map, sum_multi]
  simp only [sum_multi, sum_multi_nil, List.getD_cons_zero, List.getD_cons_succ]
  have hrow : ∀ {i' l' k'}, l' < o.L.nspi - 1 → k' < o.numStates → o.rowOf i' l' k' = o.rowOf i l k →
      i' = i ∧ l' = l ∧ k' = k := fun hl' hk' h => index3_inj hl' hk' hl hk h
  rw [sum_collapse _ hi, sum_collapse _ hl]
  · refine Finset.sum_congr rfl (fun j hj => ?_)
    rw [sum_collapse _ hk]
    · simp
    · intro k' hk' hne
      rw [if_neg]
      exact fun h => hne (hrow hl hk' h.1).2.2
  · intro l' hl' hne
    refine Finset.sum_eq_zero (fun j _ => Finset.sum_eq_zero (fun k' hk' => ?_))
    rw [if_neg]
    exact fun h => hne (hrow hl' (Finset.mem_range.mp hk') h.1).2.1
  · intro i' hi' hne
    refine Finset.sum_eq_zero (fun l' hl' => Finset.sum_eq_zero (fun j _ => Finset.sum_eq_zero (fun k' hk' => ?_)))
    rw [if_neg]
    exact fun h => hne (hrow (Finset.mem_range.mp hl') (Finset.mem_range.mp hk') h.1).1

theorem assemble3 (o : OCP) (col : List Nat → Nat) (val : List Nat → ℝ) {i l k : Nat}
    (hi : i < o.L.numIntervals) (hl : l < o.L.nspi - 1) (hk : k < o.numStates) (c : Nat) :
    assemble ((multiIndices [o.L.numIntervals, o.L.nspi - 1, o.numStates]).map fun t =>
        o.rowOf (t.getD 0 0) (t.getD 1 0) (t.getD 2 0))
      ((multiIndices [o.L.numIntervals, o.L.nspi - 1, o.numStates]).map col)
      ((multiIndices [o.L.numIntervals, o.L.nspi - 1, o.numStates]).map val) (o.rowOf i l k) c =
    if col [i, l, k] = c then val [i, l, k] else 0 := by
  rw [assemble_map, sum_multi]
  simp only [sum_multi, sum_multi_nil, List.getD_cons_zero, List.getD_cons_succ]
  have hrow : ∀ {i' l' k'}, l' < o.L.nspi - 1 → k' < o.numStates → o.rowOf i' l' k' = o.rowOf i l k →
      i' = i ∧ l' = l ∧ k' = k := fun hl' hk' h => index3_inj hl' hk' hl hk h
  rw [sum_collapse _ hi, sum_collapse _ hl, sum_collapse _ hk]
  · simp
  · intro k' hk' hne
    rw [if_neg]
    exact fun h => hne (hrow hl hk' h.1).2.2
  · intro l' hl' hne
    refine Finset.sum_eq_zero (fun k' hk' => ?_)
    rw [if_neg]
    exact fun h => hne (hrow hl' (Finset.mem_range.mp hk') h.1).2.1
  · intro i' hi' hne
    refine Finset.sum_eq_zero (fun l' hl' => Finset.sum_eq_zero (fun k' hk' => ?_))
    rw [if_neg]
    exact fun h => hne (hrow (Finset.mem_range.mp hl') (Finset.mem_range.mp hk') h.1).1

/-- The assembled entry in the row of interval `i`, equation `l`, state `k`. -/
theorem assembled_entry (o : OCP) (x : List ℝ) {i l k : Nat}
    (hi : i < o.L.numIntervals) (hl : l < o.L.nspi - 1) (hk : k < o.numStates) (c : Nat) :
    assemble o.jacRows o.jacCols (o.jacVals x) (o.rowOf i l k) c =
      (∑ j ∈ Finset.range o.L.nspi, if o.posS i j k = c then o.A l j else 0)
      + (∑ j ∈ Finset.range o.L.nspi,
          if o.posD i j k = c then -o.B l j * (o.normLen.getD i 0 * o.scaleOf x) else 0)
      + if "mesh_scale" ∈ o.L.globals ∧ o.posM = c then
          (∑ j ∈ Finset.range o.L.nspi, -o.B l j * x.getD (o.posD i j k) 0) * o.normLen.getD i 0
        else 0 := by
  unfold jacRows jacCols jacVals
  dsimp only
  rw [assemble_append _ _ _ _ _ _ (by simp) (by simp), assemble_append _ _ _ _ _ _ (by simp) (by simp),
    assemble4 o _ _ hi hl hk, assemble4 o _ _ hi hl hk]
  congr 1
  by_cases hm : "mesh_scale" ∈ o.L.globals
  · simp only [if_pos hm]
    rw [assemble3 o _ _ hi hl hk]
    simp [hm]
  · simp [hm, assemble]

/-! ## Derivatives -/

/-- Derivative of the mesh scale. -/
theorem hasDerivAt_scaleOf (ho : o.Good) {x : List ℝ} {c : Nat} (hc : c < x.length) (t0 : ℝ) :
    HasDerivAt (fun t => o.scaleOf (x.set c t)) (if "mesh_scale" ∈ o.L.globals ∧ o.posM = c then 1 else 0) t0 := by
  unfold scaleOf
  cases hf : o.fixedScale with
  | some s =>
    have : ¬ "mesh_scale" ∈ o.L.globals := by
      rw [ho.mesh, hf]; simp
    simp only [this, false_and, if_false]
    exact hasDerivAt_const t0 s
  | none =>
    have : "mesh_scale" ∈ o.L.globals := ho.mesh.mpr hf
    simp only [this, true_and]
    exact hasDerivAt_coord x hc _ t0

theorem hasDerivAt_defect (ho : o.Good) {x : List ℝ} {c : Nat} (hc : c < x.length) (i l k : Nat) :
    HasDerivAt (fun t => o.defect (x.set c t) i l k)
      ((∑ j ∈ Finset.range o.L.nspi, if o.posS i j k = c then o.A l j else 0)
      + (∑ j ∈ Finset.range o.L.nspi,
          if o.posD i j k = c then -o.B l j * (o.normLen.getD i 0 * o.scaleOf x) else 0)
      + if "mesh_scale" ∈ o.L.globals ∧ o.posM = c then
          (∑ j ∈ Finset.range o.L.nspi, -o.B l j * x.getD (o.posD i j k) 0) * o.normLen.getD i 0
        else 0) (x.getD c 0) := by
  have hs := hasDerivAt_scaleOf ho hc (x.getD c 0)
  have h1 : HasDerivAt (fun t => ∑ j ∈ Finset.range o.L.nspi, (x.set c t).getD (o.posS i j k) 0 * o.A l j)
      (∑ j ∈ Finset.range o.L.nspi, (if o.posS i j k = c then 1 else 0) * o.A l j) (x.getD c 0) := by
    refine HasDerivAt.fun_sum (fun j _ => ?_)
    exact (hasDerivAt_coord x hc _ _).mul_const _
  have h2 : HasDerivAt (fun t => ∑ j ∈ Finset.range o.L.nspi, (x.set c t).getD (o.posD i j k) 0 *
        (o.normLen.getD i 0 * o.scaleOf (x.set c t)) * o.B l j)
      (∑ j ∈ Finset.range o.L.nspi, ((if o.posD i j k = c then 1 else 0) * (o.normLen.getD i 0 * o.scaleOf x) +
        x.getD (o.posD i j k) 0 * (o.normLen.getD i 0 *
          (if "mesh_scale" ∈ o.L.globals ∧ o.posM = c then 1 else 0))) * o.B l j) (x.getD c 0) := by
    refine HasDerivAt.fun_sum (fun j _ => ?_)
    have := ((hasDerivAt_coord x hc (o.posD i j k) (x.getD c 0)).mul (hs.const_mul (o.normLen.getD i 0))).mul_const
      (o.B l j)
    rw [set_getD_self] at this
    exact this
  refine (h1.sub h2).congr_deriv ?_
  have e1 : ∑ j ∈ Finset.range o.L.nspi, (if o.posS i j k = c then (1 : ℝ) else 0) * o.A l j =
      ∑ j ∈ Finset.range o.L.nspi, if o.posS i j k = c then o.A l j else 0 := by
    refine Finset.sum_congr rfl (fun j _ => ?_)
    split <;> simp
  rw [e1, sub_eq_add_neg, add_assoc]
  congr 1
  rw [← Finset.sum_neg_distrib]
  have e2 : ∀ j, -(((if o.posD i j k = c then (1 : ℝ) else 0) * (o.normLen.getD i 0 * o.scaleOf x) +
        x.getD (o.posD i j k) 0 * (o.normLen.getD i 0 *
          (if "mesh_scale" ∈ o.L.globals ∧ o.posM = c then 1 else 0))) * o.B l j) =
      (if o.posD i j k = c then -o.B l j * (o.normLen.getD i 0 * o.scaleOf x) else 0) +
      (if "mesh_scale" ∈ o.L.globals ∧ o.posM = c then
        -o.B l j * x.getD (o.posD i j k) 0 * o.normLen.getD i 0 else 0) := by
    intro j
    split <;> split <;> ring
  simp only [e2, Finset.sum_add_distrib]
  congr 1
  split
  · rw [Finset.sum_mul]
  · simp

/-- **C25.** For every problem (scaled or fixed mesh), every transcription matrices `A`, `B` and every decision
vector: the structure and the values of the continuity Jacobian exist and have the same length, rows are numbers of
continuity constraints, columns are numbers of decision variables, and the assembled matrix is the derivative of the
continuity constraints (including the mesh-scale column). -/
theorem C25_continuity_jacobian (ho : o.Good) :
    ∃ (rows cols : List Nat) (F : List ℝ → List ℝ),
      o.contJacStructure = .ok (rows.map (fun (n : Nat) => (n : Int)), cols.map (fun (n : Nat) => (n : Int))) ∧
      rows.length = cols.length ∧ (∀ r ∈ rows, r < o.numContinuity) ∧ (∀ c ∈ cols, c < o.L.numDec) ∧
      (∀ y : List ℝ, y.length = o.L.numDec → o.contConstraints y = .ok (F y)) ∧
      ∀ x : List ℝ, x.length = o.L.numDec →
        ∃ vals, o.contJacobian x = .ok vals ∧ vals.length = rows.length ∧
          IsJacobianAt o.L.numDec o.numContinuity F x (assemble rows cols vals) := by
  refine ⟨o.jacRows, o.jacCols, o.contFun, contJacStructure_eq ho, ?_, ?_, ?_,
    fun y hy => contConstraints_eq ho hy, ?_⟩
  · unfold jacRows jacCols; split <;> simp
  · intro r hr
    have hrow : ∀ {i l k}, i < o.L.numIntervals → l < o.L.nspi - 1 → k < o.numStates →
        o.rowOf i l k < o.numContinuity := by
      intro i l k hi hl hk
      have := contFun_at o [] hi hl hk
      have := (List.getElem?_eq_some_iff.mp this).1
      rw [length_contFun] at this
      exact this
    unfold jacRows at hr
    dsimp only at hr
    rcases List.mem_append.mp hr with hr | hr
    · have hr : r ∈ (multiIndices [o.L.numIntervals, o.L.nspi - 1, o.L.nspi, o.numStates]).map fun t =>
        o.rowOf (t.getD 0 0) (t.getD 1 0) (t.getD 3 0) := by
        rcases List.mem_append.mp hr with h | h <;> exact h
      obtain ⟨t, ht, rfl⟩ := List.mem_map.mp hr
      obtain ⟨i, l, j, k, rfl, hi, hl, _, hk⟩ := mem_multi4 ht
      exact hrow hi hl hk
    · split at hr
      · obtain ⟨t, ht, rfl⟩ := List.mem_map.mp hr
        obtain ⟨i, l, k, rfl, hi, hl, hk⟩ := mem_multi3 ht
        exact hrow hi hl hk
      · simp at hr
  · intro c hc
    unfold jacCols at hc
    dsimp only at hc
    rcases List.mem_append.mp hc with hc | hc
    · rcases List.mem_append.mp hc with hc | hc
      · obtain ⟨t, ht, rfl⟩ := List.mem_map.mp hc
        obtain ⟨i, l, j, k, rfl, hi, hl, hj, hk⟩ := mem_multi4 ht
        exact lt_of_lt_of_le (posS_lt ho hi hj hk) (allStage_le_numDec _)
      · obtain ⟨t, ht, rfl⟩ := List.mem_map.mp hc
        obtain ⟨i, l, j, k, rfl, hi, hl, hj, hk⟩ := mem_multi4 ht
        exact lt_of_lt_of_le (posD_lt ho hi hj hk) (allStage_le_numDec _)
    · split at hc
      · rename_i hm
        obtain ⟨t, ht, rfl⟩ := List.mem_map.mp hc
        exact posM_lt hm
      · simp at hc
  · intro x hx
    refine ⟨o.jacVals x, contJacobian_eq ho hx, ?_, ?_⟩
    · unfold jacVals jacRows; split <;> simp
    · intro r hr c hc
      have hr' : r < o.L.numIntervals * (o.L.nspi - 1) * o.numStates := by
        unfold numContinuity at hr
        calc r < _ := hr
          _ = _ := by ring
      obtain ⟨i, l, k, hi, hl, hk, rfl⟩ := decompose3 hr'
      have hfun : (fun t => (o.contFun (x.set c t)).getD ((i * (o.L.nspi - 1) + l) * o.numStates + k) 0)
          = fun t => o.defect (x.set c t) i l k := by
        funext t
        rw [List.getD_eq_getElem?_getD, contFun_at o _ hi hl hk]; rfl
      rw [hfun]
      have := assembled_entry o x hi hl hk c
      unfold rowOf at this
      rw [this]
      exact hasDerivAt_defect ho (by rw [hx]; exact hc) i l k

end Lumos.Ocp.OCP
