import Verif.Ocp.ContModel
/-! Helper lemmas for the continuity properties. -/

namespace Lumos.Ocp.OCP

open Lumos DecVar DecVar.Layout Conv

theorem sum_range_list (n : Nat) (f : Nat → ℝ) : ((List.range n).map f).sum = ∑ i ∈ Finset.range n, f i := by
  rw [← List.sum_toFinset _ List.nodup_range, List.toFinset_range]

theorem length_multiIndices (s : List Nat) : (multiIndices s).length = s.prod := by
  induction s with
  | nil => rfl
  | cons n ns ih => simp [multiIndices, List.length_flatMap, ih]

theorem sum_multi (n : Nat) (ns : List Nat) (f : List Nat → ℝ) :
    ((multiIndices (n :: ns)).map f).sum =
      ∑ i ∈ Finset.range n, ((multiIndices ns).map fun t => f (i :: t)).sum := by
  simp only [multiIndices, List.map_flatMap, List.map_map, Function.comp_def]
  rw [← sum_range_list]
  generalize List.range n = l
  induction l with
  | nil => simp
  | cons a l ih => simp [ih]

theorem sum_multi_nil (f : List Nat → ℝ) : ((multiIndices []).map f).sum = f [] := by simp [multiIndices]

theorem mem_multi_cons {n : Nat} {ns : List Nat} {t : List Nat} :
    t ∈ multiIndices (n :: ns) ↔ ∃ i t', t = i :: t' ∧ i < n ∧ t' ∈ multiIndices ns := by
  simp only [multiIndices, List.mem_flatMap, List.mem_range, List.mem_map]
  constructor
  · rintro ⟨i, hi, t', ht', rfl⟩; exact ⟨i, t', rfl, hi, ht'⟩
  · rintro ⟨i, t', rfl, hi, ht'⟩; exact ⟨i, hi, t', ht', rfl⟩

theorem getElem?_multi_cons (n : Nat) (ns : List Nat) (i q : Nat) (hi : i < n) (hq : q < ns.prod) :
    (multiIndices (n :: ns))[i * ns.prod + q]? = ((multiIndices ns)[q]?).map (i :: ·) := by
  have hrect : Np.Rect n ns.prod ((List.range n).map fun (i : Nat) => (multiIndices ns).map (i :: ·)) := by
    refine ⟨by simp, ?_⟩
    intro r hr
    obtain ⟨i, _, rfl⟩ := List.mem_map.mp hr
    simp [length_multiIndices]
  have := Np.getElem?_flatten_rect hrect i q hq
  simp only [multiIndices, List.flatMap]
  rw [this]
  simp [hi]

theorem multi3 (a b c i l k : Nat) (hi : i < a) (hl : l < b) (hk : k < c) :
    (multiIndices [a, b, c])[(i * b + l) * c + k]? = some [i, l, k] := by
  have h1 : l * c + k < [b, c].prod := by
    have := Nat.mul_le_mul_right c (Nat.succ_le_of_lt hl)
    simp only [List.prod_cons, List.prod_nil, mul_one]
    rw [Nat.succ_mul] at this; omega
  have h2 : k < [c].prod := by simpa using hk
  have e1 : (i * b + l) * c + k = i * [b, c].prod + (l * [c].prod + k * [].prod + 0) := by
    simp; ring
  rw [e1, getElem?_multi_cons a [b, c] i _ hi (by simpa using h1)]
  rw [show l * [c].prod + k * ([] : List Nat).prod + 0 = l * [c].prod + (k * ([] : List Nat).prod + 0) by ring]
  rw [getElem?_multi_cons b [c] l _ hl (by simpa using hk)]
  rw [getElem?_multi_cons c [] k 0 hk (by simp)]
  simp [multiIndices]

/-- Decompose a row number into interval, equation and state. -/
theorem decompose3 {a b c r : Nat} (hr : r < a * b * c) :
    ∃ i l k, i < a ∧ l < b ∧ k < c ∧ r = (i * b + l) * c + k := by
  have hc : 0 < c := by
    rcases Nat.eq_zero_or_pos c with h | h
    · subst h; simp at hr
    · exact h
  have hb : 0 < b := by
    rcases Nat.eq_zero_or_pos b with h | h
    · subst h; simp at hr
    · exact h
  refine ⟨r / c / b, r / c % b, r % c, ?_, Nat.mod_lt _ hb, Nat.mod_lt _ hc, ?_⟩
  · rw [Nat.div_div_eq_div_mul, Nat.div_lt_iff_lt_mul (by positivity)]
    calc r < a * b * c := hr
      _ = a * (c * b) := by ring
  · have h1 := Nat.div_add_mod r c
    have h2 := Nat.div_add_mod (r / c) b
    rw [Nat.mul_comm (r / c / b) b, h2]
    rw [Nat.mul_comm (r / c) c]
    omega

theorem index3_inj {b c i l k i' l' k' : Nat} (hl : l < b) (hk : k < c) (hl' : l' < b) (hk' : k' < c)
    (h : (i * b + l) * c + k = (i' * b + l') * c + k') : i = i' ∧ l = l' ∧ k = k' := by
  have hc : 0 < c := by omega
  have hb : 0 < b := by omega
  have e1 : k = k' := by
    have := congrArg (· % c) h
    simp only [Nat.mul_add_mod_self_right, Nat.mod_eq_of_lt hk, Nat.mod_eq_of_lt hk'] at this
    exact this
  subst e1
  have e2 : i * b + l = i' * b + l' := Nat.eq_of_mul_eq_mul_right hc (by omega)
  have e3 : l = l' := by
    have := congrArg (· % b) e2
    simp only [Nat.mul_add_mod_self_right, Nat.mod_eq_of_lt hl, Nat.mod_eq_of_lt hl'] at this
    exact this
  subst e3
  exact ⟨Nat.eq_of_mul_eq_mul_right hb (by omega), rfl, rfl⟩

/-! ## The problem's hypotheses -/

/-- A problem as both OCP classes construct it: the layout is accepted by `DecVarOperator` with distinct field
names, at least one interval and two stages per interval, groups `states` and `states_dot` of equal non-zero size,
one interval length per interval, and the mesh scale is a global variable exactly when the mesh is not fixed. -/
structure Good (o : OCP) : Prop where
  made : o.L.Made
  fields : o.L.Fields
  stages : 2 ≤ o.L.nspi
  intervals : 1 ≤ o.L.numIntervals
  states : "states" ∈ o.L.groups
  statesDot : "states_dot" ∈ o.L.groups
  same : o.L.size "states_dot" = o.L.size "states"
  pos : 0 < o.L.size "states"
  lens : o.normLen.length = o.L.numIntervals
  mesh : "mesh_scale" ∈ o.L.globals ↔ o.fixedScale = none

/-- Position of the `k`-th variable of group `g` at stage `s`. -/
def posG (o : OCP) (g : String) (s k : Nat) : Nat := o.L.offset (o.L.groups.idxOf g) + k + s * o.L.numVarStage

/-- Position of state `k` at stage `j` of interval `i`. -/
def posS (o : OCP) (i j k : Nat) : Nat := o.posG "states" (i * (o.L.nspi - 1) + j) k

/-- Position of the derivative of state `k` at stage `j` of interval `i`. -/
def posD (o : OCP) (i j k : Nat) : Nat := o.posG "states_dot" (i * (o.L.nspi - 1) + j) k

/-- Position of the mesh scale. -/
def posM (o : OCP) : Nat := o.L.numAllStageVar + o.L.globals.idxOf "mesh_scale"

variable {o : OCP}

theorem lookup_of_group {L : Layout} (h : L.Made) {g : String} (hg : g ∈ L.groups) :
    L.names.lookup g = some (L.namesOf g) := by
  have := (make_ok h.made).2.1 g hg
  unfold namesOf
  cases hl : L.names.lookup g with
  | none => rw [hl] at this; simp at this
  | some ns => rfl

theorem index_posG (ho : o.L.Made) {g : String} (hg : g ∈ o.L.groups) {k : Nat}
    (hk : k < o.L.size g) {s : Nat} (hs : s < o.L.numStages) :
    o.L.indexInDec g ((o.L.namesOf g).getD k "") (some (s : Int)) = .ok (.scalar (o.posG g s k)) := by
  have hk' : k < (o.L.namesOf g).length := hk
  have h1 : o.L.groups[o.L.groups.idxOf g]? = some g := by
    rw [List.getElem?_eq_getElem (List.idxOf_lt_length_of_mem hg)]
    simp
  have h2 : (o.L.namesOf g)[k]? = some ((o.L.namesOf g).getD k "") := by
    simp [hk']
  exact indexInDec_stage o.L ho.nodup _ g (fun e => ho.reserved (e ▸ hg)) h1 k _ h2 s hs

theorem posG_lt (ho : o.L.Made) {g : String} (hg : g ∈ o.L.groups) {k : Nat} (hk : k < o.L.size g) {s : Nat}
    (hs : s < o.L.numStages) : o.posG g s k < o.L.numAllStageVar := by
  have hk' : k < (o.L.namesOf g).length := hk
  have h1 : o.L.groups[o.L.groups.idxOf g]? = some g := by
    rw [List.getElem?_eq_getElem (List.idxOf_lt_length_of_mem hg)]
    simp
  have h2 := offset_add_lt o.L h1 hk'
  have h3 : (s + 1) * o.L.numVarStage ≤ o.L.numStages * o.L.numVarStage := Nat.mul_le_mul_right _ hs
  rw [Nat.add_mul, Nat.one_mul] at h3
  unfold posG numAllStageVar
  omega

theorem stage_lt (ho : o.Good) {i j : Nat} (hi : i < o.L.numIntervals) (hj : j < o.L.nspi) :
    i * (o.L.nspi - 1) + j < o.L.numStages := by
  unfold numStages
  have := Nat.mul_le_mul_right (o.L.nspi - 1) (Nat.succ_le_of_lt hi)
  rw [Nat.succ_mul] at this
  have := ho.stages
  omega

theorem allStage_le_numDec (L : Layout) : L.numAllStageVar ≤ L.numDec := by unfold numDec; omega

theorem posS_lt (ho : o.Good) {i j k : Nat} (hi : i < o.L.numIntervals) (hj : j < o.L.nspi)
    (hk : k < o.numStates) : o.posS i j k < o.L.numAllStageVar :=
  posG_lt ho.made ho.states hk (stage_lt ho hi hj)

theorem posD_lt (ho : o.Good) {i j k : Nat} (hi : i < o.L.numIntervals) (hj : j < o.L.nspi)
    (hk : k < o.numStates) : o.posD i j k < o.L.numAllStageVar :=
  posG_lt ho.made ho.statesDot (by rw [ho.same]; exact hk) (stage_lt ho hi hj)

theorem posM_lt (hm : "mesh_scale" ∈ o.L.globals) : o.posM < o.L.numDec := by
  have := List.idxOf_lt_length_of_mem hm
  unfold posM numDec numGlobal; omega

/-- The mesh scale as a function of the decision vector. -/
noncomputable def scaleOf (o : OCP) (x : List ℝ) : ℝ :=
  match o.fixedScale with
  | some s => s
  | none => x.getD o.posM 0

theorem meshScale_eq (ho : o.Good) {x : List ℝ} (hx : x.length = o.L.numDec) :
    o.meshScale x = .ok (o.scaleOf x) := by
  unfold meshScale scaleOf
  cases hf : o.fixedScale with
  | some s => rfl
  | none =>
    have hm := ho.mesh.mpr hf
    have hlt := posM_lt hm
    have hidx : o.L.indexInDec "global" "mesh_scale" none = .ok (.scalar o.posM) := by
      simp [indexInDec, globalEnum, hm, Except.map, posM]
    simp only [getVar, hidx, bind, Except.bind, getIdx, getAt]
    rw [← hx] at hlt
    simp [hlt, pure, Except.pure]

theorem tensor_at (ho : o.Good) {x : List ℝ} (hx : x.length = o.L.numDec) {g : String} (hg : g ∈ o.L.groups) :
    ∃ t, intervalTensor o.L x g = .ok t ∧ ∀ i j k, i < o.L.numIntervals → j < o.L.nspi → k < o.L.size g →
      at3 t i j k = x.getD (o.posG g (i * (o.L.nspi - 1) + j) k) 0 := by
  obtain ⟨t, ht, hent⟩ := C06_interval_entry ho.made ho.fields ho.stages ho.intervals hx hg
    (lookup_of_group ho.made hg)
  refine ⟨t, ht, ?_⟩
  intro i j k hi hj hk
  have hk' : k < (o.L.namesOf g).length := hk
  obtain ⟨a, ha, hv⟩ := hent i j k _ hi hj (List.getElem?_eq_getElem hk')
  have hs := stage_lt ho hi hj
  have hidx := index_posG ho.made hg hk hs
  have e : (o.L.namesOf g).getD k "" = (o.L.namesOf g)[k] := by simp [hk']
  rw [e] at hidx
  have hlt : o.posG g (i * (o.L.nspi - 1) + j) k < x.length := by
    rw [hx]; exact lt_of_lt_of_le (posG_lt ho.made hg hk hs) (allStage_le_numDec _)
  simp only [getVar, hidx, bind, Except.bind, getIdx, getAt] at hv
  rw [List.getElem?_eq_getElem hlt] at hv
  simp only [pure, Except.pure, Except.ok.injEq, Val.scalar.injEq] at hv
  have hat : at3 t i j k = a := by
    unfold at3
    cases h1 : t[i]? with
    | none => rw [h1] at ha; simp at ha
    | some s =>
      rw [h1] at ha
      simp only [Option.bind_some] at ha
      cases h2 : s[j]? with
      | none => rw [h2] at ha; simp at ha
      | some r =>
        rw [h2] at ha
        simp only [Option.bind_some] at ha
        simp [h1, h2, ha]
  rw [hat, ← hv]
  simp [hlt]

/-! ## Closed forms -/

/-- The defect of state `k` in equation `l` of interval `i`. -/
noncomputable def defect (o : OCP) (x : List ℝ) (i l k : Nat) : ℝ :=
  (∑ j ∈ Finset.range o.L.nspi, x.getD (o.posS i j k) 0 * o.A l j)
    - ∑ j ∈ Finset.range o.L.nspi, x.getD (o.posD i j k) 0 * (o.normLen.getD i 0 * o.scaleOf x) * o.B l j

/-- The continuity constraints, as a plain function. -/
noncomputable def contFun (o : OCP) (x : List ℝ) : List ℝ :=
  (multiIndices [o.L.numIntervals, o.L.nspi - 1, o.numStates]).map fun idx =>
    o.defect x (idx.getD 0 0) (idx.getD 1 0) (idx.getD 2 0)

theorem mem_multi3 {a b c : Nat} {t : List Nat} (h : t ∈ multiIndices [a, b, c]) :
    ∃ i l k, t = [i, l, k] ∧ i < a ∧ l < b ∧ k < c := by
  obtain ⟨i, t1, rfl, hi, h⟩ := mem_multi_cons.mp h
  obtain ⟨l, t2, rfl, hl, h⟩ := mem_multi_cons.mp h
  obtain ⟨k, t3, rfl, hk, h⟩ := mem_multi_cons.mp h
  simp only [multiIndices, List.mem_singleton] at h
  subst h
  exact ⟨i, l, k, rfl, hi, hl, hk⟩

theorem mem_multi4 {a b c d : Nat} {t : List Nat} (h : t ∈ multiIndices [a, b, c, d]) :
    ∃ i l j k, t = [i, l, j, k] ∧ i < a ∧ l < b ∧ j < c ∧ k < d := by
  obtain ⟨i, t1, rfl, hi, h⟩ := mem_multi_cons.mp h
  obtain ⟨l, j, k, rfl, hl, hj, hk⟩ := mem_multi3 h
  exact ⟨i, l, j, k, rfl, hi, hl, hj, hk⟩

theorem contConstraints_eq (ho : o.Good) {x : List ℝ} (hx : x.length = o.L.numDec) :
    o.contConstraints x = .ok (o.contFun x) := by
  obtain ⟨X, hX, hXat⟩ := tensor_at ho hx ho.states
  obtain ⟨Xd, hXd, hXdat⟩ := tensor_at ho hx ho.statesDot
  unfold contConstraints
  rw [meshScale_eq ho hx, hX, hXd]
  simp only [bind, Except.bind, pure, Except.pure, Except.ok.injEq, ravel, contFun]
  apply List.map_congr_left
  intro t ht
  obtain ⟨i, l, k, rfl, hi, hl, hk⟩ := mem_multi3 ht
  simp only [List.getD_cons_zero, List.getD_cons_succ, sumStages, sum_range_list, defect]
  have hh : (o.normLen.map (· * o.scaleOf x)).getD i 0 = o.normLen.getD i 0 * o.scaleOf x := by
    have : i < o.normLen.length := by rw [ho.lens]; exact hi
    simp [this]
  congr 1
  · refine Finset.sum_congr rfl (fun j hj => ?_)
    rw [hXat i j k hi (Finset.mem_range.mp hj) hk]; rfl
  · refine Finset.sum_congr rfl (fun j hj => ?_)
    rw [hXdat i j k hi (Finset.mem_range.mp hj) (by rw [ho.same]; exact hk), hh]; rfl

theorem length_contFun (o : OCP) (x : List ℝ) : (o.contFun x).length = o.numContinuity := by
  simp only [contFun, List.length_map, length_multiIndices, numContinuity, List.prod_cons, List.prod_nil, mul_one]
  ring

theorem contFun_at (o : OCP) (x : List ℝ) {i l k : Nat} (hi : i < o.L.numIntervals) (hl : l < o.L.nspi - 1)
    (hk : k < o.numStates) :
    (o.contFun x)[(i * (o.L.nspi - 1) + l) * o.numStates + k]? = some (o.defect x i l k) := by
  simp [contFun, multi3 _ _ _ i l k hi hl hk]

end Lumos.Ocp.OCP
