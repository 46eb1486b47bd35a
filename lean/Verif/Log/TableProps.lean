import Verif.Log.TableLemmas
import Verif.Log.Props
import Verif.Base.Dict
/-!
# C72: the table of an iteration
-/

namespace Lumos.Log

open Lumos DecVar DecVar.Layout NLP Ocp OCP Bounds

/-! ## Specification -/

/-- The mesh at a stage. -/
noncomputable def meshAt (S : Setup) (x : List ℝ) (s : Nat) : ℝ := S.c.mesh.getD s 0 * readScale S.c.o x

/-- The derivative of state `k` at a stage that the intervals use: the decision variable, or that of the model if the problem is
condensed. -/
noncomputable def dotAt (S : Setup) (x : List ℝ) (s k : Nat) : ℝ :=
  (if S.isCondensed = true then
    S.c.M.f (readGroup S.c.o.L x "states" s) (readGroup S.c.o.L x "inputs" s) (meshAt S x s)
   else readGroup S.c.o.L x "states_dot" s).getD k 0

/-- The defect of state `k` in equation `l` of interval `i`. -/
noncomputable def defectAt (S : Setup) (x : List ℝ) (i l k : Nat) : ℝ :=
  (∑ j ∈ Finset.range S.c.o.L.nspi, S.c.o.A l j * (readGroup S.c.o.L x "states" (i * (S.c.o.L.nspi - 1) + j)).getD k 0)
    - S.c.o.normLen.getD i 0 * readScale S.c.o x *
      ∑ j ∈ Finset.range S.c.o.L.nspi, S.c.o.B l j * dotAt S x (i * (S.c.o.L.nspi - 1) + j) k

/-- The decision variables at a stage. -/
noncomputable def decColumns (S : Setup) (x : List ℝ) (s : Nat) : List (String × ℝ) :=
  S.c.o.L.groups.flatMap fun g => (S.c.o.L.namesOf g).map fun n => (g ++ "." ++ n, readAt S.c.o.L x g n s)

/-- The outputs of the model at a stage. -/
noncomputable def outColumns (S : Setup) (O : Outputs) (x : List ℝ) (s : Nat) : List (String × ℝ) :=
  (O.names.map ("outputs." ++ ·)).zip
    (O.out (readGroup S.c.o.L x "states" s) (readGroup S.c.o.L x "inputs" s) (meshAt S x s))

/-- The defects of the equations that end at a stage (there is none at the first), in units of the scale of the state. -/
noncomputable def intervalColumns (S : Setup) (x : List ℝ) (s : Nat) : List (String × ℝ) :=
  (S.c.o.L.namesOf "states").zipIdx.map fun p => ("interval_con." ++ p.1,
    if s = 0 then 0
    else defectAt S x ((s - 1) / (S.c.o.L.nspi - 1)) ((s - 1) % (S.c.o.L.nspi - 1)) p.2 / askedScale S.scales "states" p.1)

/-- The model equations at a stage: of the state derivatives (unless they are condensed away) in units of the scales of the states, of
the outputs that are decision variables in units of their scales, and the residuals. -/
noncomputable def stageColumns (S : Setup) (x : List ℝ) (s : Nat) : List (String × ℝ) :=
  let st := readGroup S.c.o.L x "states" s
  let u := readGroup S.c.o.L x "inputs" s
  let scaled (g : String) (v : List ℝ) := vdiv v ((S.c.o.L.namesOf g).map (askedScale S.scales g))
  (if S.isCondensed = true then [] else
    ((S.c.o.L.namesOf "states_dot").map ("stage_con." ++ ·)).zip
      (scaled "states" (List.zipWith (· - ·) (S.c.M.f st u (meshAt S x s)) (readGroup S.c.o.L x "states_dot" s))))
  ++ ((S.c.o.L.namesOf "con_outputs").map ("stage_con." ++ ·)).zip
      (scaled "con_outputs" (List.zipWith (· - ·) (S.c.M.h st u (meshAt S x s)) (readGroup S.c.o.L x "con_outputs" s)))
  ++ (S.c.M.residuals.map ("stage_con." ++ ·)).zip (S.c.M.r st u (meshAt S x s))

/-- The differences between the ends of a cyclic problem, at the last stage. -/
noncomputable def cyclicColumns (S : Setup) (x : List ℝ) (s : Nat) : List (String × ℝ) :=
  if S.isCyclic = true then (cyclicPairs S).map fun p => ("cyclic_con." ++ (p.1 ++ "." ++ p.2),
    if s = S.c.o.L.numStages - 1 then readAt S.c.o.L x p.1 p.2 0 - readAt S.c.o.L x p.1 p.2 (S.c.o.L.numStages - 1) else 0)
  else []

/-! ## Proofs -/

variable {S : Setup} {D : List ℝ → ℝ → Prop}

theorem readGroup_getD (h : S.Good D) {x : List ℝ} (hx : x.length = S.c.o.L.numDec) {g : String}
    (hg : g ∈ S.c.o.L.groups) {s k : Nat} (hs : s < S.c.o.L.numStages) (hk : k < S.c.o.L.size g) :
    (readGroup S.c.o.L x g s).getD k 0 = x.getD (S.c.o.posG g s k) 0 := by
  have hk' : k < (S.c.o.L.namesOf g).length := hk
  unfold readGroup
  rw [List.getD_eq_getElem?_getD, List.getElem?_map, List.getElem?_eq_getElem hk']
  exact readAt_pos h hx hg (List.getElem?_eq_getElem hk') hs

theorem numStages_split (S : Setup) : S.c.o.L.numStages - 1 = S.c.o.L.numIntervals * (S.c.o.L.nspi - 1) := by
  unfold numStages; omega

theorem stage_lt {q m n j : Nat} (hq : q < n * (m - 1)) (hj : j < m) : q / (m - 1) * (m - 1) + j < n * (m - 1) + 1 := by
  have hm : 0 < m - 1 := by
    rcases Nat.eq_zero_or_pos (m - 1) with h | h
    · rw [h] at hq; simp at hq
    · exact h
  have : q / (m - 1) < n := by rwa [Nat.div_lt_iff_lt_mul hm]
  have h2 : (q / (m - 1) + 1) * (m - 1) ≤ n * (m - 1) := Nat.mul_le_mul_right _ this
  rw [Nat.add_mul, Nat.one_mul] at h2
  omega

/-- The defect of the model of the continuity constraints. -/
theorem defect_eq (h : S.Good D) {x : List ℝ} (hx : x.length = S.c.o.L.numDec) {q k : Nat} (hq : q < S.c.o.L.numStages - 1)
    (hk : k < S.c.o.L.size "states") {y : List ℝ} (hy : y = if S.isCondensed = true then S.c.condX x else x) (l : Nat) :
    S.c.o.defect y (q / (S.c.o.L.nspi - 1)) l k = defectAt S x (q / (S.c.o.L.nspi - 1)) l k := by
  have hq' : q < S.c.o.L.numIntervals * (S.c.o.L.nspi - 1) := by rw [← numStages_split]; exact hq
  have hst : ∀ j, j < S.c.o.L.nspi → q / (S.c.o.L.nspi - 1) * (S.c.o.L.nspi - 1) + j < S.c.o.L.numStages := by
    intro j hj
    exact stage_lt hq' hj
  have hkx : k < S.c.M.nx := by rw [← h.cond.sizeX]; exact hk
  have hkd : k < S.c.o.L.size "states_dot" := by rw [h.cond.sizeD]; exact hkx
  have h1 : ∀ s, s < S.c.o.L.numStages → y.getD (S.c.o.posG "states" s k) 0 = (readGroup S.c.o.L x "states" s).getD k 0 := by
    intro s hs
    rw [readGroup_getD h hx (group_mem h (by simp)) hs hk, hy]
    by_cases hc : S.isCondensed = true
    · rw [if_pos hc, CondOCP.condX_states h.cond hx hs hkx]
    · rw [if_neg hc]
  have hsc : S.c.o.scaleOf y = readScale S.c.o x := by
    rw [readScale_eq h hx, hy]
    by_cases hc : S.isCondensed = true
    · rw [if_pos hc, CondOCP.scaleOf_condX h.cond hx]
    · rw [if_neg hc]
  have h2 : ∀ s, s < S.c.o.L.numStages → y.getD (S.c.o.posG "states_dot" s k) 0 = dotAt S x s k := by
    intro s hs
    unfold dotAt
    by_cases hc : S.isCondensed = true
    · rw [if_pos hc, hy, if_pos hc, CondOCP.condX_dot h.cond hx hs hkx]
      unfold CondOCP.fAt meshAt
      rw [(readGroups h hx hs).1, (readGroups h hx hs).2.1, readScale_eq h hx]
    · rw [if_neg hc, hy, if_neg hc, readGroup_getD h hx (group_mem h (by simp)) hs hkd]
  unfold defect defectAt
  rw [hsc, Finset.mul_sum]
  congr 1
  · refine Finset.sum_congr rfl fun j hj => ?_
    unfold posS
    rw [h1 _ (hst j (Finset.mem_range.1 hj)), mul_comm]
  · refine Finset.sum_congr rfl fun j hj => ?_
    unfold posD
    rw [h2 _ (hst j (Finset.mem_range.1 hj))]
    ring

/-- A block of the continuity constraints. -/
theorem cont_block (h : S.Good D) {x y : List ℝ} (hx : x.length = S.c.o.L.numDec)
    (hy : y = if S.isCondensed = true then S.c.condX x else x) {q : Nat} (hq : q < S.c.o.L.numStages - 1) :
    ((S.c.o.contFun y).drop (q * S.c.o.L.size "states")).take (S.c.o.L.size "states")
      = (List.range (S.c.o.L.size "states")).map fun k =>
        defectAt S x (q / (S.c.o.L.nspi - 1)) (q % (S.c.o.L.nspi - 1)) k := by
  have hq' : q < S.c.o.L.numIntervals * (S.c.o.L.nspi - 1) := by rw [← numStages_split]; exact hq
  have hm : 0 < S.c.o.L.nspi - 1 := by
    rcases Nat.eq_zero_or_pos (S.c.o.L.nspi - 1) with h | h
    · rw [h] at hq'; simp at hq'
    · exact h
  apply List.ext_getElem?
  intro k
  by_cases hk : k < S.c.o.L.size "states"
  · rw [List.getElem?_take_of_lt hk, List.getElem?_drop]
    have := contFun_at S.c.o y (i := q / (S.c.o.L.nspi - 1)) (l := q % (S.c.o.L.nspi - 1)) (k := k)
      (by rwa [Nat.div_lt_iff_lt_mul hm]) (Nat.mod_lt _ hm) hk
    rw [Nat.div_add_mod'] at this
    rw [show q * S.c.o.L.size "states" + k = q * S.c.o.numStates + k from rfl, this, defect_eq h hx hq hk hy]
    simp [hk]
  · rw [List.getElem?_eq_none (by simp; omega), List.getElem?_eq_none (by simp; omega)]

/-- A block of the scales of the continuity constraints. -/
theorem scale_block {K : List ℝ} (hK : ∀ i l k, i < S.c.o.L.numIntervals → l < S.c.o.L.nspi - 1 → k < S.c.o.L.size "states" →
      K[(i * (S.c.o.L.nspi - 1) + l) * S.c.o.L.size "states" + k]?
        = ((S.c.o.L.namesOf "states").map (askedScale S.scales "states"))[k]?) {q : Nat} (hq : q < S.c.o.L.numStages - 1) :
    (K.drop (q * S.c.o.L.size "states")).take (S.c.o.L.size "states")
      = (S.c.o.L.namesOf "states").map (askedScale S.scales "states") := by
  have hq' : q < S.c.o.L.numIntervals * (S.c.o.L.nspi - 1) := by rw [← numStages_split]; exact hq
  have hm : 0 < S.c.o.L.nspi - 1 := by
    rcases Nat.eq_zero_or_pos (S.c.o.L.nspi - 1) with h | h
    · rw [h] at hq'; simp at hq'
    · exact h
  apply List.ext_getElem?
  intro k
  by_cases hk : k < S.c.o.L.size "states"
  · rw [List.getElem?_take_of_lt hk, List.getElem?_drop]
    have := hK (q / (S.c.o.L.nspi - 1)) (q % (S.c.o.L.nspi - 1)) k (by rwa [Nat.div_lt_iff_lt_mul hm]) (Nat.mod_lt _ hm) hk
    rw [Nat.div_add_mod'] at this
    exact this
  · have : (S.c.o.L.namesOf "states").length = S.c.o.L.size "states" := rfl
    rw [List.getElem?_eq_none (by simp; omega), List.getElem?_eq_none (by simp; omega)]

theorem drop_take_vdiv (a b : List ℝ) (i w : Nat) :
    ((vdiv a b).drop i).take w = vdiv ((a.drop i).take w) ((b.drop i).take w) := by
  unfold vdiv
  rw [List.drop_zipWith, List.take_zipWith]

/-- The columns of the intervals from a block. -/
theorem interval_zip (S : Setup) (f : Nat → ℝ) :
    ((S.c.o.L.namesOf "states").map ("interval_con." ++ ·)).zip
      (vdiv ((List.range (S.c.o.L.size "states")).map f) ((S.c.o.L.namesOf "states").map (askedScale S.scales "states")))
    = (S.c.o.L.namesOf "states").zipIdx.map fun p => ("interval_con." ++ p.1, f p.2 / askedScale S.scales "states" p.1) := by
  apply List.ext_getElem
  · simp [vdiv, Layout.size]
  · intro k h1 h2
    simp [vdiv]

theorem zip_append' {α β : Type} {a c : List α} {b d : List β} (h : a.length = b.length) :
    (a ++ c).zip (b ++ d) = a.zip b ++ c.zip d := List.zip_append h

theorem vdiv_append {a c b d : List ℝ} (h : a.length = b.length) : vdiv (a ++ c) (b ++ d) = vdiv a b ++ vdiv c d := by
  unfold vdiv
  exact List.zipWith_append h

theorem vdiv_ones (a : List ℝ) : vdiv a (List.replicate a.length 1) = a := by
  induction a with
  | nil => rfl
  | cons x a ih =>
    unfold vdiv at ih
    simp [vdiv, List.replicate_succ, ih]

theorem reshape2_ok {n w : Nat} {a : List ℝ} (h : a.length = n * w) :
    reshape2 n w a = .ok ((List.range n).map fun i => (a.drop (i * w)).take w) := by
  unfold reshape2
  rw [if_pos h]
  rfl

theorem frame_ok {columns : List String} {data : List (List ℝ)} (h : ∀ r ∈ data, r.length = columns.length) :
    frame columns data = .ok (data.map fun r => columns.zip r) := by
  unfold frame
  rw [if_pos h]

/-- The split constraints of a reachable problem. -/
theorem part_ok {n : Nat} {p : Prob} {A : List ℝ → Prop} (hp : Reachable n p A) {z : List ℝ} (hz : z.length = n) {name : String} {c : Cons}
    (hc : (name, c) ∈ p.cons) :
    part (p.cons.map fun c => (c.1, c.2.constraints z)) name = .ok (vdiv (c.con (vmul z p.scales)) c.conScales)
      ∧ (vdiv (c.con (vmul z p.scales)) c.conScales).length = c.numCon := by
  have hi := hp.inv
  have hg := (hi.cons _ hc).facts
  have he : c.constraints z = vdiv (c.con (vmul z p.scales)) c.conScales := by
    unfold Cons.constraints
    rw [hg.2.1]
  constructor
  · unfold part getKey
    have : List.lookup name (p.cons.map fun c => (c.1, c.2.constraints z)) = some (c.constraints z) := by
      refine Dict.lookup_of_mem (d := p.cons.map fun c => (c.1, c.2.constraints z)) ?_ ?_
      · unfold Dict.keys
        rw [List.map_map]
        exact hi.consNodup
      · exact List.mem_map.2 ⟨_, hc, rfl⟩
    rw [this, he]
  · rw [← he]
    exact (hg.2.2 z hz).1

/-- The model equations of a stage in terms of what a user reads. -/
theorem alg_row (h : S.Good D) {x : List ℝ} (hx : x.length = S.c.o.L.numDec) {s : Nat} (hs : s < S.c.o.L.numStages) :
    S.c.M.flatImplicit (S.c.o.stageVars x s) (S.c.mesh.getD s 0 * S.c.o.scaleOf x)
      = List.zipWith (· - ·) (S.c.M.f (readGroup S.c.o.L x "states" s) (readGroup S.c.o.L x "inputs" s) (meshAt S x s))
          (readGroup S.c.o.L x "states_dot" s)
        ++ (List.zipWith (· - ·) (S.c.M.h (readGroup S.c.o.L x "states" s) (readGroup S.c.o.L x "inputs" s) (meshAt S x s))
            (readGroup S.c.o.L x "con_outputs" s)
          ++ S.c.M.r (readGroup S.c.o.L x "states" s) (readGroup S.c.o.L x "inputs" s) (meshAt S x s)) := by
  have hg := readGroups h hx hs
  have hv := CondOCP.len_v h.cond hx hs
  unfold meshAt
  rw [hg.1, hg.2.1, hg.2.2.1, hg.2.2.2, readScale_eq h hx]
  conv_lhs => rw [CondOCP.parts_of (c := S.c) (S.c.o.stageVars x s)]
  rw [CondOCP.flatImplicit_parts h.cond.model (ExplicitModel.length_xOf hv) (ExplicitModel.length_uOf hv)]
  · rw [List.length_take, ExplicitModel.length_wOf hv]; omega
  · rw [List.length_drop, ExplicitModel.length_wOf hv]; omega

theorem length_readGroup (L : Layout) (x : List ℝ) (g : String) (s : Nat) : (readGroup L x g s).length = L.size g := by
  unfold readGroup
  simp [Layout.size]

/-- The parts of a row of the model equations have the expected sizes. -/
theorem row_lengths (h : S.Good D) (x : List ℝ) (s : Nat) :
    (List.zipWith (· - ·) (S.c.M.f (readGroup S.c.o.L x "states" s) (readGroup S.c.o.L x "inputs" s) (meshAt S x s))
          (readGroup S.c.o.L x "states_dot" s)).length = S.c.M.nx
    ∧ (List.zipWith (· - ·) (S.c.M.h (readGroup S.c.o.L x "states" s) (readGroup S.c.o.L x "inputs" s) (meshAt S x s))
            (readGroup S.c.o.L x "con_outputs" s)).length = S.c.M.ny
    ∧ (S.c.M.r (readGroup S.c.o.L x "states" s) (readGroup S.c.o.L x "inputs" s) (meshAt S x s)).length = S.c.M.nr := by
  have h1 : (readGroup S.c.o.L x "states" s).length = S.c.M.nx := by rw [length_readGroup, h.cond.sizeX]
  have h2 : (readGroup S.c.o.L x "inputs" s).length = S.c.M.nu := by rw [length_readGroup, h.cond.sizeU]
  refine ⟨?_, ?_, h.cond.model.lenR _ _ _ h1 h2⟩
  · rw [List.length_zipWith, h.cond.model.lenF _ _ _ h1 h2, length_readGroup, h.cond.sizeD, Nat.min_self]
  · rw [List.length_zipWith, h.cond.model.lenH _ _ _ h1 h2, length_readGroup, h.cond.sizeY, Nat.min_self]

/-- The scaled model equations other than those of the state derivatives. -/
noncomputable def restRow (S : Setup) (x : List ℝ) (s : Nat) : List ℝ :=
  vdiv (List.zipWith (· - ·) (S.c.M.h (readGroup S.c.o.L x "states" s) (readGroup S.c.o.L x "inputs" s) (meshAt S x s))
      (readGroup S.c.o.L x "con_outputs" s)) ((S.c.o.L.namesOf "con_outputs").map (askedScale S.scales "con_outputs"))
    ++ S.c.M.r (readGroup S.c.o.L x "states" s) (readGroup S.c.o.L x "inputs" s) (meshAt S x s)

/-- The scaled model equations of the state derivatives. -/
noncomputable def dotRow (S : Setup) (x : List ℝ) (s : Nat) : List ℝ :=
  vdiv (List.zipWith (· - ·) (S.c.M.f (readGroup S.c.o.L x "states" s) (readGroup S.c.o.L x "inputs" s) (meshAt S x s))
      (readGroup S.c.o.L x "states_dot" s)) ((S.c.o.L.namesOf "states").map (askedScale S.scales "states"))

theorem length_restRow (h : S.Good D) (x : List ℝ) (s : Nat) : (restRow S x s).length = S.c.M.ny + S.c.M.nr := by
  have hl := row_lengths h x s
  have : (S.c.o.L.namesOf "con_outputs").length = S.c.M.ny := h.cond.sizeY
  unfold restRow
  rw [List.length_append, length_vdiv, hl.2.1, hl.2.2, List.length_map, this, Nat.min_self]

theorem length_dotRow (h : S.Good D) (x : List ℝ) (s : Nat) : (dotRow S x s).length = S.c.M.nx := by
  have hl := row_lengths h x s
  have : (S.c.o.L.namesOf "states").length = S.c.M.nx := h.cond.sizeX
  unfold dotRow
  rw [length_vdiv, hl.1, List.length_map, this, Nat.min_self]

theorem rest_scaled (h : S.Good D) (x : List ℝ) (s : Nat) :
    vdiv (List.zipWith (· - ·) (S.c.M.h (readGroup S.c.o.L x "states" s) (readGroup S.c.o.L x "inputs" s) (meshAt S x s))
            (readGroup S.c.o.L x "con_outputs" s)
          ++ S.c.M.r (readGroup S.c.o.L x "states" s) (readGroup S.c.o.L x "inputs" s) (meshAt S x s))
      ((S.c.o.L.namesOf "con_outputs").map (askedScale S.scales "con_outputs") ++ List.replicate S.c.M.nr 1) = restRow S x s := by
  have hl := row_lengths h x s
  have e : (S.c.o.L.namesOf "con_outputs").length = S.c.M.ny := h.cond.sizeY
  rw [vdiv_append (by rw [hl.2.1, List.length_map, e])]
  unfold restRow
  congr 1
  rw [← hl.2.2, vdiv_ones]

theorem row_scaled (h : S.Good D) (x : List ℝ) (s : Nat) :
    vdiv (List.zipWith (· - ·) (S.c.M.f (readGroup S.c.o.L x "states" s) (readGroup S.c.o.L x "inputs" s) (meshAt S x s))
          (readGroup S.c.o.L x "states_dot" s)
        ++ (List.zipWith (· - ·) (S.c.M.h (readGroup S.c.o.L x "states" s) (readGroup S.c.o.L x "inputs" s) (meshAt S x s))
            (readGroup S.c.o.L x "con_outputs" s)
          ++ S.c.M.r (readGroup S.c.o.L x "states" s) (readGroup S.c.o.L x "inputs" s) (meshAt S x s)))
      (stageRowScales S.c.o.L S.c.M.nr S.scales) = dotRow S x s ++ restRow S x s := by
  have hl := row_lengths h x s
  have e : (S.c.o.L.namesOf "states").length = S.c.M.nx := h.cond.sizeX
  unfold stageRowScales
  rw [vdiv_append (by rw [hl.1, List.length_map, e]), rest_scaled h]
  rfl

/-- The columns of the stages from a row. -/
theorem stage_zip (h : S.Good D) (x : List ℝ) (s : Nat) :
    (((if S.isCondensed = true then [] else S.c.o.L.namesOf "states_dot") ++ (S.c.o.L.namesOf "con_outputs" ++ S.c.M.residuals)).map
        ("stage_con." ++ ·)).zip ((if S.isCondensed = true then [] else dotRow S x s) ++ restRow S x s) = stageColumns S x s := by
  have hl := row_lengths h x s
  have e : (S.c.o.L.namesOf "con_outputs").length = S.c.M.ny := h.cond.sizeY
  have ed : (S.c.o.L.namesOf "states_dot").length = S.c.M.nx := h.cond.sizeD
  have er : (((S.c.o.L.namesOf "con_outputs") ++ S.c.M.residuals).map ("stage_con." ++ ·)).zip (restRow S x s)
      = ((S.c.o.L.namesOf "con_outputs").map ("stage_con." ++ ·)).zip
        (vdiv (List.zipWith (· - ·) (S.c.M.h (readGroup S.c.o.L x "states" s) (readGroup S.c.o.L x "inputs" s) (meshAt S x s))
          (readGroup S.c.o.L x "con_outputs" s)) ((S.c.o.L.namesOf "con_outputs").map (askedScale S.scales "con_outputs")))
        ++ (S.c.M.residuals.map ("stage_con." ++ ·)).zip
          (S.c.M.r (readGroup S.c.o.L x "states" s) (readGroup S.c.o.L x "inputs" s) (meshAt S x s)) := by
    unfold restRow
    rw [List.map_append, zip_append']
    rw [length_vdiv, hl.2.1, List.length_map, List.length_map, e, Nat.min_self]
  unfold stageColumns
  by_cases hc : S.isCondensed = true
  · simp only [if_pos hc, List.nil_append, er]
  · simp only [if_neg hc]
    rw [List.map_append, zip_append' (by rw [length_dotRow h, List.length_map, ed]), er, ← List.append_assoc]
    rfl

/-- What is known of a built problem. -/
theorem built_facts (h : S.Good D) {b : Built} (hb : S.build = .ok b) :
    Reachable S.c.o.L.numDec b.prob (S.dom D) ∧ consSig b.prob = expectedSig S := by
  obtain ⟨b', o, t, h1, _, h2, h3, _⟩ := build_ok h
  rw [hb] at h1
  cases h1
  exact ⟨h2, h3⟩

theorem stage_block (h : S.Good D) {x : List ℝ} (hx : x.length = S.c.o.L.numDec) {s : Nat} (hs : s < S.c.o.L.numStages) :
    ((S.c.o.stageFun S.c.u S.c.mesh x).drop (s * S.c.M.numRes)).take S.c.M.numRes
      = S.c.M.flatImplicit (S.c.o.stageVars x s) (S.c.mesh.getD s 0 * S.c.o.scaleOf x) := by
  have hr : Np.Rect S.c.o.L.numStages S.c.M.numRes ((List.range S.c.o.L.numStages).map fun (s : Nat) =>
      S.c.u.con (S.c.o.stageVars x s) (S.c.mesh.getD s 0 * S.c.o.scaleOf x)) := by
    refine ⟨by simp, ?_⟩
    intro r hr
    obtain ⟨s, hs, rfl⟩ := List.mem_map.mp hr
    rw [← h.cond.numCon]
    exact h.cond.unitSize _ _ (by rw [h.cond.numIn, CondOCP.len_v h.cond hx (List.mem_range.mp hs)])
  have := congrArg (fun l => l[s]?) (Np.reshapeRows_flatten hr)
  simp only [Np.reshapeRows, List.getElem?_map, List.getElem?_range hs, Option.map_some, Option.some.injEq] at this
  rw [← h.cond.con, ← this]
  rfl

theorem rest_block (h : S.Good D) {x : List ℝ} (hx : x.length = S.c.o.L.numDec) {s : Nat} (hs : s < S.c.o.L.numStages) :
    ((((List.range S.c.o.L.numStages).flatMap fun (s : Nat) => S.c.algRest x s)).drop (s * (S.c.M.ny + S.c.M.nr))).take
        (S.c.M.ny + S.c.M.nr) = S.c.algRest x s
    ∧ ((List.range S.c.o.L.numStages).flatMap fun (s : Nat) => S.c.algRest x s).length
        = S.c.o.L.numStages * (S.c.M.ny + S.c.M.nr) := by
  have hr : Np.Rect S.c.o.L.numStages (S.c.M.ny + S.c.M.nr) ((List.range S.c.o.L.numStages).map fun (s : Nat) =>
      S.c.algRest x s) := by
    refine ⟨by simp, ?_⟩
    intro r hr
    obtain ⟨s, hs, rfl⟩ := List.mem_map.mp hr
    unfold CondOCP.algRest
    rw [alg_row h hx (List.mem_range.1 hs)]
    have hl := row_lengths h x s
    rw [List.length_drop, List.length_append, List.length_append, hl.1, hl.2.1, hl.2.2]
    omega
  have := congrArg (fun l => l[s]?) (Np.reshapeRows_flatten hr)
  simp only [Np.reshapeRows, List.getElem?_map, List.getElem?_range hs, Option.map_some, Option.some.injEq] at this
  refine ⟨?_, Np.flatten_rect_length hr⟩
  conv_rhs => rw [← this]
  rfl

/-- A block of a list whose entries are known. -/
theorem block_of {K T : List ℝ} {a w : Nat} (hw : T.length = w) (h : ∀ r, r < w → K[a + r]? = T[r]?) : (K.drop a).take w = T := by
  apply List.ext_getElem?
  intro r
  by_cases hr : r < w
  · rw [List.getElem?_take_of_lt hr, List.getElem?_drop, h r hr]
  · rw [List.getElem?_eq_none (by simp; omega), List.getElem?_eq_none (by omega)]

/-- The split constraints give the columns of the intervals and of the stages. -/
theorem splitCons_ok (h : S.Good D) {b : Built} (hb : S.build = .ok b) {z x : List ℝ} (hz : z.length = S.c.o.L.numDec)
    (hx : x = vmul z b.prob.scales) :
    ∃ interval, splitCons S (b.prob.cons.map fun c => (c.1, c.2.constraints z))
        = .ok (interval, (List.range S.c.o.L.numStages).map fun s => (if S.isCondensed = true then [] else dotRow S x s) ++ restRow S x s,
          ((if S.isCondensed = true then [] else S.c.o.L.namesOf "states_dot") ++ (S.c.o.L.namesOf "con_outputs" ++ S.c.M.residuals)).map
            ("stage_con." ++ ·))
      ∧ interval.length = (S.c.o.L.numStages - 1) * S.c.o.L.size "states"
      ∧ ∀ q, q < S.c.o.L.numStages - 1 → (interval.drop (q * S.c.o.L.size "states")).take (S.c.o.L.size "states")
          = vdiv ((List.range (S.c.o.L.size "states")).map fun k =>
              defectAt S x (q / (S.c.o.L.nspi - 1)) (q % (S.c.o.L.nspi - 1)) k)
            ((S.c.o.L.namesOf "states").map (askedScale S.scales "states")) := by
  obtain ⟨hp, hsig⟩ := built_facts h hb
  obtain ⟨k1, k2, k3, _⟩ := build_conScales h hb
  have hxl : x.length = S.c.o.L.numDec := by rw [hx, length_vmul, hz, hp.inv.scales.1, Nat.min_self]
  have hnr : S.c.M.numRes = S.c.M.nx + S.c.M.ny + S.c.M.nr := rfl
  have hX := h.cond.sizeX
  have hY := h.cond.sizeY
  have eX : (S.c.o.L.namesOf "states").length = S.c.M.nx := h.cond.sizeX
  have eY : (S.c.o.L.namesOf "con_outputs").length = S.c.M.ny := h.cond.sizeY
  have hcl : S.c.numCont = (S.c.o.L.numStages - 1) * S.c.o.L.size "states" := by
    unfold CondOCP.numCont
    rw [numStages_split, hX]
  have hsl : (stageRowScales S.c.o.L S.c.M.nr S.scales).length = S.c.M.numRes := by
    unfold stageRowScales
    simp only [List.length_append, List.length_map, List.length_replicate, eX, eY]
    omega
  by_cases hc : S.isCondensed = true
  · obtain ⟨c, c1, c2, c3⟩ := mem_of_sig (p := b.prob) (name := "model_algebra") (m := S.c.numCon) (f := valueOf S.c.constraints)
      (by rw [hsig]; unfold expectedSig; simp [hc])
    obtain ⟨p1, p2⟩ := part_ok hp hz c1
    obtain ⟨s1, s2⟩ := k3 c c1 hc
    have ev : c.con x = S.c.condFun x := by
      rw [c3]
      simp only [valueOf, CondOCP.constraints_eq h.cond hxl]
    rw [← hx, ev] at p1 p2
    have hcc : (S.c.o.contFun (S.c.condX x)).length = S.c.numCont := by rw [length_contFun, h.cond.numCont]
    have hlen : (vdiv (S.c.condFun x) c.conScales).length = S.c.numCont + S.c.o.L.numStages * (S.c.M.ny + S.c.M.nr) := by
      rw [p2, c2]
      unfold CondOCP.numCon
      rw [hnr]
      congr 2
      omega
    refine ⟨(vdiv (S.c.condFun x) c.conScales).take ((S.c.o.L.numStages - 1) * S.c.o.L.size "states"), ?_, ?_, ?_⟩
    · unfold splitCons
      dsimp only
      rw [if_pos hc, p1]
      simp only [bind, Except.bind]
      rw [reshape2_ok]
      · rw [getNames_ok h (by simp)]
        simp only [pure, Except.pure, if_pos hc, List.nil_append, Except.ok.injEq, Prod.mk.injEq, true_and, and_true]
        apply List.map_congr_left
        intro s hs
        have hs := List.mem_range.1 hs
        have hw : S.c.M.numRes - S.c.o.L.size "states" = S.c.M.ny + S.c.M.nr := by rw [hnr, hX]; omega
        rw [hw, ← hcl, List.drop_drop, drop_take_vdiv]
        have e1 : ((S.c.condFun x).drop (S.c.numCont + s * (S.c.M.ny + S.c.M.nr))).take (S.c.M.ny + S.c.M.nr) = S.c.algRest x s := by
          unfold CondOCP.condFun
          rw [← List.drop_drop, List.drop_left' hcc]
          exact (rest_block h hxl hs).1
        have e2 : (c.conScales.drop (S.c.numCont + s * (S.c.M.ny + S.c.M.nr))).take (S.c.M.ny + S.c.M.nr)
            = (S.c.o.L.namesOf "con_outputs").map (askedScale S.scales "con_outputs") ++ List.replicate S.c.M.nr 1 := by
          apply block_of (by simp [eY])
          intro r hr
          have := s2 s r hs (by rw [hY]; exact hr)
          rw [hY] at this
          have hcr : contRows S.c.o.L = S.c.numCont := by
            unfold contRows CondOCP.numCont
            rw [hX]
          rw [hcr] at this
          rw [this]
          unfold stageRowScales
          rw [List.getElem?_append_right (by simp [eX, hX])]
          congr 1
          simp [eX, hX]
        rw [e1, e2]
        unfold CondOCP.algRest
        rw [alg_row h hxl hs, List.drop_left' (row_lengths h x s).1, rest_scaled h]
      · rw [List.length_drop, hlen, hcl, hX, hnr]
        rw [show S.c.M.nx + S.c.M.ny + S.c.M.nr - S.c.M.nx = S.c.M.ny + S.c.M.nr by omega]
        omega
    · rw [List.length_take, hlen, hcl]; omega
    · intro q hq
      have hq2 : (q + 1) * S.c.o.L.size "states" ≤ (S.c.o.L.numStages - 1) * S.c.o.L.size "states" := Nat.mul_le_mul_right _ hq
      rw [Nat.add_mul, Nat.one_mul] at hq2
      rw [List.drop_take, List.take_take, Nat.min_eq_left (by omega), drop_take_vdiv, scale_block s1 hq]
      congr 1
      rw [← cont_block h hxl (y := S.c.condX x) (by rw [if_pos hc]) hq]
      unfold CondOCP.condFun
      rw [List.drop_append_of_le_length (by rw [hcc, hcl]; omega), List.take_append_of_le_length]
      rw [List.length_drop, hcc, hcl]
      omega
  · have hc' : S.isCondensed = false := by simpa using hc
    obtain ⟨c, c1, c2, c3⟩ := mem_of_sig (p := b.prob) (name := "model_algebra") (m := S.c.o.L.numStages * S.c.u.numCon)
      (f := valueOf (S.c.o.stageConstraints S.c.u S.c.mesh)) (by rw [hsig]; unfold expectedSig; simp [hc'])
    obtain ⟨d, d1, d2, d3⟩ := mem_of_sig (p := b.prob) (name := "continuity") (m := S.c.o.numContinuity)
      (f := valueOf S.c.o.contConstraints) (by rw [hsig]; unfold expectedSig; simp [hc'])
    obtain ⟨p1, p2⟩ := part_ok hp hz c1
    obtain ⟨q1, q2⟩ := part_ok hp hz d1
    have ev : c.con x = S.c.o.stageFun S.c.u S.c.mesh x := by
      rw [c3]
      simp only [valueOf, stageConstraints_eq h.cond.stage hxl]
    have ew : d.con x = S.c.o.contFun x := by
      rw [d3]
      simp only [valueOf, contConstraints_eq h.cond.ocp hxl]
    rw [← hx, ev] at p1 p2
    rw [← hx, ew] at q1 q2
    refine ⟨vdiv (S.c.o.contFun x) d.conScales, ?_, ?_, ?_⟩
    · unfold splitCons
      dsimp only
      rw [if_neg hc, p1, q1]
      simp only [bind, Except.bind]
      rw [reshape2_ok (by rw [p2, c2, h.cond.numCon])]
      rw [getNames_ok h (by simp), getNames_ok h (by simp)]
      simp only [pure, Except.pure, if_neg hc, Except.ok.injEq, Prod.mk.injEq, true_and, and_true]
      apply List.map_congr_left
      intro s hs
      have hs := List.mem_range.1 hs
      rw [drop_take_vdiv, stage_block h hxl hs]
      have e2 : (c.conScales.drop (s * S.c.M.numRes)).take S.c.M.numRes = stageRowScales S.c.o.L S.c.M.nr S.scales := by
        apply block_of hsl
        intro r hr
        have := k2 c c1 hc' s r hs (by rw [hsl]; exact hr)
        rwa [hsl] at this
      rw [e2, alg_row h hxl hs, row_scaled h]
    · rw [q2, d2, ← h.cond.numCont, hcl]
    · intro q hq
      rw [drop_take_vdiv, scale_block (k1 d d1 hc') hq]
      congr 1
      exact cont_block h hxl (by rw [if_neg hc]) hq

theorem getD_map_range {α : Type} (n : Nat) (f : Nat → α) (e : α) {s : Nat} (hs : s < n) : ((List.range n).map f).getD s e = f s := by
  rw [List.getD_eq_getElem?_getD, List.getElem?_map, List.getElem?_range hs]
  rfl

/-- The columns of the cyclic constraints. -/
theorem cyclicFrame_ok (h : S.Good D) {b : Built} (hb : S.build = .ok b) {z x : List ℝ} (hz : z.length = S.c.o.L.numDec)
    (hx : x = vmul z b.prob.scales) :
    ∃ F, cyclicFrame S (b.prob.cons.map fun c => (c.1, c.2.constraints z)) = .ok F
      ∧ ∀ s, s < S.c.o.L.numStages → F.getD s [] = cyclicColumns S x s := by
  obtain ⟨hp, hsig⟩ := built_facts h hb
  obtain ⟨_, _, _, k4⟩ := build_conScales h hb
  have hxl : x.length = S.c.o.L.numDec := by rw [hx, length_vmul, hz, hp.inv.scales.1, Nat.min_self]
  have hN := numStages_pos S.c.o.L
  unfold cyclicFrame cyclicColumns
  by_cases hc : S.isCyclic = true
  · obtain ⟨c, c1, c2, c3⟩ := mem_of_sig (p := b.prob) (name := "cyclic") (m := (cyclicPairs S).length)
      (f := valueOf (cyclicConstraint S.c.o.L ((cyclicPairs S).map fun p => fullName p.1 p.2)))
      (by rw [hsig]; unfold expectedSig; by_cases hd : S.isCondensed = true <;> simp [hc, hd])
    obtain ⟨p1, p2⟩ := part_ok hp hz c1
    obtain ⟨c', _, _, _, y1, y2⟩ := cyclicCons_ok h hc
    have ev : c.con x = (cyclicPairs S).map fun p => readAt S.c.o.L x p.1 p.2 0 - readAt S.c.o.L x p.1 p.2 (S.c.o.L.numStages - 1) := by
      rw [c3, ← y1, y2 x hxl]
      apply List.map_congr_left
      rintro ⟨g, n⟩ hgn
      obtain ⟨hg, hn, _⟩ := mem_cyclicPairs.1 hgn
      have hgm : g ∈ S.c.o.L.groups := by rcases hg with rfl | rfl <;> exact group_mem h (by simp)
      rw [readAt_posAt h hxl hgm hn hN, readAt_posAt h hxl hgm hn (by omega)]
    have e1 : vdiv (c.con x) c.conScales = c.con x := by
      rw [k4 c c1, c2, ev]
      have := vdiv_ones ((cyclicPairs S).map fun p => readAt S.c.o.L x p.1 p.2 0 - readAt S.c.o.L x p.1 p.2 (S.c.o.L.numStages - 1))
      rwa [List.length_map] at this
    rw [← hx, e1, ev] at p1
    dsimp only
    simp only [if_pos hc, getNames_ok h (g := "states") (by simp), getNames_ok h (g := "inputs") (by simp), bind, Except.bind,
      cyclicVars_ok h hc, p1]
    rw [frame_ok]
    · refine ⟨_, rfl, ?_⟩
      intro s hs
      rw [List.getD_eq_getElem?_getD, List.getElem?_map]
      by_cases hl : s = S.c.o.L.numStages - 1
      · rw [List.getElem?_append_right (by simp; omega)]
        simp only [List.length_replicate, hl, Nat.sub_self, List.getElem?_cons_zero, Option.map_some, Option.getD_some, if_true,
          List.map_map, List.zip_map']
        rfl
      · rw [List.getElem?_append_left (by simp; omega), List.getElem?_replicate, if_pos (by omega)]
        simp only [Option.map_some, Option.getD_some, if_neg hl, List.map_map, List.length_map]
        have : List.replicate (cyclicPairs S).length (0:ℝ) = (cyclicPairs S).map fun _ => 0 := by rw [List.map_const']
        rw [this, List.zip_map']
        rfl
    · intro r hr
      rcases List.mem_append.1 hr with hr | hr
      · rw [List.eq_of_mem_replicate hr]
        simp
      · rw [List.mem_singleton] at hr
        rw [hr]
        simp
  · dsimp only
    simp only [if_neg hc]
    refine ⟨_, rfl, ?_⟩
    intro s hs
    rw [List.getD_eq_getElem?_getD, List.getElem?_replicate, if_pos hs]
    rfl

/-- The columns of the decision variables from a row of the stage array. -/
theorem dec_zip (h : S.Good D) {x : List ℝ} (hx : x.length = S.c.o.L.numDec) {s : Nat} (hs : s < S.c.o.L.numStages) :
    S.c.o.L.stageVarNames.zip (S.c.o.stageVars x s) = decColumns S x s
      ∧ (S.c.o.stageVars x s).length = S.c.o.L.stageVarNames.length := by
  have hg := readGroups h hx hs
  have e : S.c.o.stageVars x s = S.c.o.L.groups.flatMap fun g => readGroup S.c.o.L x g s := by
    rw [h.cond.groups]
    simp only [List.flatMap_cons, List.flatMap_nil, List.append_nil]
    rw [hg.1, hg.2.1, hg.2.2.1, hg.2.2.2]
    exact CondOCP.parts_of (c := S.c) (S.c.o.stageVars x s)
  rw [e]
  unfold stageVarNames decColumns
  generalize S.c.o.L.groups = gs
  induction gs with
  | nil => simp
  | cons g gs ih =>
    simp only [List.flatMap_cons]
    have hl : ((S.c.o.L.namesOf g).map (fullName g)).length = (readGroup S.c.o.L x g s).length := by
      simp [readGroup]
    constructor
    · rw [zip_append' hl, ih.1]
      congr 1
      unfold readGroup
      rw [List.zip_map']
      rfl
    · rw [List.length_append, List.length_append, ih.2, hl]

/-- **C72 (what an iteration is logged as).** At any scaled decision variables the table of an iteration is made, with one row for each
stage: the decision variables in physical units, the outputs of the model there, the equations of the transcription that end at the
stage, the equations of the model at the stage and the differences between the ends, the constraints in units of their scales. The mesh
in the row is that of the *scaled* decision variables. -/
theorem C72_table (h : S.Good D) {b : Built} (hb : S.build = .ok b) (O : Outputs) {z : List ℝ} (hz : z.length = S.c.o.L.numDec)
    (hO : ∀ x u t, x.length = S.c.M.nx → u.length = S.c.M.nu → (O.out x u t).length = O.names.length) (iter : Option Nat) :
    createTable S b.prob O z iter = .ok ((List.range S.c.o.L.numStages).map fun s =>
      ⟨iter, S.c.mesh.getD s 0 * readScale S.c.o z,
        decColumns S (vmul z b.prob.scales) s ++ (outColumns S O (vmul z b.prob.scales) s
          ++ (intervalColumns S (vmul z b.prob.scales) s ++ (stageColumns S (vmul z b.prob.scales) s
            ++ cyclicColumns S (vmul z b.prob.scales) s)))⟩) := by
  obtain ⟨hp, hsig⟩ := built_facts h hb
  generalize hxe : vmul z b.prob.scales = x
  have hxl : x.length = S.c.o.L.numDec := by rw [← hxe, length_vmul, hz, hp.inv.scales.1, Nat.min_self]
  have hne : b.prob.cons ≠ [] := by
    intro e
    apply expectedSig_ne S
    rw [← hsig]
    simp [consSig, e]
  obtain ⟨v, v1, _, _, v4⟩ := C12_constraints_and_split hp hne z hz
  obtain ⟨iv, i1, i2, i3⟩ := splitCons_ok h hb hz hxe.symm
  obtain ⟨F, f1, f2⟩ := cyclicFrame_ok h hb hz hxe.symm
  have hN := numStages_pos S.c.o.L
  have hX : (S.c.o.L.namesOf "states").length = S.c.o.L.size "states" := rfl
  have hY : (S.c.o.L.namesOf "con_outputs").length = S.c.M.ny := h.cond.sizeY
  have hD : (S.c.o.L.namesOf "states_dot").length = S.c.M.nx := h.cond.sizeD
  have hms := meshScale_eq h.cond.ocp hxl
  have hmz := meshScale_eq h.cond.ocp hz
  rw [← readScale_eq h hxl] at hms
  rw [← readScale_eq h hz] at hmz
  -- the frames
  have fs : frame (((if S.isCondensed = true then [] else S.c.o.L.namesOf "states_dot") ++ (S.c.o.L.namesOf "con_outputs" ++ S.c.M.residuals)).map
      ("stage_con." ++ ·)) ((List.range S.c.o.L.numStages).map fun s => (if S.isCondensed = true then [] else dotRow S x s) ++ restRow S x s)
      = .ok ((List.range S.c.o.L.numStages).map fun s => stageColumns S x s) := by
    rw [frame_ok]
    · rw [List.map_map]
      congr 1
      apply List.map_congr_left
      intro s _
      exact stage_zip h x s
    · intro r hr
      obtain ⟨s, _, rfl⟩ := List.mem_map.1 hr
      have er : S.c.M.residuals.length = S.c.M.nr := rfl
      by_cases hc : S.isCondensed = true
      · simp only [if_pos hc, List.nil_append, List.length_map, List.length_append, length_restRow h, hY, er]
      · simp only [if_neg hc, List.length_map, List.length_append, length_restRow h, length_dotRow h, hY, hD, er]
  have ir : reshape2 (S.c.o.L.numStages - 1) (S.c.o.L.size "states") iv = .ok ((List.range (S.c.o.L.numStages - 1)).map fun q =>
      vdiv ((List.range (S.c.o.L.size "states")).map fun k => defectAt S x (q / (S.c.o.L.nspi - 1)) (q % (S.c.o.L.nspi - 1)) k)
        ((S.c.o.L.namesOf "states").map (askedScale S.scales "states"))) := by
    rw [reshape2_ok i2]
    congr 1
    apply List.map_congr_left
    intro q hq
    exact i3 q (List.mem_range.1 hq)
  obtain ⟨IF, g1, g2⟩ : ∃ IF, frame ((S.c.o.L.namesOf "states").map ("interval_con." ++ ·)) (List.replicate (S.c.o.L.size "states") 0 ::
        (List.range (S.c.o.L.numStages - 1)).map fun q =>
          vdiv ((List.range (S.c.o.L.size "states")).map fun k => defectAt S x (q / (S.c.o.L.nspi - 1)) (q % (S.c.o.L.nspi - 1)) k)
            ((S.c.o.L.namesOf "states").map (askedScale S.scales "states"))) = .ok IF
      ∧ ∀ s, s < S.c.o.L.numStages → IF.getD s [] = intervalColumns S x s := by
    rw [frame_ok]
    · refine ⟨_, rfl, ?_⟩
      intro s hs
      cases s with
      | zero =>
        simp only [List.map_cons, List.getD_cons_zero, intervalColumns, if_true]
        apply List.ext_getElem
        · simp [Layout.size]
        · intro k h1 h2
          simp
      | succ q =>
        simp only [List.map_cons, List.getD_cons_succ, List.map_map]
        rw [getD_map_range _ _ _ (by omega)]
        simp only [Function.comp_apply]
        rw [interval_zip]
        unfold intervalColumns
        simp
    · intro r hr
      rcases List.mem_cons.1 hr with rfl | hr
      · simp [Layout.size]
      · obtain ⟨q, _, rfl⟩ := List.mem_map.1 hr
        simp [Layout.size]
  have da : S.c.o.L.stageVarArray x = .ok ((List.range S.c.o.L.numStages).map fun s => S.c.o.stageVars x s) := by
    unfold stageVarArray
    dsimp only
    rw [if_pos (by rw [List.length_take, hxl]; unfold numDec numAllStageVar; omega)]
    congr 1
    unfold Np.reshapeRows
    apply List.map_congr_left
    intro s hs
    have hs := List.mem_range.1 hs
    have h2 : (s + 1) * S.c.o.L.numVarStage ≤ S.c.o.L.numStages * S.c.o.L.numVarStage := Nat.mul_le_mul_right _ hs
    rw [Nat.add_mul, Nat.one_mul] at h2
    unfold stageVars
    rw [List.drop_take, List.take_take, Nat.min_eq_left]
    unfold numDec numAllStageVar
    omega
  have df : frame S.c.o.L.stageVarNames ((List.range S.c.o.L.numStages).map fun s => S.c.o.stageVars x s)
      = .ok ((List.range S.c.o.L.numStages).map fun s => decColumns S x s) := by
    rw [frame_ok]
    · rw [List.map_map]
      congr 1
      apply List.map_congr_left
      intro s hs
      exact (dec_zip h hxl (List.mem_range.1 hs)).1
    · intro r hr
      obtain ⟨s, hs, rfl⟩ := List.mem_map.1 hr
      exact (dec_zip h hxl (List.mem_range.1 hs)).2
  have ov : batchedOutputs O S.c.o.L.numStages ((List.range S.c.o.L.numStages).map fun s => S.c.M.xOf (S.c.o.stageVars x s))
      ((List.range S.c.o.L.numStages).map fun s => S.c.M.uOf (S.c.o.stageVars x s)) (S.c.mesh.map (· * readScale S.c.o x))
      = (List.range S.c.o.L.numStages).map fun s =>
        O.out (readGroup S.c.o.L x "states" s) (readGroup S.c.o.L x "inputs" s) (meshAt S x s) := by
    unfold batchedOutputs
    apply List.map_congr_left
    intro s hs
    have hs := List.mem_range.1 hs
    rw [getD_map_range _ _ _ hs, getD_map_range _ _ _ hs, mesh_as_range h.cond.stage.points, getD_map_range _ _ _ hs,
      ← (readGroups h hxl hs).1, ← (readGroups h hxl hs).2.1]
    rfl
  have of : frame (O.names.map ("outputs." ++ ·)) ((List.range S.c.o.L.numStages).map fun s =>
        O.out (readGroup S.c.o.L x "states" s) (readGroup S.c.o.L x "inputs" s) (meshAt S x s))
      = .ok ((List.range S.c.o.L.numStages).map fun s => outColumns S O x s) := by
    rw [frame_ok]
    · rw [List.map_map]
      rfl
    · intro r hr
      obtain ⟨s, hs, rfl⟩ := List.mem_map.1 hr
      rw [hO _ _ _ (by rw [length_readGroup, h.cond.sizeX]) (by rw [length_readGroup, h.cond.sizeU]), List.length_map]
  unfold createTable
  dsimp only
  rw [hxe, CondOCP.unflattenVar_eq h.cond hxl]
  have e1 : ∀ (a c d : List (List ℝ)) (i : List (List ℝ)) (gl : List (String × ℝ)),
      CondOCP.field ⟨[("states", a), ("inputs", i), ("states_dot", c), ("con_outputs", d)], gl⟩ "states" = .ok a := by
    intro a c d i gl; rfl
  have e2 : ∀ (a c d : List (List ℝ)) (i : List (List ℝ)) (gl : List (String × ℝ)),
      CondOCP.field ⟨[("states", a), ("inputs", i), ("states_dot", c), ("con_outputs", d)], gl⟩ "inputs" = .ok i := by
    intro a c d i gl; rfl
  simp only [bind, Except.bind, e1, e2, hms, v1, v4, i1, fs, getNames_ok h (g := "states") (by simp), ir, g1, da, df, ov, of, f1, hmz]
  simp only [pure, Except.pure, Except.ok.injEq]
  apply List.map_congr_left
  intro s hs
  have hs := List.mem_range.1 hs
  rw [getD_map_range _ _ _ hs, getD_map_range _ _ _ hs, getD_map_range _ _ _ hs, g2 s hs, f2 s hs]

end Lumos.Log
