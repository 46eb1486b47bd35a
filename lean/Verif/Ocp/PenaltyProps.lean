import Verif.Ocp.PenaltyModel
import Verif.Ocp.ContProps
import Verif.Ocp.Scales
import Mathlib.Analysis.Calculus.Deriv.Pow
import Mathlib.Algebra.BigOperators.Field
/-!
# The inputs penalty: closed form and derivatives (helpers of C67)
-/

namespace Lumos.Ocp

open Lumos DecVar DecVar.Layout Conv Finset NLP

/-- A matrix given by its entries. -/
def table (r c : Nat) (f : Nat → Nat → ℝ) : List (List ℝ) :=
  (List.range r).map fun (s : Nat) => (List.range c).map fun (k : Nat) => f s k

theorem rect_table {r c : Nat} {m : List (List ℝ)} (h : Np.Rect r c m) : m = table r c fun s k => (m.getD s []).getD k 0 := by
  unfold table
  apply List.ext_getElem (by simp [h.1])
  intro i h1 h2
  rw [List.getElem_map, List.getElem_range]
  apply List.ext_getElem (by simp [h.2 _ (List.getElem_mem h1)])
  intro k h3 h4
  simp [h1, h3]

theorem rect_of_table (r c : Nat) (f : Nat → Nat → ℝ) : Np.Rect r c (table r c f) := by
  refine ⟨by simp [table], fun row hr => ?_⟩
  obtain ⟨s, _, rfl⟩ := List.mem_map.mp hr
  simp

theorem map2_table (r c : Nat) (f : Nat → Nat → ℝ) (g : ℝ → ℝ) : map2 g (table r c f) = table r c fun s k => g (f s k) := by
  simp [map2, table, Function.comp_def]

theorem mul2_table (r c : Nat) (f g : Nat → Nat → ℝ) :
    mul2 (table r c f) (table r c g) = table r c fun s k => f s k * g s k := by
  unfold mul2 table
  rw [List.zipWith_map, List.zipWith_self]
  apply List.map_congr_left
  intro s _
  rw [List.zipWith_map, List.zipWith_self]

theorem sum_table (r c : Nat) (f : Nat → Nat → ℝ) : (table r c f).flatten.sum = ∑ s ∈ range r, ∑ k ∈ range c, f s k := by
  unfold table
  rw [List.sum_flatten, List.map_map, OCP.sum_range_list]
  apply sum_congr rfl
  intro s _
  exact OCP.sum_range_list _ _

theorem replicate_table (r : Nat) (v : List ℝ) : List.replicate r v = table r v.length fun _ k => v.getD k 0 := by
  rw [rect_table (r := r) (c := v.length) (m := List.replicate r v) ⟨by simp, fun row hr => by rw [(List.mem_replicate.mp hr).2]⟩]
  unfold table
  apply List.map_congr_left
  intro s hs
  have := List.mem_range.mp hs
  simp [this]

/-! ## The weights -/

/-- The weight of an input. -/
def weightOf (weights : List (String × ℝ)) (n : String) : ℝ := (weights.reverse.lookup n).getD 0

theorem indexInGroup_inputs {L : Layout} (hL : L.Made) (hi : "inputs" ∈ L.groups) {n : String} (hn : n ∈ L.namesOf "inputs") :
    L.indexInGroup "inputs" n = .ok ((L.namesOf "inputs").idxOf n) := by
  have := (C05_index_in_group L "inputs" n).2.2.1 (by decide) _ (OCP.lookup_of_group hL hi)
  exact (this.1 _).mpr ⟨hn, rfl⟩

theorem names_nodup {L : Layout} (hL : L.Made) {g : String} (hg : g ∈ L.groups) : (L.namesOf g).Nodup := by
  have := hL.nodup
  unfold stageVarNames at this
  have := (List.nodup_flatMap.mp this).1 g hg
  exact List.Nodup.of_map _ this

theorem weights_step {L : Layout} (hL : L.Made) (hi : "inputs" ∈ L.groups) (ws : List (String × ℝ))
    (hw : ∀ w ∈ ws, w.1 ∈ L.namesOf "inputs") (vec : List ℝ) (hv : vec.length = L.size "inputs") :
    ∃ r, ws.foldlM (weightStep L) vec = .ok r ∧ r.length = L.size "inputs" ∧
      ∀ k n, (L.namesOf "inputs")[k]? = some n → r.getD k 0 = (ws.reverse.lookup n).getD (vec.getD k 0) := by
  induction ws generalizing vec with
  | nil => exact ⟨vec, rfl, hv, fun _ _ _ => rfl⟩
  | cons w ws ih =>
    obtain ⟨r, e1, e2, e3⟩ := ih (fun w' h => hw w' (.tail _ h)) (vec.set ((L.namesOf "inputs").idxOf w.1) w.2) (by simp [hv])
    refine ⟨r, ?_, e2, fun k n hk => ?_⟩
    · simp only [List.foldlM_cons, weightStep, indexInGroup_inputs hL hi (hw w (.head _)), bind, Except.bind, pure, Except.pure]
      exact e1
    · rw [e3 k n hk]
      have hk' : k < (L.namesOf "inputs").length := (List.getElem?_eq_some_iff.mp hk).1
      have ek : (L.namesOf "inputs").idxOf n = k := by
        rw [← (List.getElem?_eq_some_iff.mp hk).2]
        exact (names_nodup hL hi).idxOf_getElem k hk'
      have hwl : (L.namesOf "inputs").idxOf w.1 < vec.length := by
        rw [hv]; exact List.idxOf_lt_length_of_mem (hw w (.head _))
      rw [List.reverse_cons, List.lookup_append]
      cases h : ws.reverse.lookup n with
      | some a => simp
      | none =>
        simp only [Option.getD_none, Option.none_or]
        by_cases hn : n = w.1
        · subst hn
          rw [ek] at hwl ⊢
          simp [List.lookup, hwl]
        · have : (L.namesOf "inputs").idxOf w.1 ≠ k := by
            intro e
            apply hn
            have h1 := List.getElem_idxOf (List.idxOf_lt_length_of_mem (hw w (.head _)))
            rw [← h1, ← (List.getElem?_eq_some_iff.mp hk).2]
            simp only [e]
          rw [List.getD_eq_getElem?_getD, List.getElem?_set_ne this, ← List.getD_eq_getElem?_getD]
          have : ([w] : List (String × ℝ)).lookup n = none := by
            obtain ⟨a, b⟩ := w
            simp only [List.lookup]
            have : (n == a) = false := by simpa using hn
            rw [this]
          rw [this]
          rfl

theorem expandWeights_ok {L : Layout} (hL : L.Made) (hi : "inputs" ∈ L.groups) {ws : List (String × ℝ)}
    (hw : ∀ w ∈ ws, w.1 ∈ L.namesOf "inputs") :
    expandWeights L ws = .ok (table L.numStages (L.size "inputs") fun _ k => weightOf ws ((L.namesOf "inputs").getD k "")) := by
  obtain ⟨r, e1, e2, e3⟩ := weights_step hL hi ws hw (List.replicate (L.size "inputs") 0) (by simp)
  unfold expandWeights
  simp only [e1, bind, Except.bind, pure, Except.pure]
  rw [replicate_table, e2]
  congr 1
  unfold table
  apply List.map_congr_left
  intro s _
  apply List.map_congr_left
  intro k hk
  have hk' : k < (L.namesOf "inputs").length := List.mem_range.mp hk
  dsimp only
  rw [e3 k ((L.namesOf "inputs").getD k "") (by simp [hk'])]
  have hk2 : k < L.size "inputs" := hk'
  simp [weightOf, hk2]

/-! ## The closed form -/

/-- Position of the `k`-th input at stage `s`. -/
def inPos (L : Layout) (s k : Nat) : Nat := L.offset (L.groups.idxOf "inputs") + k + s * L.numVarStage

/-- The weight of the `k`-th input. -/
def inWeight (L : Layout) (ws : List (String × ℝ)) (k : Nat) : ℝ := weightOf ws ((L.namesOf "inputs").getD k "")

/-- The penalty as one formula. -/
noncomputable def penaltyFun (L : Layout) (ws : List (String × ℝ)) (x : List ℝ) : ℝ :=
  (∑ s ∈ range L.numStages, ∑ k ∈ range (L.size "inputs"), x.getD (inPos L s k) 0 ^ 2 * inWeight L ws k) / L.numStages

theorem getKey_of_shaped {L : Layout} (hF : L.Fields) {v : Vars ℝ} (hv : L.Shaped v) {g : String} (hg : g ∈ L.groups) :
    ∃ m, v.stage.lookup g = some m ∧ v.stage[L.groups.idxOf g]? = some (g, m) ∧ Np.Rect L.numStages (L.size g) m := by
  have hnd := (List.nodup_append.mp hF.nodup).1
  have hlt : L.groups.idxOf g < L.groups.length := List.idxOf_lt_length_of_mem hg
  have hl : v.stage.length = L.groups.length := by rw [← hv.stageKeys]; simp
  obtain ⟨⟨g', m⟩, hm⟩ : ∃ p, v.stage[L.groups.idxOf g]? = some p := ⟨_, List.getElem?_eq_getElem (by omega)⟩
  have e : g' = g := by
    have h1 : (v.stage.map Prod.fst)[L.groups.idxOf g]? = some g' := by rw [List.getElem?_map, hm]; rfl
    rw [hv.stageKeys, List.getElem?_eq_getElem hlt] at h1
    simpa using h1.symm
  subst e
  refine ⟨m, ?_, hm, hv.rect _ (List.mem_of_getElem? hm)⟩
  obtain ⟨i, hi⟩ : ∃ i, v.stage[i]? = some (g', m) := ⟨_, hm⟩
  have hk : (v.stage.map Prod.fst).Nodup := by rw [hv.stageKeys]; exact hnd
  clear hm hlt hl hv
  revert hk hi
  generalize v.stage = d
  intro hi hk
  induction d generalizing i with
  | nil => simp at hi
  | cons p ps ih =>
    obtain ⟨a, b⟩ := p
    cases i with
    | zero => simp at hi; obtain ⟨rfl, rfl⟩ := hi; simp [List.lookup]
    | succ i =>
      simp only [List.getElem?_cons_succ] at hi
      simp only [List.map_cons, List.nodup_cons] at hk
      have ne : (g' == a) = false := by
        simp only [beq_eq_false_iff_ne]
        rintro rfl
        exact hk.1 (List.mem_map.mpr ⟨_, List.mem_of_getElem? hi, rfl⟩)
      simp only [List.lookup, ne]
      exact ih i hi hk.2

theorem inputs_table {L : Layout} (hF : L.Fields) (hi : "inputs" ∈ L.groups) {x : List ℝ} {v : Vars ℝ} (hv : L.Shaped v)
    (hx : L.flattenVar v = .ok x) :
    inputsOf v = .ok (table L.numStages (L.size "inputs") fun s k => x.getD (inPos L s k) 0) := by
  obtain ⟨m, m1, m2, m3⟩ := getKey_of_shaped hF hv hi
  unfold inputsOf
  rw [m1]
  dsimp only
  congr 1
  rw [rect_table m3]
  unfold table
  apply List.map_congr_left
  intro s hs
  apply List.map_congr_left
  intro k hk
  have hs := List.mem_range.mp hs
  have hk := List.mem_range.mp hk
  have := flatten_entry hF hv hx m2 s k hs hk
  have hs' : s < m.length := by rw [m3.1]; exact hs
  have hk' : k < m[s].length := by rw [m3.2 _ (List.getElem_mem hs')]; exact hk
  rw [List.getElem?_eq_getElem hs', Option.bind_some, List.getElem?_eq_getElem hk'] at this
  have e : ∀ t : List (List ℝ), t = m → ((t.getD s []).getD k 0) = m[s][k] := by rintro _ rfl; simp [hs', hk']
  unfold inPos
  dsimp only
  rw [e m rfl, List.getD_eq_getElem?_getD, this, Option.getD_some]

section
variable {L : Layout} (hL : L.Made) (hF : L.Fields) (hi : "inputs" ∈ L.groups) {ws : List (String × ℝ)}
  (hw : ∀ w ∈ ws, w.1 ∈ L.namesOf "inputs")
include hL hF hi hw

theorem penalty_eq {x : List ℝ} (hx : x.length = L.numDec) : inputsPenalty L ws x = .ok (penaltyFun L ws x) := by
  obtain ⟨v, v1, v2, v3⟩ := C03_flatten_unflatten hF x hx
  unfold inputsPenalty
  simp only [expandWeights_ok hL hi hw, v1, inputs_table hF hi v2 v3, bind, Except.bind, pure, Except.pure]
  rw [map2_table, mul2_table, sum_table]
  rfl

omit hF hw in
theorem query_inPos {s k : Nat} (hs : s < L.numStages) (hk : k < L.size "inputs") :
    L.IsVar (.stage s "inputs" ((L.namesOf "inputs").getD k "")) ∧
    L.query (.stage s "inputs" ((L.namesOf "inputs").getD k "")) = .ok (.scalar (inPos L s k)) := by
  have hk' : k < (L.namesOf "inputs").length := hk
  refine ⟨⟨hs, hi, _, OCP.lookup_of_group hL hi, by simp [hk']⟩, ?_⟩
  exact OCP.index_posG (o := ⟨L, fun _ _ => 0, fun _ _ => 0, [], none⟩) hL hi hk hs

omit hF hw in
theorem inPos_lt {s k : Nat} (hs : s < L.numStages) (hk : k < L.size "inputs") : inPos L s k < L.numDec := by
  obtain ⟨a, b⟩ := query_inPos hL hi hs hk
  obtain ⟨i, h1, h2⟩ := C01_index_in_range hL a
  rw [b] at h1
  cases h1
  exact h2

omit hF hw in
theorem inPos_inj {s k s' k' : Nat} (hs : s < L.numStages) (hk : k < L.size "inputs") (hs' : s' < L.numStages)
    (hk' : k' < L.size "inputs") (e : inPos L s k = inPos L s' k') : s = s' ∧ k = k' := by
  obtain ⟨a, b⟩ := query_inPos hL hi hs hk
  obtain ⟨a', b'⟩ := query_inPos hL hi hs' hk'
  have := C01_index_injective hL a a' (by rw [b, b', e])
  simp only [Var.stage.injEq, true_and] at this
  refine ⟨this.1, ?_⟩
  have l : k < (L.namesOf "inputs").length := hk
  have l' : k' < (L.namesOf "inputs").length := hk'
  have h2 := this.2
  simp only [List.getD_eq_getElem?_getD, List.getElem?_eq_getElem l, List.getElem?_eq_getElem l', Option.getD_some] at h2
  exact (names_nodup hL hi).getElem_inj_iff.mp h2

theorem penaltyGrad_eq {x : List ℝ} (hx : x.length = L.numDec) :
    ∃ g, inputsPenaltyGrad L ws x = .ok g ∧ g.length = L.numDec ∧ ∀ j, j < L.numDec → g.getD j 0 =
      (∑ s ∈ range L.numStages, ∑ k ∈ range (L.size "inputs"),
        if inPos L s k = j then 2 * (x.getD (inPos L s k) 0 * inWeight L ws k) else 0) / L.numStages := by
  obtain ⟨v, v1, v2, v3⟩ := C03_flatten_unflatten hF x hx
  unfold inputsPenaltyGrad
  simp only [expandWeights_ok hL hi hw, v1, inputs_table hF hi v2 v3, bind, Except.bind]
  rw [mul2_table, map2_table, map2_table]
  obtain ⟨G, hG⟩ : ∃ G, G = table L.numStages (L.size "inputs") fun s k =>
    2 * (x.getD (inPos L s k) 0 * weightOf ws ((L.namesOf "inputs").getD k "")) / (L.numStages : ℝ) := ⟨_, rfl⟩
  rw [← hG]
  obtain ⟨v', hv'⟩ : ∃ v' : Vars ℝ, v' = ⟨setKey (v.stage.map fun p => (p.1, map2 (· * 0) p.2)) "inputs" G,
    v.glob.map fun p => (p.1, p.2 * 0)⟩ := ⟨_, rfl⟩
  have es : v'.stage = v.stage.map fun p => (p.1, if p.1 = "inputs" then G else map2 (· * 0) p.2) := by
    rw [hv']
    simp only [setKey, List.map_map]
    apply List.map_congr_left
    intro p _
    simp only [Function.comp]
    split_ifs <;> rfl
  have hs : L.Shaped v' := by
    refine ⟨?_, ?_, ?_⟩
    · rw [es, List.map_map, ← v2.stageKeys]; rfl
    · rw [hv', ← v2.globKeys]; simp [Function.comp_def]
    · intro p hp
      rw [es] at hp
      obtain ⟨q, hq, rfl⟩ := List.mem_map.mp hp
      dsimp only
      split_ifs with h
      · rw [hG, h]; exact rect_of_table _ _ _
      · have := v2.rect q hq
        rw [rect_table this, map2_table]
        exact rect_of_table _ _ _
  obtain ⟨g, g1, g2, _⟩ := C03_unflatten_flatten hF v' hs
  rw [← hv']
  refine ⟨g, g1, g2, fun j hj => ?_⟩
  have zero : (∀ s k, s < L.numStages → k < L.size "inputs" → inPos L s k ≠ j) → (∑ s ∈ range L.numStages, ∑ k ∈ range (L.size "inputs"),
        if inPos L s k = j then 2 * (x.getD (inPos L s k) 0 * inWeight L ws k) else 0) / (L.numStages : ℝ) = 0 := by
    intro hne
    rw [sum_eq_zero, zero_div]
    intro s hs
    apply sum_eq_zero
    intro k hk
    rw [if_neg (hne s k (mem_range.mp hs) (mem_range.mp hk))]
  obtain ⟨w, w1, w2⟩ := C01_index_surjective hL j hj
  cases w with
  | glob n =>
    rw [zero]
    · obtain ⟨a, ha⟩ : ∃ a, v.glob.lookup n = some a := by
        have hn : n ∈ v.glob.map Prod.fst := by rw [v2.globKeys]; exact w1
        obtain ⟨⟨n', a⟩, hp, e⟩ := List.mem_map.mp hn
        cases h : v.glob.lookup n with
        | some a => exact ⟨a, rfl⟩
        | none =>
          rw [List.lookup_eq_none_iff] at h
          have := h _ hp
          simp at e
          simp [e] at this
      have hl : v'.glob.lookup n = some (a * 0) := by
        rw [hv']
        dsimp only
        clear hv' es hs v1 v2 v3 g1
        revert ha
        generalize v.glob = d
        intro ha
        induction d with
        | nil => simp at ha
        | cons p ps ih =>
          obtain ⟨b, c⟩ := p
          simp only [List.map_cons, List.lookup] at ha ⊢
          split at ha
          · simp_all
          · exact ih ha
      have := C04_get_var_global hF hs g1 hl none
      have w2' : L.indexInDec "global" n none = .ok (.scalar j) := w2
      unfold getVar at this
      rw [w2'] at this
      simp only [bind, Except.bind, getIdx, getAt, pure, Except.pure] at this
      cases hj' : g[j]? with
      | none => rw [hj'] at this; simp at this
      | some b =>
        rw [hj'] at this
        simp only [Except.ok.injEq, Val.scalar.injEq] at this
        rw [List.getD_eq_getElem?_getD, hj', Option.getD_some, this, mul_zero]
    · intro s k hs hk e
      obtain ⟨a, b⟩ := query_inPos hL hi hs hk
      have := C01_index_injective hL a w1 (by rw [b, w2, e])
      cases this
  | stage s g' n =>
    obtain ⟨hs', hg', ns, hns, hn⟩ := w1
    have w1 : L.IsVar (.stage s g' n) := ⟨hs', hg', ns, hns, hn⟩
    obtain ⟨k, hk⟩ := List.mem_iff_getElem?.mp hn
    have ens := namesOf_of_lookup hns
    have hkl : k < L.size g' := by
      unfold size
      rw [ens]
      exact (List.getElem?_eq_some_iff.mp hk).1
    have e0 : (L.namesOf g').getD k "" = n := by rw [ens, List.getD_eq_getElem?_getD, hk]; rfl
    have pos := OCP.index_posG (o := ⟨L, fun _ _ => 0, fun _ _ => 0, [], none⟩) hL hg' hkl hs'
    have w2' : L.indexInDec g' n (some (s : Int)) = .ok (.scalar j) := w2
    dsimp only at pos
    rw [e0, w2'] at pos
    simp only [Except.ok.injEq, Idx.scalar.injEq] at pos
    obtain ⟨m, m1, m2, m3⟩ := getKey_of_shaped hF hs hg'
    have ent := flatten_entry hF hs g1 m2 s k hs' hkl
    have pos' : j = L.offset (L.groups.idxOf g') + k + s * L.numVarStage := pos
    rw [← pos'] at ent
    obtain ⟨m0, n1, n2, n3⟩ := getKey_of_shaped hF v2 hg'
    have em : m = if g' = "inputs" then G else map2 (· * 0) m0 := by
      rw [es, List.getElem?_map, n2] at m2
      simp only [Option.map_some, Option.some.injEq, Prod.mk.injEq, true_and] at m2
      exact m2.symm
    by_cases hg : g' = "inputs"
    · subst hg
      rw [if_pos rfl] at em
      have ej : j = inPos L s k := pos'
      rw [sum_eq_single_of_mem s (mem_range.mpr hs'), sum_eq_single_of_mem k (mem_range.mpr hkl), if_pos ej.symm]
      · rw [em, hG] at ent
        have hs'' := hs'
        have hkl' : k < L.size "inputs" := hkl
        rw [List.getD_eq_getElem?_getD, ent]
        simp [table, hs', hkl', inWeight]
      · intro k' hk' hne
        rw [if_neg]
        intro e
        exact hne (inPos_inj hL hi hs' (mem_range.mp hk') hs' hkl (by rw [e, ej])).2
      · intro s' hs'' hne
        apply sum_eq_zero
        intro k' hk'
        rw [if_neg]
        intro e
        exact hne (inPos_inj hL hi (mem_range.mp hs'') (mem_range.mp hk') hs' hkl (by rw [e, ej])).1
    · rw [zero]
      · rw [if_neg hg, rect_table n3, map2_table] at em
        rw [em] at ent
        rw [List.getD_eq_getElem?_getD, ent]
        simp [table, hs', hkl]
      · intro s' k' hs'' hk' e
        obtain ⟨a, b⟩ := query_inPos hL hi hs'' hk'
        have := C01_index_injective hL a w1 (by rw [b, w2, e])
        simp only [Var.stage.injEq] at this
        exact hg this.2.1.symm

omit hL hF hi hw in
theorem penalty_gradient {x : List ℝ} (hx : x.length = L.numDec) :
    IsGradientAt L.numDec (penaltyFun L ws) x fun j => (∑ s ∈ range L.numStages, ∑ k ∈ range (L.size "inputs"),
        if inPos L s k = j then 2 * (x.getD (inPos L s k) 0 * inWeight L ws k) else 0) / L.numStages := by
  intro j hj
  have hj' : j < x.length := by omega
  unfold penaltyFun
  refine HasDerivAt.div_const ?_ _
  refine HasDerivAt.fun_sum fun s _ => HasDerivAt.fun_sum fun k _ => ?_
  have h := hasDerivAt_coord x hj' (inPos L s k) (x.getD j 0)
  refine ((h.fun_pow 2).mul_const (inWeight L ws k)).congr_deriv ?_
  rw [set_getD_self]
  split_ifs <;> simp <;> ring

omit hL hF hi hw in
theorem penalty_hessian {x : List ℝ} (hx : x.length = L.numDec) (P : Nat → Nat → Prop) :
    IsHessianAt L.numDec (penaltyFun L ws) x P fun i j => (∑ s ∈ range L.numStages, ∑ k ∈ range (L.size "inputs"),
        if inPos L s k = i ∧ inPos L s k = j then 2 * inWeight L ws k else 0) / L.numStages := by
  refine IsHessianAt.of_global hx ⟨_, fun y hy => penalty_gradient hy, fun i j hi' hj' _ => ?_⟩
  have hj : j < x.length := by omega
  refine HasDerivAt.div_const ?_ _
  refine HasDerivAt.fun_sum fun s _ => HasDerivAt.fun_sum fun k _ => ?_
  by_cases h1 : inPos L s k = i
  · simp only [h1, if_true, true_and]
    have h := hasDerivAt_coord x hj i (x.getD j 0)
    refine ((h.mul_const (inWeight L ws k)).const_mul 2).congr_deriv ?_
    split_ifs <;> simp
  · simp only [h1, if_false, false_and]
    exact hasDerivAt_const _ _

omit hF in
theorem penalty_structure :
    ∃ st vals, inputsPenaltyStructure L = .ok st ∧ (∀ x, inputsPenaltyHessian L ws x = .ok vals) ∧ StructIn st L.numDec L.numDec ∧
      vals.length = st.1.length ∧ ∀ i j, assemble st.1 st.2 vals i j = (∑ s ∈ range L.numStages, ∑ k ∈ range (L.size "inputs"),
        if inPos L s k = i ∧ inPos L s k = j then 2 * inWeight L ws k else 0) / L.numStages := by
  obtain ⟨is, i1, i2, _, i4⟩ := C05_group_at_stage hL hi (OCP.lookup_of_group hL hi) 0 (numStages_pos L)
  have eb : is = (List.range (L.size "inputs")).map fun (k : Nat) => inPos L 0 k := by
    apply List.ext_getElem (by simp [i2, size])
    intro k h1 h2
    have hk : k < L.size "inputs" := by simpa using h2
    have hk' : k < (L.namesOf "inputs").length := hk
    obtain ⟨p, p1, p2⟩ := i4 k ((L.namesOf "inputs").getD k "") (by simp [hk'])
    rw [(query_inPos hL hi (numStages_pos L) hk).2] at p2
    simp only [Except.ok.injEq, Idx.scalar.injEq] at p2
    rw [List.getElem?_eq_getElem h1] at p1
    simp only [Option.some.injEq] at p1
    simp [p1, p2]
  have i1' : L.groupIndicesAtStage "inputs" 0 = .ok is := i1
  obtain ⟨F, hF⟩ : ∃ F : List Nat, F = (List.range L.numStages).flatMap fun (s : Nat) =>
    (List.range (L.size "inputs")).map fun (k : Nat) => inPos L s k := ⟨_, rfl⟩
  have eF : (List.range L.numStages).flatMap (fun (k : Nat) => is.map (· + k * L.numVarStage)) = F := by
    rw [hF, eb]
    simp only [List.map_map]
    congr 1
    funext s
    apply List.map_congr_left
    intro k _
    simp [inPos]
  have e1 : inputsPenaltyStructure L = .ok (F, F) := by
    unfold inputsPenaltyStructure
    simp only [i1', bind, Except.bind, createOffsetStructure]
    rw [if_neg (by have := numStages_pos L; omega), eF]
  have e2 : ∀ x, inputsPenaltyHessian L ws x = .ok ((List.range L.numStages).flatMap fun (_ : Nat) =>
      (List.range (L.size "inputs")).map fun (k : Nat) => 2 * inWeight L ws k / (L.numStages : ℝ)) := by
    intro x
    unfold inputsPenaltyHessian
    simp only [expandWeights_ok hL hi hw, bind, Except.bind, pure, Except.pure]
    rw [map2_table, map2_table]
    rfl
  refine ⟨_, _, e1, e2, ?_, ?_, ?_⟩
  · have : ∀ p ∈ F, p < L.numDec := by
      intro p hp
      rw [hF] at hp
      obtain ⟨s, hs, hp⟩ := List.mem_flatMap.mp hp
      obtain ⟨k, hk, rfl⟩ := List.mem_map.mp hp
      exact inPos_lt hL hi (List.mem_range.mp hs) (List.mem_range.mp hk)
    exact ⟨rfl, this, this⟩
  · rw [hF]; simp [List.length_flatMap]
  · intro i j
    dsimp only
    rw [hF, assemble_flatMap _ _ _ _ (fun _ _ => rfl) (fun _ _ => by simp), OCP.sum_range_list, sum_div]
    apply sum_congr rfl
    intro s _
    rw [assemble_map, OCP.sum_range_list, sum_div]
    apply sum_congr rfl
    intro k _
    split_ifs <;> simp

end

end Lumos.Ocp
