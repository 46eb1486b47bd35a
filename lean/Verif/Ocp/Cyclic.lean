import Verif.Bounds.Props
import Verif.Base.Coord
import Verif.NLP.Model
/-!
# Cyclic constraints (scaled_mesh_ocp.py:39-44, 172-189, 1015-1042, 1306-1315) and property C22
-/

namespace Lumos.Ocp

open Lumos DecVar DecVar.Layout Bounds

/-! ## Model -/

/-- `str.split(".")` on the characters of a string: the pieces between the dots. -/
def splitDots : List Char → List (List Char)
  | [] => [[]]
  | c :: cs =>
    if c = '.' then [] :: splitDots cs
    else match splitDots cs with
      | [] => [[c]]
      | p :: ps => (c :: p) :: ps

/-- `group, name = _split_full_name(s)` (scaled_mesh_ocp.py:43-44, 1022): unpacking raises ValueError unless
there are exactly two pieces. -/
def splitFullName (s : String) : Py (String × String) :=
  match splitDots s.toList with
  | [g, n] => .ok (String.ofList g, String.ofList n)
  | _ => .error .valueError

/-- The removal loop of `_build_cyclic_vars` (scaled_mesh_ocp.py:182-189); `list.remove` removes the first
occurrence. -/
def removeAll (vars : List String) : List String → Py (List String)
  | [] => .ok vars
  | v :: vs => if v ∈ vars then removeAll (vars.erase v) vs else .error .valueError

/-- `_build_cyclic_vars` (scaled_mesh_ocp.py:172-189). `states`, `inputs` are the model's names. -/
def buildCyclicVars (states inputs nonCyclic : List String) : Py (List String) :=
  removeAll (states.map (fullName "states") ++ inputs.map (fullName "inputs")) nonCyclic

/-- `_get_cyclic_indices` (scaled_mesh_ocp.py:1015-1026): `np.hstack([])` raises ValueError. -/
def cyclicIndices (L : Layout) (vars : List String) : Py (List Nat × List Nat) := do
  let ps ← vars.mapM fun (v : String) => do
    let (g, n) ← splitFullName v
    let i ← L.indexInDec g n (some 0)
    let j ← L.indexInDec g n (some (-1))
    return (i, j)
  if ps = [] then .error .valueError
  else return (ps.flatMap fun p => positions p.1, ps.flatMap fun p => positions p.2)

/-- `_cyclic_constraint` (scaled_mesh_ocp.py:1028-1030). -/
noncomputable def cyclicConstraint (L : Layout) (vars : List String) (x : List ℝ) : Py (List ℝ) := do
  let (i0, i1) ← cyclicIndices L vars
  let a ← NLP.gather x i0
  let b ← NLP.gather x i1
  return List.zipWith (· - ·) a b

/-- `_cyclic_jacobian` (scaled_mesh_ocp.py:1032-1034). -/
noncomputable def cyclicJacobian (L : Layout) (vars : List String) (_x : List ℝ) : Py (List ℝ) := do
  let (i0, i1) ← cyclicIndices L vars
  return i0.map (fun _ => (1 : ℝ)) ++ i1.map (fun _ => (-1 : ℝ))

/-- `_cyclic_jacobianstructure` (scaled_mesh_ocp.py:1036-1042). -/
def cyclicStructure (L : Layout) (vars : List String) : Py (List Nat × List Nat) := do
  let (i0, i1) ← cyclicIndices L vars
  return (List.range i0.length ++ List.range i0.length, i0 ++ i1)

/-! ## Properties -/

/-- A Python name without a dot. -/
def Dotless (s : String) : Prop := '.' ∉ s.toList

instance (s : String) : Decidable (Dotless s) := by unfold Dotless; infer_instance

theorem splitDots_dotless (a : List Char) (h : '.' ∉ a) : splitDots a = [a] := by
  induction a with
  | nil => rfl
  | cons c cs ih =>
    simp only [List.mem_cons, not_or] at h
    simp only [splitDots]
    rw [if_neg (fun e => h.1 e.symm), ih h.2]

theorem splitDots_two (a b : List Char) (ha : '.' ∉ a) (hb : '.' ∉ b) :
    splitDots (a ++ '.' :: b) = [a, b] := by
  induction a with
  | nil => simp [splitDots, splitDots_dotless b hb]
  | cons c cs ih =>
    simp only [List.mem_cons, not_or] at ha
    simp only [List.cons_append, splitDots]
    rw [if_neg (fun e => ha.1 e.symm), ih ha.2]

theorem splitFullName_fullName {g n : String} (hg : Dotless g) (hn : Dotless n) :
    splitFullName (fullName g n) = .ok (g, n) := by
  unfold splitFullName fullName
  have e : (g ++ "." ++ n).toList = g.toList ++ '.' :: n.toList := by
    simp [String.toList_append]
  rw [e, splitDots_two _ _ hg hn]
  simp

/-- **C22 (which variables).** The cyclic variables are all states and inputs except the listed ones, in model
order. The list is accepted exactly if it has no repetition and names only states and inputs; otherwise
ValueError. -/
theorem C22_cyclic_vars (states inputs nonCyclic : List String)
    (hnd : (states.map (fullName "states") ++ inputs.map (fullName "inputs")).Nodup) :
    buildCyclicVars states inputs nonCyclic =
      if nonCyclic.Nodup ∧ ∀ v ∈ nonCyclic, (∃ n ∈ states, v = "states." ++ n) ∨ (∃ n ∈ inputs, v = "inputs." ++ n)
      then .ok ((states.map ("states." ++ ·) ++ inputs.map ("inputs." ++ ·)).filter (· ∉ nonCyclic))
      else .error .valueError := by
  have es : fullName "states" = ("states." ++ ·) := by
    funext n; simp only [fullName]; congr 1
  have ei : fullName "inputs" = ("inputs." ++ ·) := by
    funext n; simp only [fullName]; congr 1
  unfold buildCyclicVars
  rw [es, ei] at hnd ⊢
  set all := states.map ("states." ++ ·) ++ inputs.map ("inputs." ++ ·) with hall
  have hmem : ∀ v, ((∃ n ∈ states, v = "states." ++ n) ∨ (∃ n ∈ inputs, v = "inputs." ++ n)) ↔ v ∈ all := by
    intro v
    simp only [hall, List.mem_append, List.mem_map, eq_comm]
  simp only [hmem]
  clear_value all
  clear hmem hall es ei
  induction nonCyclic generalizing all with
  | nil => simp [removeAll]
  | cons v vs ih =>
    simp only [removeAll]
    split
    · rename_i hv
      rw [ih (all.erase v) (hnd.erase v)]
      have hiff : (vs.Nodup ∧ ∀ w ∈ vs, w ∈ all.erase v) ↔ ((v :: vs).Nodup ∧ ∀ w ∈ v :: vs, w ∈ all) := by
        constructor
        · rintro ⟨h1, h2⟩
          refine ⟨List.nodup_cons.mpr ⟨fun h => ?_, h1⟩, ?_⟩
          · have := h2 v h
            rw [hnd.mem_erase_iff] at this
            exact this.1 rfl
          · intro w hw
            rcases List.mem_cons.mp hw with rfl | hw
            · exact hv
            · exact List.mem_of_mem_erase (h2 w hw)
        · rintro ⟨h1, h2⟩
          rw [List.nodup_cons] at h1
          refine ⟨h1.2, fun w hw => ?_⟩
          rw [hnd.mem_erase_iff]
          exact ⟨fun e => h1.1 (e ▸ hw), h2 w (by simp [hw])⟩
      by_cases hc : (v :: vs).Nodup ∧ ∀ w ∈ v :: vs, w ∈ all
      · rw [if_pos hc, if_pos (hiff.mpr hc)]
        congr 1
        rw [hnd.erase_eq_filter, List.filter_filter]
        apply List.filter_congr
        intro a _
        by_cases h1 : a = v <;> by_cases h2 : a ∈ vs <;> simp [h1, h2]
      · rw [if_neg hc, if_neg (fun h => hc (hiff.mp h))]
    · rename_i hv
      rw [if_neg]
      rintro ⟨_, h⟩
      exact hv (h v (by simp))

theorem gather_ok' (x : List ℝ) (idx : List Nat) (h : ∀ i ∈ idx, i < x.length) :
    NLP.gather x idx = .ok (idx.map fun i => x.getD i 0) := by
  unfold NLP.gather
  refine mapM_ok _ _ idx (fun i hi => ?_)
  have := h i hi
  simp [this]

/-- The position of a variable (given by group and name) at stage `s`. -/
def posAt (L : Layout) (s : Nat) (p : String × String) : Nat :=
  L.stageVarNames.idxOf (fullName p.1 p.2) + s * L.numVarStage

theorem cyclicIndices_ok {L : Layout} (hL : L.Made) (ps : List (String × String)) (hne : ps ≠ [])
    (hv : ∀ p ∈ ps, L.IsVar (.stage 0 p.1 p.2) ∧ Dotless p.1 ∧ Dotless p.2) :
    cyclicIndices L (ps.map fun p => fullName p.1 p.2) =
      .ok (ps.map (posAt L 0), ps.map (posAt L (L.numStages - 1))) := by
  have h0 : 0 < L.numStages := by unfold numStages; omega
  have hm : (ps.map fun p => fullName p.1 p.2).mapM (fun (v : String) => (do
      let (g, n) ← splitFullName v
      let i ← L.indexInDec g n (some 0)
      let j ← L.indexInDec g n (some (-1))
      return (i, j) : Py (Idx × Idx))) = .ok (ps.map fun p =>
        (Idx.scalar (posAt L 0 p), Idx.scalar (posAt L (L.numStages - 1) p))) := by
    rw [List.mapM_map]
    refine mapM_ok _ _ ps (fun p hp => ?_)
    obtain ⟨hvar, hd1, hd2⟩ := hv p hp
    obtain ⟨k, i, hk, hi, hq⟩ := query_stage hL hvar
    have hg : p.1 ≠ "global" := fun e => hL.reserved (e ▸ hvar.2.1)
    obtain ⟨hmem, _, _⟩ := query_stage_pos hL hvar hq
    have e0 : L.badStage 0 = false := by
      have := badStage_nat L 0
      have hne : L.numStages ≠ 0 := by omega
      simpa [hne] using this
    have e1 : L.badStage (-1) = false := by
      unfold badStage
      simp only [Bool.or_eq_false_iff, decide_eq_false_iff_not]; omega
    have w0 : L.wrapStage 0 = 0 := (wrapStage_eq_iff e0 h0).mpr (Or.inl rfl)
    have w1 : L.wrapStage (-1) = L.numStages - 1 :=
      (wrapStage_eq_iff e1 (by omega)).mpr (Or.inr (by omega))
    simp [splitFullName_fullName hd1 hd2, indexInDec, hg, e0, e1, stageEnum, hmem, bind, Except.bind, pure,
      Except.pure, w0, w1, posAt]
  unfold cyclicIndices
  rw [hm]
  have hne' : (ps.map fun p => (Idx.scalar (posAt L 0 p), Idx.scalar (posAt L (L.numStages - 1) p))) ≠ [] := by
    simpa using hne
  simp only [bind, Except.bind]
  rw [if_neg hne']
  simp only [pure, Except.pure, List.flatMap_map, positions]
  simp
  constructor <;> (rw [← List.flatMap_pure_eq_map]; rfl)

theorem posAt_query {L : Layout} (hL : L.Made) {s : Nat} {p : String × String}
    (hv : L.IsVar (.stage s p.1 p.2)) : L.query (.stage s p.1 p.2) = .ok (.scalar (posAt L s p)) ∧
      posAt L s p < L.numDec := by
  obtain ⟨i, hq, hlt⟩ := C01_index_in_range hL hv
  obtain ⟨_, _, rfl⟩ := query_stage_pos hL hv hq
  exact ⟨hq, hlt⟩

/-- **C22 (constraint).** There is one constraint per cyclic variable, in order: its value at the first stage
minus its value at the last stage. -/
theorem C22_constraint_value {L : Layout} (hL : L.Made) (ps : List (String × String)) (hne : ps ≠ [])
    (hv : ∀ p ∈ ps, L.IsVar (.stage 0 p.1 p.2) ∧ Dotless p.1 ∧ Dotless p.2) (x : List ℝ)
    (hx : x.length = L.numDec) :
    ∃ c, cyclicConstraint L (ps.map fun p => fullName p.1 p.2) x = .ok c ∧ c.length = ps.length ∧
      ∀ (k : Nat) (g n : String), ps[k]? = some (g, n) →
        ∃ a b, L.getVar x g n (some 0) = .ok (.scalar a) ∧ L.getVar x g n (some (-1)) = .ok (.scalar b) ∧
          c[k]? = some (a - b) := by
  have hst : L.numStages - 1 < L.numStages := by unfold numStages; omega
  have hlast : ∀ p ∈ ps, L.IsVar (.stage (L.numStages - 1) p.1 p.2) := fun p hp =>
    ⟨hst, (hv p hp).1.2⟩
  have r0 : ∀ i ∈ ps.map (posAt L 0), i < x.length := by
    intro i hi
    obtain ⟨p, hp, rfl⟩ := List.mem_map.mp hi
    rw [hx]; exact (posAt_query hL (hv p hp).1).2
  have r1 : ∀ i ∈ ps.map (posAt L (L.numStages - 1)), i < x.length := by
    intro i hi
    obtain ⟨p, hp, rfl⟩ := List.mem_map.mp hi
    rw [hx]; exact (posAt_query hL (hlast p hp)).2
  refine ⟨List.zipWith (· - ·) ((ps.map (posAt L 0)).map fun i => x.getD i 0)
    ((ps.map (posAt L (L.numStages - 1))).map fun i => x.getD i 0), ?_, by simp, ?_⟩
  · unfold cyclicConstraint
    rw [cyclicIndices_ok hL ps hne hv]
    simp only [bind, Except.bind, gather_ok' x _ r0, gather_ok' x _ r1, pure, Except.pure]
  · intro k g n hk
    have hp := List.mem_of_getElem? hk
    have h0 := (posAt_query hL (hv _ hp).1).1
    have h1 := (posAt_query hL (hlast _ hp)).1
    have l0 := r0 _ (List.mem_map.mpr ⟨_, hp, rfl⟩)
    have l1 := r1 _ (List.mem_map.mpr ⟨_, hp, rfl⟩)
    have q0 : L.indexInDec g n (some 0) = .ok (.scalar (posAt L 0 (g, n))) := h0
    have q1 : L.indexInDec g n (some (-1)) = .ok (.scalar (posAt L (L.numStages - 1) (g, n))) := by
      have hs0 : 1 ≤ L.numStages := by unfold numStages; omega
      have hw := C02_negative_stage L g n (-1) (by omega) (by omega)
      have ec : (-1 : Int) + (L.numStages : Int) = ((L.numStages - 1 : Nat) : Int) := by omega
      rw [hw, ec]
      exact h1
    refine ⟨x.getD (posAt L 0 (g, n)) 0, x.getD (posAt L (L.numStages - 1) (g, n)) 0, ?_, ?_, ?_⟩
    · unfold getVar
      rw [q0]
      simp [bind, Except.bind, getIdx, getAt, l0, pure, Except.pure]
    · unfold getVar
      rw [q1]
      simp [bind, Except.bind, getIdx, getAt, l1, pure, Except.pure]
    · simp [hk]

/-- **C22 (feasibility).** The cyclic constraint vanishes exactly if every cyclic variable has the same value at
the first and the last stage. -/
theorem C22_zero_iff_periodic {L : Layout} (hL : L.Made) (ps : List (String × String)) (hne : ps ≠ [])
    (hv : ∀ p ∈ ps, L.IsVar (.stage 0 p.1 p.2) ∧ Dotless p.1 ∧ Dotless p.2) (x : List ℝ)
    (hx : x.length = L.numDec) :
    cyclicConstraint L (ps.map fun p => fullName p.1 p.2) x = .ok (List.replicate ps.length 0) ↔
      ∀ p ∈ ps, L.getVar x p.1 p.2 (some 0) = L.getVar x p.1 p.2 (some (-1)) := by
  obtain ⟨c, hc, hlen, hent⟩ := C22_constraint_value hL ps hne hv x hx
  rw [hc]
  constructor
  · intro h p hp
    simp only [Except.ok.injEq] at h
    obtain ⟨k, hk⟩ := List.mem_iff_getElem?.mp hp
    obtain ⟨a, b, ha, hb, hab⟩ := hent k p.1 p.2 hk
    have hk' : k < ps.length := (List.getElem?_eq_some_iff.mp hk).1
    rw [h, List.getElem?_replicate, if_pos hk'] at hab
    have : a = b := by
      simp only [Option.some.injEq] at hab
      linarith
    rw [ha, hb, this]
  · intro h
    congr 1
    apply List.ext_getElem?
    intro k
    by_cases hk : k < ps.length
    · have hk' : ps[k]? = some ps[k] := List.getElem?_eq_getElem hk
      obtain ⟨a, b, ha, hb, hab⟩ := hent k ps[k].1 ps[k].2 hk'
      have := h ps[k] (List.getElem_mem hk)
      rw [ha, hb] at this
      simp only [Except.ok.injEq, Val.scalar.injEq] at this
      rw [hab, List.getElem?_replicate, if_pos hk, this, sub_self]
    · rw [List.getElem?_eq_none (by omega), List.getElem?_eq_none (by simp; omega)]

/-- **C22 (Jacobian).** Values and structure have equal length and assemble to the derivative of the cyclic
constraint. -/
theorem C22_jacobian {L : Layout} (hL : L.Made) (ps : List (String × String)) (hne : ps ≠ [])
    (hv : ∀ p ∈ ps, L.IsVar (.stage 0 p.1 p.2) ∧ Dotless p.1 ∧ Dotless p.2) (f : List ℝ → List ℝ)
    (hf : ∀ y : List ℝ, y.length = L.numDec →
      cyclicConstraint L (ps.map fun p => fullName p.1 p.2) y = .ok (f y))
    (x : List ℝ) (hx : x.length = L.numDec) :
    ∃ rows cols vals, cyclicStructure L (ps.map fun p => fullName p.1 p.2) = .ok (rows, cols) ∧
      cyclicJacobian L (ps.map fun p => fullName p.1 p.2) x = .ok vals ∧
      rows.length = vals.length ∧ cols.length = vals.length ∧
      (∀ r ∈ rows, r < ps.length) ∧ (∀ c ∈ cols, c < L.numDec) ∧
      IsJacobianAt L.numDec ps.length f x (assemble rows cols vals) := by
  have hst : L.numStages - 1 < L.numStages := by unfold numStages; omega
  have hlast : ∀ p ∈ ps, L.IsVar (.stage (L.numStages - 1) p.1 p.2) := fun p hp =>
    ⟨hst, (hv p hp).1.2⟩
  have r0 : ∀ i ∈ ps.map (posAt L 0), i < L.numDec := by
    intro i hi
    obtain ⟨p, hp, rfl⟩ := List.mem_map.mp hi
    exact (posAt_query hL (hv p hp).1).2
  have r1 : ∀ i ∈ ps.map (posAt L (L.numStages - 1)), i < L.numDec := by
    intro i hi
    obtain ⟨p, hp, rfl⟩ := List.mem_map.mp hi
    exact (posAt_query hL (hlast p hp)).2
  refine ⟨List.range ps.length ++ List.range ps.length,
    ps.map (posAt L 0) ++ ps.map (posAt L (L.numStages - 1)),
    (ps.map (posAt L 0)).map (fun _ => (1 : ℝ)) ++ (ps.map (posAt L (L.numStages - 1))).map (fun _ => (-1 : ℝ)),
    ?_, ?_, by simp, by simp, ?_, ?_, ?_⟩
  · unfold cyclicStructure
    rw [cyclicIndices_ok hL ps hne hv]
    simp [bind, Except.bind, pure, Except.pure]
  · unfold cyclicJacobian
    rw [cyclicIndices_ok hL ps hne hv]
    simp [bind, Except.bind, pure, Except.pure]
  · intro r hr
    simpa using hr
  · intro c hc
    rcases List.mem_append.mp hc with h | h
    · exact r0 c h
    · exact r1 c h
  · intro r hr j hj
    have hp : ps[r]? = some ps[r] := List.getElem?_eq_getElem hr
    set i0 := posAt L 0 ps[r]
    set i1 := posAt L (L.numStages - 1) ps[r]
    have hfy : ∀ t, (f (x.set j t)).getD r 0 = (x.set j t).getD i0 0 - (x.set j t).getD i1 0 := by
      intro t
      have hy : (x.set j t).length = L.numDec := by simp [hx]
      have h1 := hf _ hy
      unfold cyclicConstraint at h1
      rw [cyclicIndices_ok hL ps hne hv] at h1
      simp only [bind, Except.bind] at h1
      rw [gather_ok' _ _ (by rw [hy]; exact r0)] at h1
      simp only at h1
      rw [gather_ok' _ _ (by rw [hy]; exact r1)] at h1
      simp only [pure, Except.pure, Except.ok.injEq] at h1
      rw [← h1]
      simp [hr, i0, i1]
    have hJ : assemble (List.range ps.length ++ List.range ps.length)
        (ps.map (posAt L 0) ++ ps.map (posAt L (L.numStages - 1)))
        ((ps.map (posAt L 0)).map (fun _ => (1 : ℝ)) ++
          (ps.map (posAt L (L.numStages - 1))).map (fun _ => (-1 : ℝ))) r j
        = (if i0 = j then 1 else 0) - (if i1 = j then 1 else 0) := by
      rw [assemble_append _ _ _ _ _ _ (by simp) (by simp)]
      have key : ∀ (pos : String × String → Nat) (v : ℝ),
          assemble (List.range ps.length) (ps.map pos) ((ps.map pos).map fun _ => v) r j
            = if pos ps[r] = j then v else 0 := by
        intro pos v
        have e1 : ps.map pos = (List.range ps.length).map fun k => pos (ps.getD k ("", "")) := by
          apply List.ext_getElem?
          intro k
          by_cases hk : k < ps.length
          · simp [hk]
          · simp [Nat.le_of_not_lt hk]
        rw [e1, List.map_map]
        have e2 : List.range ps.length = (List.range ps.length).map id := by simp
        conv_lhs => arg 1; rw [e2]
        rw [assemble_map]
        simp only [id, Function.comp_def]
        have : ((List.range ps.length).map fun k => if k = r ∧ pos (ps.getD k ("", "")) = j then v else 0)
            = (List.range ps.length).map fun k => if k = r then (if pos ps[r] = j then v else 0) else 0 := by
          apply List.map_congr_left
          intro k _
          by_cases h : k = r
          · subst h; simp [hr]
          · simp [h]
        rw [this]
        rw [← List.sum_toFinset _ List.nodup_range]
        simp [hr]
      rw [key, key]
      split <;> split <;> simp [*]
    rw [hJ]
    have h0 := hasDerivAt_coord x (by rw [hx]; exact hj : j < x.length) i0 (x.getD j 0)
    have h1 := hasDerivAt_coord x (by rw [hx]; exact hj : j < x.length) i1 (x.getD j 0)
    exact (h0.sub h1).congr_of_eventuallyEq (Filter.Eventually.of_forall hfy)

/-- **C22 (finding).** If every state and input is listed as non-cyclic, the cyclic constraint cannot be built:
the index query raises ValueError. -/
theorem C22_nothing_cyclic (L : Layout) : cyclicIndices L [] = .error .valueError := rfl

/-- **C22 (finding).** A state whose name contains a dot makes the index query raise ValueError. -/
theorem C22_dotted_name (L : Layout) (vs : List String) :
    cyclicIndices L ("states.wheel.speed" :: vs) = .error .valueError := by
  have : splitFullName "states.wheel.speed" = .error .valueError := by decide +kernel
  simp [cyclicIndices, this, bind, Except.bind]

example : (∀ p ∈ [("states", "x"), ("inputs", "u")], exLayout.IsVar (.stage 0 p.1 p.2) ∧ Dotless p.1 ∧ Dotless p.2) := by
  intro p hp
  simp only [List.mem_cons, List.not_mem_nil, or_false] at hp
  rcases hp with rfl | rfl
  · exact ⟨⟨by decide +kernel, by decide +kernel, _, rfl, by decide +kernel⟩, by decide +kernel, by decide +kernel⟩
  · exact ⟨⟨by decide +kernel, by decide +kernel, _, rfl, by decide +kernel⟩, by decide +kernel, by decide +kernel⟩

example : buildCyclicVars ["x", "v"] ["u"] ["states.x"] = .ok ["states.v", "inputs.u"] := by decide +kernel

end Lumos.Ocp
