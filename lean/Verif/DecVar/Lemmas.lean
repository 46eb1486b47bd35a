import Verif.DecVar.Model
import Mathlib.Data.List.Nodup
/-! Helper lemmas for the `DecVarOperator` properties. -/

namespace Lumos.DecVar.Layout

open Lumos

theorem make_ok {names : List (String × List String)} {groups globals : List String} {ni ns : Nat}
    {L : Layout} (h : make names groups globals ni ns = .ok L) :
    L = ⟨names, groups, globals, ni, ns⟩ ∧ (∀ g ∈ groups, ∃ l, names.lookup g = some l) ∧
      L.stageVarNames.Nodup ∧ globals.Nodup := by
  unfold make at h
  dsimp only at h
  split at h
  · rename_i h1
    split at h
    · rename_i h2
      split at h
      · rename_i h3
        cases h
        refine ⟨rfl, ?_, h2, h3⟩
        intro g hg
        have := List.all_eq_true.mp h1 g hg
        exact Option.isSome_iff_exists.mp this
      · cases h
    · cases h
  · cases h

theorem getElem?_flatMap_append {α β : Type} (f : α → List β) (pre : List α) (g : α) (post : List α)
    (i : Nat) (hi : i < (f g).length) :
    ((pre ++ g :: post).flatMap f)[(pre.map (fun a => (f a).length)).sum + i]? = (f g)[i]? := by
  induction pre with
  | nil => simp [List.getElem?_append_left hi]
  | cons a as ih =>
    simp only [List.cons_append, List.flatMap_cons, List.map_cons, List.sum_cons]
    rw [List.getElem?_append_right (by omega)]
    have : (f a).length + (as.map fun a => (f a).length).sum + i - (f a).length
        = (as.map fun a => (f a).length).sum + i := by omega
    rw [this, ih]

theorem length_stageVarNames (L : Layout) : L.stageVarNames.length = L.numVarStage := by
  simp [stageVarNames, numVarStage, sizes, List.length_flatMap]
  rfl

/-- Offset of the `k`-th stage group within one stage. -/
def offset (L : Layout) (k : Nat) : Nat := (L.sizes.take k).sum

theorem stageVarNames_get (L : Layout) (k : Nat) (g : String) (hk : L.groups[k]? = some g)
    (i : Nat) (n : String) (hi : (L.namesOf g)[i]? = some n) :
    L.stageVarNames[L.offset k + i]? = some (fullName g n) := by
  obtain ⟨hk1, hk2⟩ := List.getElem?_eq_some_iff.mp hk
  obtain ⟨hi1, hi2⟩ := List.getElem?_eq_some_iff.mp hi
  have e : L.groups = L.groups.take k ++ g :: L.groups.drop (k + 1) := by
    rw [← hk2, List.getElem_cons_drop, List.take_append_drop]
  have := getElem?_flatMap_append (fun g => (L.namesOf g).map (fullName g)) (L.groups.take k) g
    (L.groups.drop (k + 1)) i (by simpa using hi1)
  rw [← e] at this
  have e2 : ((L.groups.take k).map fun a => ((L.namesOf a).map (fullName a)).length).sum = L.offset k := by
    simp [offset, sizes, List.map_take]
    rfl
  rw [e2] at this
  rw [stageVarNames, this]
  simp [hi]

theorem idxOf_fullName (L : Layout) (hnd : L.stageVarNames.Nodup) (k : Nat) (g : String)
    (hk : L.groups[k]? = some g) (i : Nat) (n : String) (hi : (L.namesOf g)[i]? = some n) :
    L.stageVarNames.idxOf (fullName g n) = L.offset k + i := by
  have h := stageVarNames_get L k g hk i n hi
  obtain ⟨h1, h2⟩ := List.getElem?_eq_some_iff.mp h
  rw [← h2]
  exact hnd.idxOf_getElem _ h1

theorem fullName_mem (L : Layout) {g n : String} (hg : g ∈ L.groups) (hn : n ∈ L.namesOf g) :
    fullName g n ∈ L.stageVarNames := by
  simp only [stageVarNames, List.mem_flatMap, List.mem_map]
  exact ⟨g, hg, n, hn, rfl⟩

theorem offset_add_lt (L : Layout) {k : Nat} {g : String} (hk : L.groups[k]? = some g) {i : Nat}
    (hi : i < L.size g) : L.offset k + i < L.numVarStage := by
  have hi' : i < (L.namesOf g).length := hi
  have h := stageVarNames_get L k g hk i (L.namesOf g)[i] (by simp [hi'])
  obtain ⟨h1, _⟩ := List.getElem?_eq_some_iff.mp h
  rwa [length_stageVarNames] at h1

theorem stageEnum_ok (L : Layout) (hnd : L.stageVarNames.Nodup) (k : Nat) (g : String)
    (hk : L.groups[k]? = some g) (i : Nat) (n : String) (hi : (L.namesOf g)[i]? = some n) :
    L.stageEnum (fullName g n) = .ok (L.offset k + i) := by
  have hm : fullName g n ∈ L.stageVarNames :=
    fullName_mem L (List.mem_of_getElem? hk) (List.mem_of_getElem? hi)
  simp [stageEnum, hm, idxOf_fullName L hnd k g hk i n hi]

theorem badStage_nat (L : Layout) (s : Nat) : L.badStage (s : Int) = decide (L.numStages ≤ s) := by
  unfold badStage
  by_cases h : L.numStages ≤ s
  · simp [h]; left; omega
  · simp [h]; omega

theorem wrapStage_nat (L : Layout) (s : Nat) (h : s < L.numStages) : L.wrapStage (s : Int) = s := by
  unfold wrapStage
  rw [Int.emod_eq_of_lt (by omega) (by omega)]
  simp

theorem wrapStage_lt (L : Layout) (s : Int) : L.wrapStage s < L.numStages := by
  have hpos : (0 : Int) < (L.numStages : Int) := by unfold numStages; omega
  have h1 := Int.emod_nonneg s (by omega : (L.numStages : Int) ≠ 0)
  have h2 := Int.emod_lt_of_pos s hpos
  unfold wrapStage
  omega

theorem indexInDec_stage (L : Layout) (hnd : L.stageVarNames.Nodup) (k : Nat) (g : String)
    (hgl : g ≠ "global")
    (hk : L.groups[k]? = some g) (i : Nat) (n : String) (hi : (L.namesOf g)[i]? = some n)
    (s : Nat) (hs : s < L.numStages) :
    L.indexInDec g n (some (s : Int)) = .ok (.scalar (L.offset k + i + s * L.numVarStage)) := by
  have hb : L.badStage (s : Int) = false := by rw [badStage_nat]; simp; omega
  rw [indexInDec, if_neg hgl]
  simp only [hb, stageEnum_ok L hnd k g hk i n hi, wrapStage_nat L s hs]
  rfl

/-- rows of a horizontal concatenation -/
theorem foldl_zipWith_append {α : Type} (n : Nat) (m : List (List α)) (rest : List (List (List α)))
    (hm : m.length = n) (h : ∀ r ∈ rest, r.length = n) :
    rest.foldl (List.zipWith (· ++ ·)) m
      = (List.range n).map fun s => (m :: rest).flatMap fun a => a.getD s [] := by
  induction rest generalizing m with
  | nil =>
    simp only [List.foldl_nil]
    apply List.ext_getElem?
    intro i
    by_cases hi : i < n
    · have hi' : i < m.length := by omega
      simp [hi, hi']
    · have hi' : m.length ≤ i := by omega
      simp [hi']; omega
  | cons r rs ih =>
    simp only [List.foldl_cons]
    have hr : r.length = n := h r (by simp)
    rw [ih (List.zipWith (· ++ ·) m r) (by simp [hm, hr]) (fun r' h' => h r' (by simp [h']))]
    apply List.map_congr_left
    intro s hs
    simp only [List.mem_range] at hs
    have h1 : s < m.length := by omega
    have h2 : s < r.length := by omega
    simp [h1, h2, List.flatMap_cons]

theorem hcat_ok {α : Type} (n : Nat) (ms : List (List (List α))) (hne : ms ≠ [])
    (h : ∀ m ∈ ms, m.length = n) :
    hcat ms = .ok ((List.range n).map fun s => ms.flatMap fun a => a.getD s []) := by
  cases ms with
  | nil => exact absurd rfl hne
  | cons m rest =>
    have hm : m.length = n := h m (by simp)
    have hr : ∀ r ∈ rest, r.length = n := fun r hr => h r (by simp [hr])
    have : rest.all (fun m' => decide (m'.length = m.length)) = true := by
      rw [List.all_eq_true]; intro r hr'; simp [hr r hr', hm]
    simp only [hcat, this, if_true, foldl_zipWith_append n m rest hm hr]

theorem mapM_ok {α β : Type} (f : α → Py β) (g : α → β) (l : List α) (h : ∀ a ∈ l, f a = .ok (g a)) :
    l.mapM f = .ok (l.map g) := by
  induction l with
  | nil => rfl
  | cons a as ih =>
    rw [List.mapM_cons, h a (by simp), ih (fun b hb => h b (by simp [hb]))]
    rfl

theorem lookup_of_keys {β : Type} (d : List (String × β)) (keys : List String)
    (hk : d.map Prod.fst = keys) (hnd : keys.Nodup) :
    keys.mapM (getKey d) = .ok (d.map Prod.snd) := by
  subst hk
  have : ∀ p ∈ d, getKey d p.1 = .ok p.2 := by
    intro p hp
    have : d.lookup p.1 = some p.2 := by
      induction d with
      | nil => simp at hp
      | cons q qs ih =>
        simp only [List.map_cons, List.nodup_cons] at hnd
        rcases List.mem_cons.mp hp with rfl | hp
        · simp [List.lookup]
        · have hne : p.1 ≠ q.1 := by
            intro e; apply hnd.1; rw [← e]; exact List.mem_map_of_mem hp
          have hb : (p.1 == q.1) = false := by simpa using hne
          simp only [List.lookup, hb]
          exact ih hnd.2 hp
    simp [getKey, this]
  have h2 : (d.map Prod.fst).mapM (getKey d) = d.mapM (fun p => getKey d p.1) := by
    rw [List.mapM_map]; rfl
  rw [h2, mapM_ok _ Prod.snd d this]

end Lumos.DecVar.Layout
