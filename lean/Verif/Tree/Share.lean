import Verif.Tree.Heap
/-!
# C108: nodes of a parameter tree that share their dictionary

`set_param` and `get_param` (lumos/models/tree_utils.py:174-180) on the heap of `Verif/Tree/Heap`, and the loop of
examples/laptime_simulation_example.py:55-62, which puts one dictionary of tyre parameters into four nodes.
-/

namespace Lumos.Trees

open Lumos Tree

variable {V : Type}

/-! ## Model -/

/-- `_get_subtree` (tree_utils.py:59-67), for the names of the path. -/
def HTree.sub : HTree → List String → Py HTree
  | t, [] => .ok t
  | t, n :: ns =>
    match t.children.lookup n with
    | none => .error .keyError
    | some c => c.sub ns

/-- `set_param(path, value)` (tree_utils.py:95-104, 179-180): the item of the dictionary of the node is set. -/
def hSetParam (h : Heap V) (t : HTree) (path : String) (r : Ref V) (delimiter : Char := '.') : Heap V × Option PyErr :=
  match t.sub (resolve (pathParent path delimiter) '.') with
  | .error e => (h, some e)
  | .ok s => (h.setItem s.data (pathKey path delimiter) r, none)

/-- `get_param(path)` (tree_utils.py:174-177). -/
def hGetParam (h : Heap V) (t : HTree) (path : String) (delimiter : Char := '.') : Py (Ref V) := do
  let s ← t.sub (resolve (pathParent path delimiter) '.')
  Dict.get (h.items s.data) (pathKey path delimiter)

/-- A sequence of calls of `set_param`; the exceptions they raise. -/
def hSetParams (h : Heap V) (t : HTree) : List (String × Ref V) → Heap V × List (Option PyErr)
  | [] => (h, [])
  | (p, r) :: ws =>
    let q := hSetParam h t p r
    let rest := hSetParams q.1 t ws
    (rest.1, q.2 :: rest.2)

/-- `node = params._get_subtree(path); node._data = d; params.replace_subtree(path, node)` (laptime_simulation_example.py:60-62), for the names of the
path. The node is put back where it is, so that the tree changes only in the data of the node. -/
def HTree.point : HTree → List String → Nat → Py HTree
  | .node _ cs, [], d => .ok (.node d cs)
  | .node a cs, n :: ns, d =>
    match cs.lookup n with
    | none => .error .keyError
    | some c => do
      let c' ← c.point ns d
      return .node a (Dict.set cs n c')

/-- The loop of the example (laptime_simulation_example.py:58-62) over the paths of nodes. -/
def HTree.pointAll (t : HTree) (d : Nat) : List (List String) → Py HTree
  | [] => .ok t
  | p :: ps => do
    let t' ← t.point p d
    t'.pointAll d ps

/-! ## Specification -/

/-- A sequence of calls of `set_param` on a tree whose nodes are all separate (`Tree.setParam`, the model of C40); the exceptions they raise. -/
def setAll (t : Tree V) : List (String × PV V) → Tree V × List (Option PyErr)
  | [] => (t, [])
  | (p, v) :: ws =>
    let q := t.setParam p v
    let rest := setAll q.1 ws
    (rest.1, q.2 :: rest.2)

/-- No two nodes of the tree have the same dictionary. -/
def Separate (t : HTree) : Prop := (dicts t).Nodup

mutual
/-- The addresses of the dictionaries `_params` of a model and its submodels. -/
def modDicts : HMod V → List Nat
  | .node _ a s => a :: modDictsL s
/-- See `modDicts`. -/
def modDictsL : List (String × HMod V) → List Nat
  | [] => []
  | (_, m) :: s => modDicts m ++ modDictsL s
end

mutual
/-- A model of a leaf class has no submodels. -/
def HMod.plain : HMod V → Prop
  | .node c _ s => (c.isLeaf = true → s = []) ∧ HMod.plainL s
/-- See `HMod.plain`. -/
def HMod.plainL : List (String × HMod V) → Prop
  | [] => True
  | (_, m) :: s => m.plain ∧ HMod.plainL s
end

/-! ## Trees with separate nodes -/

/-- The dictionaries of a tree are dictionaries. -/
def Dicts (h : Heap V) (t : HTree) : Prop := ∀ a ∈ dicts t, ∃ l, h.cells a = .dict l

theorem TreeIn.dicts {n : Nat} {h : Heap V} {t : HTree} (ht : TreeIn n h t) : Dicts h t := fun a ha => (dicts_in t ht a ha).2.1

theorem elems_setItem {h : Heap V} {a : Nat} (ha : ∃ l, h.cells a = .dict l) (k : String) (r : Ref V) (b : Nat) :
    (h.setItem a k r).elems b = h.elems b := by
  obtain ⟨l, hl⟩ := ha
  unfold Heap.elems Heap.setItem Heap.write
  simp only
  split_ifs with hb
  · subst hb; rw [hl]
  · rfl

theorem readRef_setItem {h : Heap V} {a : Nat} (ha : ∃ l, h.cells a = .dict l) (k : String) (r q : Ref V) :
    readRef (h.setItem a k r) q = readRef h q := by
  cases q with
  | num v => rfl
  | ptr b => simp only [readRef]; rw [elems_setItem ha]

theorem items_setItem_ne {h : Heap V} {a b : Nat} (hb : b ≠ a) (k : String) (r : Ref V) : (h.setItem a k r).items b = h.items b := by
  simp [Heap.items, Heap.setItem, Heap.write, hb]

theorem items_setItem (h : Heap V) (a : Nat) (k : String) (r : Ref V) : (h.setItem a k r).items a = Dict.set (h.items a) k r := by
  simp [Heap.items, Heap.setItem, Heap.write]

theorem dicts_setItem {h : Heap V} {t : HTree} (ht : Dicts h t) (a : Nat) (k : String) (r : Ref V) : Dicts (h.setItem a k r) t := by
  intro b hb
  simp only [Heap.setItem, Heap.write]
  split_ifs with e
  · exact ⟨_, rfl⟩
  · exact ht b hb

theorem readDict_setItem_ne {h : Heap V} {a b : Nat} (ha : ∃ l, h.cells a = .dict l) (hb : b ≠ a) (k : String) (r : Ref V) :
    readDict (h.setItem a k r) b = readDict h b := by
  unfold readDict
  rw [items_setItem_ne hb]
  exact List.map_congr_left fun kr _ => by rw [readRef_setItem ha]

theorem map_set {α β : Type} (f : α → β) (d : List (String × α)) (k : String) (v : α) :
    (Dict.set d k v).map (fun p => (p.1, f p.2)) = Dict.set (d.map fun p => (p.1, f p.2)) k (f v) := by
  induction d with
  | nil => rfl
  | cons p d ih =>
    obtain ⟨a, b⟩ := p
    simp only [Dict.set, List.map_cons]
    split_ifs <;> simp [ih]

theorem readDict_setItem {h : Heap V} {a : Nat} (ha : ∃ l, h.cells a = .dict l) (k : String) (r : Ref V) :
    readDict (h.setItem a k r) a = Dict.set (readDict h a) k (.val (readRef h r)) := by
  unfold readDict
  rw [items_setItem, ← map_set (fun q => PV.val (readRef h q))]
  exact List.map_congr_left fun kr _ => by rw [readRef_setItem ha]

mutual
theorem readTree_setItem_ne {h : Heap V} {a : Nat} (ha : ∃ l, h.cells a = .dict l) (k : String) (r : Ref V) :
    ∀ t, a ∉ dicts t → readTree (h.setItem a k r) t = readTree h t
  | .node b cs, hb => by
    rw [dicts, List.mem_cons, not_or] at hb
    rw [readTree, readTree, readDict_setItem_ne ha (Ne.symm hb.1), readTreeL_setItem_ne ha k r cs hb.2]
theorem readTreeL_setItem_ne {h : Heap V} {a : Nat} (ha : ∃ l, h.cells a = .dict l) (k : String) (r : Ref V) :
    ∀ cs, a ∉ dictsL cs → readTreeL (h.setItem a k r) cs = readTreeL h cs
  | [], _ => by rw [readTreeL, readTreeL]
  | (n, t) :: cs, hb => by
    rw [dictsL, List.mem_append, not_or] at hb
    rw [readTreeL, readTreeL, readTree_setItem_ne ha k r t hb.1, readTreeL_setItem_ne ha k r cs hb.2]
end

theorem data_mem (t : HTree) : t.data ∈ dicts t := by
  obtain ⟨a, cs⟩ := t
  simp [HTree.data, dicts]

theorem lookup_dicts {cs : List (String × HTree)} {n : String} {c : HTree} (h : cs.lookup n = some c) : ∀ a ∈ dicts c, a ∈ dictsL cs := by
  induction cs with
  | nil => simp at h
  | cons p cs ih =>
    obtain ⟨k, t⟩ := p
    rw [Dict.lookup_cons] at h
    rw [dictsL]
    intro a ha
    split_ifs at h with e
    · cases h; exact List.mem_append_left _ ha
    · exact List.mem_append_right _ (ih h a ha)

theorem sub_dicts : ∀ (ns : List String) (t s : HTree), t.sub ns = .ok s → s.data ∈ dicts t
  | [], t, s, h => by
    rw [HTree.sub] at h
    cases h
    exact data_mem _
  | n :: ns, .node a cs, s, h => by
    rw [HTree.sub] at h
    simp only [HTree.children] at h
    split at h
    · cases h
    · rename_i c hc
      rw [dicts]
      exact List.mem_cons_of_mem _ (lookup_dicts hc _ (sub_dicts ns c s h))

/-- In a list of children with separate dictionaries, changing the dictionary of a descendant of one child is changing that child. -/
theorem readTreeL_set {h : Heap V} {a : Nat} (ha : ∃ l, h.cells a = .dict l) (k : String) (r : Ref V) {n : String} {c : HTree} :
    ∀ cs : List (String × HTree), cs.lookup n = some c → a ∈ dicts c → (dictsL cs).Nodup →
      readTreeL (h.setItem a k r) cs = Dict.set (readTreeL h cs) n (readTree (h.setItem a k r) c)
  | [], hc, _, _ => by simp at hc
  | (m, t) :: cs, hc, hm, hd => by
    rw [Dict.lookup_cons] at hc
    rw [dictsL, List.nodup_append] at hd
    rw [readTreeL, readTreeL, Dict.set]
    by_cases e : n = m
    · rw [if_pos e] at hc
      cases hc
      rw [if_pos e.symm, readTreeL_setItem_ne ha k r cs (fun hx => hd.2.2 a hm a hx rfl)]
    · rw [if_neg e] at hc
      have hx : a ∈ dictsL cs := lookup_dicts hc a hm
      rw [if_neg (Ne.symm e), readTree_setItem_ne ha k r t (fun hy => hd.2.2 a hy a hx rfl), readTreeL_set ha k r cs hc hm hd.2.1]

theorem nodup_lookup {cs : List (String × HTree)} {n : String} {c : HTree} (h : cs.lookup n = some c) (hd : (dictsL cs).Nodup) : (dicts c).Nodup := by
  induction cs with
  | nil => simp at h
  | cons p cs ih =>
    obtain ⟨k, t⟩ := p
    rw [Dict.lookup_cons] at h
    rw [dictsL, List.nodup_append] at hd
    split_ifs at h with e
    · cases h; exact hd.1
    · exact ih h hd.2.1

theorem updateAt_sub {h : Heap V} (k : String) (r : Ref V) : ∀ (ns : List String) (t s : HTree), t.sub ns = .ok s → Separate t → Dicts h t →
    updateAt (readTree h t) ns (putKey k (.val (readRef h r))) = (readTree (h.setItem s.data k r) t, none)
  | [], .node a cs, s, hs, hd, hh => by
    rw [HTree.sub] at hs
    cases hs
    have ha := hh a (by rw [dicts]; simp)
    have hd' : a ∉ dictsL cs := by
      unfold Separate at hd
      rw [dicts, List.nodup_cons] at hd
      exact hd.1
    rw [updateAt, readTree, readTree, HTree.data, readDict_setItem ha, readTreeL_setItem_ne ha k r cs hd']
    rfl
  | n :: ns, .node a cs, s, hs, hd, hh => by
    rw [HTree.sub] at hs
    simp only [HTree.children] at hs
    unfold Separate at hd
    rw [dicts, List.nodup_cons] at hd
    split at hs
    · cases hs
    · rename_i c hc
      have hcd : Dicts h c := fun b hb => hh b (by rw [dicts]; exact List.mem_cons_of_mem _ (lookup_dicts hc b hb))
      have hm : s.data ∈ dicts c := sub_dicts ns c s hs
      have ha := hcd _ hm
      have hne : a ≠ s.data := fun e => hd.1 (e ▸ lookup_dicts hc _ hm)
      have ih := updateAt_sub (h := h) k r ns c s hs (nodup_lookup hc hd.2) hcd
      rw [updateAt, readTree, Tree.children, lookup_readTreeL, hc]
      simp only [Option.map_some, ih, Tree.data]
      rw [readTree, readDict_setItem_ne ha hne, readTreeL_set ha k r cs hc hm hd.2]

theorem updateAt_sub_error {h : Heap V} {f : Tree (Val V) → Tree (Val V) × Option PyErr} : ∀ (ns : List String) (t : HTree) (e : PyErr),
    t.sub ns = .error e → (updateAt (readTree h t) ns f).2 = some e ∧ getNames (readTree h t) ns = .error e
  | [], t, e, hs => by rw [HTree.sub] at hs; cases hs
  | n :: ns, .node a cs, e, hs => by
    rw [HTree.sub] at hs
    simp only [HTree.children] at hs
    rw [updateAt, getNames, readTree, Tree.children, lookup_readTreeL]
    split at hs
    · rename_i hc
      cases hs
      rw [hc]
      exact ⟨rfl, rfl⟩
    · rename_i c hc
      rw [hc]
      exact updateAt_sub_error ns c e hs

/-- **C108** (reading). What `get_param` returns is what the value-level model says, whatever is shared. -/
theorem C108_get_param (h : Heap V) (t : HTree) (p : String) (c : Char) :
    (hGetParam h t p c).map (fun r => PV.val (readRef h r)) = getParam (readTree h t) p c := by
  unfold hGetParam getParam getSubtree
  have key : ∀ (ns : List String) (t : HTree), getNames (readTree h t) ns = (t.sub ns).map (readTree h) := by
    intro ns
    induction ns with
    | nil => intro t; rw [HTree.sub, getNames]; rfl
    | cons n ns ih =>
      intro t
      obtain ⟨a, cs⟩ := t
      rw [HTree.sub, getNames, readTree, Tree.children, lookup_readTreeL]
      simp only [HTree.children]
      cases cs.lookup n with
      | none => rfl
      | some c => exact ih c
  rw [key]
  cases t.sub (resolve (pathParent p c) '.') with
  | error e => rfl
  | ok s =>
    obtain ⟨a, cs⟩ := s
    show (Dict.get (h.items a) (pathKey p c)).map (fun r => PV.val (readRef h r)) = _
    show _ = Dict.get (readDict h a) (pathKey p c)
    unfold Dict.get readDict
    have : ∀ l : List (String × Ref V), List.lookup (pathKey p c) (l.map fun (kr : String × Ref V) => (kr.1, PV.val (readRef h kr.2)))
        = (l.lookup (pathKey p c)).map fun r => PV.val (readRef h r) := by
      intro l
      induction l with
      | nil => rfl
      | cons q l ih =>
        obtain ⟨a, b⟩ := q
        rw [List.map_cons, Dict.lookup_cons, Dict.lookup_cons, ih]
        split_ifs <;> rfl
    rw [this]
    cases (h.items a).lookup (pathKey p c) <;> rfl

/-- **C108** (writing, separate nodes). On a tree whose nodes all have their own dictionary, `set_param` is the `set_param` of C40: it changes that
parameter and nothing else, or raises the same exception and changes nothing. -/
theorem C108_set_param {h : Heap V} {t : HTree} (hs : Separate t) (hh : Dicts h t) (p : String) (r : Ref V) (c : Char) :
    (readTree (hSetParam h t p r c).1 t, (hSetParam h t p r c).2) = (readTree h t).setParam p (.val (readRef h r)) c := by
  unfold hSetParam Tree.setParam setLeaf
  simp only
  cases e : t.sub (resolve (pathParent p c) '.') with
  | ok s => exact (updateAt_sub _ r _ t s e hs hh).symm
  | error e' =>
    have k := updateAt_sub_error (h := h) (f := putKey (pathKey p c) (.val (readRef h r))) _ t e' e
    have q : (readTree h t).setParam p (.val (readRef h r)) c = ((readTree h t).setParam p (.val (readRef h r)) c |>.1, some e') := by
      refine Prod.ext rfl ?_
      exact k.1
    have f := C40_set_failure q
    refine Prod.ext ?_ k.1.symm
    exact f.1.symm

theorem hSetParam_dicts {h : Heap V} {t u : HTree} (hh : Dicts h u) (p : String) (r : Ref V) (c : Char) : Dicts (hSetParam h t p r c).1 u := by
  unfold hSetParam
  split
  · exact hh
  · exact dicts_setItem hh _ _ _

theorem readRef_hSetParam {h : Heap V} {t : HTree} (hh : Dicts h t) (p : String) (r q : Ref V) (c : Char) :
    readRef (hSetParam h t p r c).1 q = readRef h q := by
  unfold hSetParam
  split
  · rfl
  · rename_i s hs
    exact readRef_setItem (hh _ (sub_dicts _ _ _ hs)) _ _ _

/-- **C108** (histories). The same for every sequence of calls of `set_param`, some of which may raise. -/
theorem C108_history {t : HTree} (hs : Separate t) (ws : List (String × Ref V)) {h : Heap V} (hh : Dicts h t) :
    (readTree (hSetParams h t ws).1 t, (hSetParams h t ws).2)
      = setAll (readTree h t) (ws.map fun w => (w.1, .val (readRef h w.2))) := by
  induction ws generalizing h with
  | nil => rfl
  | cons w ws ih =>
    obtain ⟨p, r⟩ := w
    have k := C108_set_param hs hh p r '.'
    have i := ih (hSetParam_dicts hh p r '.' : Dicts (hSetParam h t p r).1 t)
    rw [hSetParams, List.map_cons, setAll]
    simp only
    rw [← k]
    simp only
    have e : (ws.map fun w => (w.1, PV.val (readRef (hSetParam h t p r).1 w.2))) = ws.map fun w => (w.1, PV.val (readRef h w.2)) :=
      List.map_congr_left fun w _ => by rw [readRef_hSetParam hh]
    rw [e] at i
    rw [← i]

/-! ## What the library makes is separate -/

mutual
theorem getRec_sep : ∀ (m : HMod V) (h : Heap V), h.next ≤ (getRec h m).1.next ∧ (dicts (getRec h m).2).Nodup
    ∧ ∀ a ∈ dicts (getRec h m).2, h.next ≤ a ∧ a < (getRec h m).1.next
  | .node c a s, h => by
    obtain ⟨q1, q2, q3⟩ := getRecL_sep s (copyDict h a).1
    have n1 : (copyDict h a).1.next = h.next + 1 := rfl
    have n2 : (copyDict h a).2 = h.next := rfl
    rw [getRec]
    by_cases hl : c.isLeaf = true
    · simp only [hl, if_true, dicts, dictsL, n1, n2]
      simp
    · simp only [hl, Bool.false_eq_true, if_false, dicts, n2]
      rw [n1] at q1 q3
      refine ⟨by omega, List.nodup_cons.mpr ⟨fun hx => ?_, q2⟩, fun b hb => ?_⟩
      · have := q3 _ hx
        omega
      · rcases List.mem_cons.mp hb with rfl | hb
        · exact ⟨Nat.le_refl _, by omega⟩
        · have := q3 _ hb
          exact ⟨by omega, this.2⟩
theorem getRecL_sep : ∀ (s : List (String × HMod V)) (h : Heap V), h.next ≤ (getRecL h s).1.next ∧ (dictsL (getRecL h s).2).Nodup
    ∧ ∀ a ∈ dictsL (getRecL h s).2, h.next ≤ a ∧ a < (getRecL h s).1.next
  | [], h => by simp [getRecL, dictsL]
  | (n, m) :: s, h => by
    obtain ⟨q1, q2, q3⟩ := getRec_sep m h
    obtain ⟨r1, r2, r3⟩ := getRecL_sep s (getRec h m).1
    rw [getRecL]
    simp only [dictsL]
    refine ⟨by omega, List.nodup_append.mpr ⟨q2, r2, fun a ha b hb e => ?_⟩, fun a ha => ?_⟩
    · have := q3 a ha
      have := r3 b hb
      omega
    · rcases List.mem_append.mp ha with ha | ha
      · have := q3 a ha
        omega
      · have := r3 a ha
        omega
end

theorem deepRefs_next (l : List (String × Ref V)) (h : Heap V) : h.next ≤ (deepRefs h l).1.next := by
  induction l generalizing h with
  | nil => exact Nat.le_refl _
  | cons p l ih =>
    obtain ⟨k, r⟩ := p
    cases r with
    | num v => exact ih h
    | ptr a => exact Nat.le_trans (Nat.le_succ _) (ih (h.alloc (.arr (h.elems a))).1)

mutual
theorem deepCopy_sep : ∀ (t : HTree) (h : Heap V), h.next ≤ (deepCopy h t).1.next ∧ (dicts (deepCopy h t).2).Nodup
    ∧ ∀ a ∈ dicts (deepCopy h t).2, h.next ≤ a ∧ a < (deepCopy h t).1.next
  | .node a cs, h => by
    rw [deepCopy]
    simp only [dicts]
    have n0 := deepRefs_next (h.items a) h
    generalize deepRefs h (h.items a) = r at *
    obtain ⟨q1, q2, q3⟩ := deepCopyL_sep cs (r.1.alloc (.dict r.2)).1
    have n1 : (r.1.alloc (.dict r.2)).1.next = r.1.next + 1 := rfl
    have n2 : (r.1.alloc (.dict r.2)).2 = r.1.next := rfl
    rw [n1] at q1 q3
    rw [n2]
    refine ⟨by omega, List.nodup_cons.mpr ⟨fun hx => ?_, q2⟩, fun b hb => ?_⟩
    · have := q3 _ hx
      omega
    · rcases List.mem_cons.mp hb with rfl | hb
      · exact ⟨n0, by omega⟩
      · have := q3 _ hb
        exact ⟨by omega, this.2⟩
theorem deepCopyL_sep : ∀ (cs : List (String × HTree)) (h : Heap V), h.next ≤ (deepCopyL h cs).1.next ∧ (dictsL (deepCopyL h cs).2).Nodup
    ∧ ∀ a ∈ dictsL (deepCopyL h cs).2, h.next ≤ a ∧ a < (deepCopyL h cs).1.next
  | [], h => by simp [deepCopyL, dictsL]
  | (n, t) :: cs, h => by
    obtain ⟨q1, q2, q3⟩ := deepCopy_sep t h
    obtain ⟨r1, r2, r3⟩ := deepCopyL_sep cs (deepCopy h t).1
    rw [deepCopyL]
    simp only [dictsL]
    refine ⟨by omega, List.nodup_append.mpr ⟨q2, r2, fun a ha b hb e => ?_⟩, fun a ha => ?_⟩
    · have := q3 a ha
      have := r3 b hb
      omega
    · rcases List.mem_append.mp ha with ha | ha
      · have := q3 a ha
        omega
      · have := r3 a ha
        omega
end

mutual
theorem setRec_sep : ∀ (m : HMod V) (t : HTree) (h : Heap V), (setRec h m t).2.2 = none → m.plain → h.next ≤ (setRec h m t).1.next
    ∧ (modDicts (setRec h m t).2.1).Nodup ∧ ∀ a ∈ modDicts (setRec h m t).2.1, h.next ≤ a ∧ a < (setRec h m t).1.next
  | .node c a s, t, h, he, hw => by
    have n1 : (copyDict h t.data).1.next = h.next + 1 := rfl
    have n2 : (copyDict h t.data).2 = h.next := rfl
    rw [HMod.plain] at hw
    rw [setRec] at he ⊢
    by_cases hl : c.isLeaf = true
    · simp only [hl, if_true, modDicts, n1, n2, hw.1 hl, modDictsL]
      simp
    · simp only [hl, Bool.false_eq_true, if_false, modDicts, n2] at he ⊢
      obtain ⟨q1, q2, q3⟩ := setRecL_sep s t (copyDict h t.data).1 he hw.2
      rw [n1] at q1 q3
      refine ⟨by omega, List.nodup_cons.mpr ⟨fun hx => ?_, q2⟩, fun b hb => ?_⟩
      · have := q3 _ hx
        omega
      · rcases List.mem_cons.mp hb with rfl | hb
        · exact ⟨Nat.le_refl _, by omega⟩
        · have := q3 _ hb
          exact ⟨by omega, this.2⟩
theorem setRecL_sep : ∀ (s : List (String × HMod V)) (t : HTree) (h : Heap V), (setRecL h s t).2.2 = none → HMod.plainL s →
    h.next ≤ (setRecL h s t).1.next
    ∧ (modDictsL (setRecL h s t).2.1).Nodup ∧ ∀ a ∈ modDictsL (setRecL h s t).2.1, h.next ≤ a ∧ a < (setRecL h s t).1.next
  | [], t, h, _, _ => by simp [setRecL, modDictsL]
  | (n, m) :: s, t, h, he, hw => by
    rw [HMod.plainL] at hw
    rw [setRecL] at he ⊢
    cases hc : t.children.lookup n with
    | none => rw [hc] at he; simp at he
    | some c =>
      rw [hc] at he
      simp only at he ⊢
      have ih := setRec_sep m c h
      generalize hr : setRec h m c = r at *
      obtain ⟨h', m', o⟩ := r
      cases o with
      | some e => simp at he
      | none =>
        simp only at he ⊢
        obtain ⟨q1, q2, q3⟩ := ih rfl hw.1
        obtain ⟨r1, r2, r3⟩ := setRecL_sep s t h' he hw.2
        simp only at q1 q2 q3
        simp only [modDictsL]
        refine ⟨by omega, List.nodup_append.mpr ⟨q2, r2, fun a ha b hb e => ?_⟩, fun a ha => ?_⟩
        · have := q3 a ha
          have := r3 b hb
          omega
        · rcases List.mem_append.mp ha with ha | ha
          · have := q3 a ha
            omega
          · have := r3 a ha
            omega
end

mutual
theorem plain_of {h : Heap V} : ∀ m : HMod V, (readMod h m).WF → m.plain
  | .node c a s, hw => by
    rw [readMod] at hw
    cases hw with
    | node _ _ _ hl _ hq =>
      rw [HMod.plain]
      refine ⟨fun e => ?_, plain_ofL s hq⟩
      have := hl e
      cases s with
      | nil => rfl
      | cons p s => obtain ⟨n, m⟩ := p; rw [readModL] at this; cases this
theorem plain_ofL {h : Heap V} : ∀ s : List (String × HMod V), (∀ q ∈ readModL h s, Mod.WF q.2) → HMod.plainL s
  | [], _ => by rw [HMod.plainL]; trivial
  | (n, m) :: s, hq => by
    rw [readModL] at hq
    rw [HMod.plainL]
    exact ⟨plain_of m (hq _ (List.mem_cons_self ..)), plain_ofL s fun q h' => hq q (List.mem_cons_of_mem _ h')⟩
end

/-- **C108** (what the library makes). The tree that `get_recursive_params` returns, a copy of a tree through `to_dict` and `from_dict`, and a model after
`set_recursive_params` have a dictionary of its own for every node, even if nodes shared theirs before. -/
theorem C108_separate (h : Heap V) (m : HMod V) (t : HTree) :
    Separate (getRec h m).2 ∧ Separate (deepCopy h t).2
    ∧ ((readMod h m).WF → (setRec h m t).2.2 = none → (modDicts (setRec h m t).2.1).Nodup) :=
  ⟨(getRec_sep m h).2.1, (deepCopy_sep t h).2.1, fun hw he => (setRec_sep m t h he (plain_of m hw)).2.1⟩

/-! ## Nodes that share a dictionary -/

/-- **C108** (finding). If the nodes of two parameters have the same dictionary, setting one of them sets the other. -/
theorem C108_shared {h : Heap V} {t s s' : HTree} {p q : String} (hp : t.sub (resolve (pathParent p '.') '.') = .ok s)
    (hq : t.sub (resolve (pathParent q '.') '.') = .ok s') (hd : s.data = s'.data) (hk : pathKey p '.' = pathKey q '.') (r : Ref V) :
    (hSetParam h t p r).2 = none ∧ hGetParam (hSetParam h t p r).1 t q = .ok r := by
  unfold hSetParam hGetParam
  rw [hp, hq]
  refine ⟨rfl, ?_⟩
  show Dict.get ((h.setItem s.data (pathKey p '.') r).items s'.data) (pathKey q '.') = .ok r
  rw [← hd, items_setItem, hk, Dict.get, Dict.lookup_set, if_pos rfl]

theorem point_spec : ∀ (ns : List String) (t t' : HTree) (d : Nat), t.point ns d = .ok t' →
    (∀ ms s, t.sub ms = .ok s → ∃ s', t'.sub ms = .ok s' ∧ s'.data = if ms = ns then d else s.data)
    ∧ (∀ ms e, t.sub ms = .error e → t'.sub ms = .error e)
  | [], .node a cs, t', d, h => by
    rw [HTree.point] at h
    cases h
    refine ⟨fun ms s hs => ?_, fun ms e hs => ?_⟩
    · cases ms with
      | nil => rw [HTree.sub] at hs ⊢; cases hs; exact ⟨_, rfl, rfl⟩
      | cons m ms => rw [HTree.sub] at hs ⊢; exact ⟨s, hs, by simp⟩
    · cases ms with
      | nil => rw [HTree.sub] at hs; cases hs
      | cons m ms => rw [HTree.sub] at hs ⊢; exact hs
  | n :: ns, .node a cs, t', d, h => by
    rw [HTree.point] at h
    cases hc : cs.lookup n with
    | none => rw [hc] at h; cases h
    | some c =>
      rw [hc] at h
      simp only at h
      cases hp : c.point ns d with
      | error e => rw [hp] at h; cases h
      | ok c' =>
        rw [hp] at h
        cases h
        obtain ⟨i1, i2⟩ := point_spec ns c c' d hp
        refine ⟨fun ms s hs => ?_, fun ms e hs => ?_⟩
        · cases ms with
          | nil =>
            rw [HTree.sub] at hs ⊢
            cases hs
            exact ⟨_, rfl, by simp [HTree.data]⟩
          | cons m ms =>
            rw [HTree.sub] at hs ⊢
            simp only [HTree.children, Dict.lookup_set] at hs ⊢
            by_cases e : m = n
            · subst e
              rw [hc] at hs
              rw [if_pos rfl]
              obtain ⟨s', j1, j2⟩ := i1 ms s hs
              refine ⟨s', j1, j2.trans ?_⟩
              simp
            · rw [if_neg e]
              exact ⟨s, hs, by simp [e]⟩
        · cases ms with
          | nil => rw [HTree.sub] at hs; cases hs
          | cons m ms =>
            rw [HTree.sub] at hs ⊢
            simp only [HTree.children, Dict.lookup_set] at hs ⊢
            by_cases e' : m = n
            · subst e'
              rw [hc] at hs
              rw [if_pos rfl]
              exact i2 ms e hs
            · rw [if_neg e']
              exact hs

theorem point_ok : ∀ (ns : List String) (t s : HTree) (d : Nat), t.sub ns = .ok s → ∃ t', t.point ns d = .ok t'
  | [], .node a cs, s, d, _ => ⟨_, by rw [HTree.point]⟩
  | n :: ns, .node a cs, s, d, h => by
    rw [HTree.sub] at h
    simp only [HTree.children] at h
    rw [HTree.point]
    split at h
    · cases h
    · rename_i c hc
      obtain ⟨c', hc'⟩ := point_ok ns c s d h
      rw [hc']
      exact ⟨_, rfl⟩

/-- **C108** (the loop of the example). After one dictionary `d` is put into several nodes, exactly these nodes have it, the others have theirs; it fails
only if a node is missing. -/
theorem C108_loop (d : Nat) (ps : List (List String)) (t : HTree) :
    ((∀ p ∈ ps, ∃ s, t.sub p = .ok s) → ∃ t', t.pointAll d ps = .ok t')
    ∧ ∀ t', t.pointAll d ps = .ok t' →
      (∀ p s, t.sub p = .ok s → ∃ s', t'.sub p = .ok s' ∧ s'.data = if p ∈ ps then d else s.data)
      ∧ ∀ p e, t.sub p = .error e → t'.sub p = .error e := by
  induction ps generalizing t with
  | nil =>
    refine ⟨fun _ => ⟨t, by rw [HTree.pointAll]⟩, fun t' h => ?_⟩
    rw [HTree.pointAll] at h
    cases h
    exact ⟨fun p s hs => ⟨s, hs, by simp⟩, fun p e he => he⟩
  | cons p ps ih =>
    constructor
    · intro hp
      obtain ⟨s, hs⟩ := hp p (List.mem_cons_self ..)
      obtain ⟨t1, h1⟩ := point_ok p t s d hs
      obtain ⟨a1, -⟩ := point_spec p t t1 d h1
      obtain ⟨t2, h2⟩ := (ih t1).1 fun q hq => by
        obtain ⟨s, hs⟩ := hp q (List.mem_cons_of_mem _ hq)
        obtain ⟨s', k, -⟩ := a1 q s hs
        exact ⟨s', k⟩
      exact ⟨t2, by rw [HTree.pointAll, h1]; exact h2⟩
    · intro t' h
      rw [HTree.pointAll] at h
      cases h1 : t.point p d with
      | error e => rw [h1] at h; cases h
      | ok t1 =>
        rw [h1] at h
        obtain ⟨a1, a2⟩ := point_spec p t t1 d h1
        obtain ⟨b1, b2⟩ := (ih t1).2 t' h
        refine ⟨fun q s hs => ?_, fun q e he => b2 q e (a2 q e he)⟩
        obtain ⟨s1, k1, k2⟩ := a1 q s hs
        obtain ⟨s2, k3, k4⟩ := b1 q s1 k1
        refine ⟨s2, k3, k4.trans ?_⟩
        by_cases e1 : q ∈ ps
        · simp [e1]
        · by_cases e2 : q = p
          · simp [e2, k2]
          · simp [e1, e2, k2]

/-! ## The example -/

/-- The nodes of the four tyres, laptime_simulation_example.py:58-59. -/
def tyrePaths : List (List String) := [["vehicle", "tire_fl"], ["vehicle", "tire_fr"], ["vehicle", "tire_rl"], ["vehicle", "tire_rr"]]

/-- `params.set_param("vehicle.tire_fl." + key, value)` and so on. -/
def tyreParam (corner key : String) : String := "vehicle.tire_" ++ corner ++ "." ++ key

theorem point_sub : ∀ (ns : List String) (t t' : HTree) (d : Nat), t.point ns d = .ok t' → ∃ s, t.sub ns = .ok s
  | [], t, t', d, _ => ⟨t, by rw [HTree.sub]⟩
  | n :: ns, .node a cs, t', d, h => by
    rw [HTree.point] at h
    rw [HTree.sub]
    simp only [HTree.children]
    split at h
    · cases h
    · rename_i c hc
      cases hp : c.point ns d with
      | error e => rw [hp] at h; cases h
      | ok c' => exact point_sub ns c c' d hp

theorem pointAll_sub {d : Nat} {ps : List (List String)} {t t' : HTree} (h : t.pointAll d ps = .ok t') : ∀ p ∈ ps, ∃ s, t.sub p = .ok s := by
  induction ps generalizing t with
  | nil => simp
  | cons p ps ih =>
    rw [HTree.pointAll] at h
    cases h1 : t.point p d with
    | error e => rw [h1] at h; cases h
    | ok t1 =>
      rw [h1] at h
      intro q hq
      rcases List.mem_cons.mp hq with rfl | hq
      · exact point_sub _ _ _ _ h1
      · obtain ⟨s, hs⟩ := ih h q hq
        cases hx : t.sub q with
        | ok s => exact ⟨s, rfl⟩
        | error e => rw [(point_spec p t t1 d h1).2 q e hx] at hs; cases hs

theorem tyre_path {c k : String} (hc : c ∈ ["fl", "fr", "rl", "rr"]) (hk : '.' ∉ k.toList) :
    resolve (pathParent (tyreParam c k) '.') '.' = ["vehicle", "tire_" ++ c] ∧ pathKey (tyreParam c k) '.' = k
    ∧ ["vehicle", "tire_" ++ c] ∈ tyrePaths := by
  have e : tyreParam c k = pathOf (["vehicle", "tire_" ++ c] ++ [k]) := by
    unfold tyreParam pathOf
    apply String.toList_injective
    simp [pyJoin, joinChars]
  have hg : ∀ n ∈ ["vehicle", "tire_" ++ c], GoodName n := by
    intro n hn
    simp only [List.mem_cons, List.not_mem_nil, or_false] at hn hc
    rcases hn with rfl | rfl
    · exact ⟨by decide, by decide⟩
    · rcases hc with rfl | rfl | rfl | rfl <;> exact ⟨by decide, by decide⟩
  obtain ⟨e1, e2⟩ := path_parent (fun n hn => (hg n hn).2) hk
  rw [e, e1, e2, resolve_path hg]
  refine ⟨rfl, rfl, ?_⟩
  simp only [List.mem_cons, List.not_mem_nil, or_false] at hc
  rcases hc with rfl | rfl | rfl | rfl <;> decide

/-- **C108** (finding, the example). After the loop of the example, setting a parameter of one tyre in the tree sets it for all four tyres. -/
theorem C108_tyres {t t' : HTree} {d : Nat} (ht : t.pointAll d tyrePaths = .ok t') (h : Heap V) {i j k : String} (hi : i ∈ ["fl", "fr", "rl", "rr"])
    (hj : j ∈ ["fl", "fr", "rl", "rr"]) (hk : '.' ∉ k.toList) (r : Ref V) :
    (hSetParam h t' (tyreParam i k) r).2 = none ∧ hGetParam (hSetParam h t' (tyreParam i k) r).1 t' (tyreParam j k) = .ok r := by
  obtain ⟨i1, i2, i3⟩ := tyre_path hi hk
  obtain ⟨j1, j2, j3⟩ := tyre_path hj hk
  obtain ⟨a, -⟩ := (C108_loop d tyrePaths t).2 t' ht
  obtain ⟨s1, h1⟩ := pointAll_sub ht _ i3
  obtain ⟨s2, h2⟩ := pointAll_sub ht _ j3
  obtain ⟨u1, k1, l1⟩ := a _ _ h1
  obtain ⟨u2, k2, l2⟩ := a _ _ h2
  rw [if_pos i3] at l1
  rw [if_pos j3] at l2
  exact C108_shared (by rw [i1]; exact k1) (by rw [j1]; exact k2) (l1.trans l2.symm) (i2.trans j2.symm) r

/-- **C108** (the model made from it). A model whose parameters are set from the tree of the example reads the parameters of the tree, later assignments
in the tree (`ws`: any dictionaries of the tree) do not change it, and in the tree it then returns `set_param` changes one parameter of one node. -/
theorem C108_constructed {m : HMod V} {t : HTree} {h : Heap V} (hm : ModIn h.next h m) (ht : TreeIn h.next h t) (hw : (readMod h m).WF)
    (hok : (setRec h m t).2.2 = none) :
    (readMod h m).setParams (readTree h t) = (readMod (setRec h m t).1 (setRec h m t).2.1, none)
    ∧ (∀ ws : List (Nat × String × Ref V), (∀ w ∈ ws, w.1 ∈ dicts t) →
        readMod (setItems (setRec h m t).1 ws) (setRec h m t).2.1 = readMod (setRec h m t).1 (setRec h m t).2.1)
    ∧ ∀ (ws : List (String × Ref V)), let g := getRec (setRec h m t).1 (setRec h m t).2.1
        (readTree (hSetParams g.1 g.2 ws).1 g.2, (hSetParams g.1 g.2 ws).2)
          = setAll (readMod (setRec h m t).1 (setRec h m t).2.1).getParams (ws.map fun w => (w.1, .val (readRef g.1 w.2))) := by
  obtain ⟨c1, c2, c3⟩ := C42_heap_set hm ht hw
  obtain ⟨b1, b2, b3, b4, b5⟩ := setRec_spec m t h hm ht hw
  refine ⟨?_, fun ws hws => C42_source_isolated hm ht hw hok ws hws, fun ws => ?_⟩
  · rw [← c1, hok]
  · obtain ⟨g1, g2, g3, g4, -⟩ := getRec_spec (setRec h m t).2.1 (setRec h m t).1 b4
    intro g
    rw [C108_history (C108_separate _ _ t).1 ws g4.dicts, g3]

/-! ## A concrete case -/

/-- A tree with four tyres, each with its own dictionary; the dictionary at address 6 is the one read from the file. -/
def tyreHeap : Heap Int := ⟨fun a => if a = 6 then .dict [("LMUX", .num 2)] else .dict [("LMUX", .num 1)], 7⟩

/-- See `tyreHeap`. -/
def tyreTree : HTree :=
  .node 0 [("vehicle", .node 1 [("tire_fl", .node 2 []), ("tire_fr", .node 3 []), ("tire_rl", .node 4 []), ("tire_rr", .node 5 [])])]

/-- The loop applies; the four tyres then share one dictionary and the tree is not separate, before it was. -/
example : Separate tyreTree ∧ ∃ t', tyreTree.pointAll 6 tyrePaths = .ok t' ∧ ¬Separate t' := by
  refine ⟨?_, _, rfl, ?_⟩ <;> (unfold Separate; decide +kernel)

/-- One call changes all four tyres; on a copy made through `to_dict` and `from_dict` it changes one. -/
example : ∃ t', tyreTree.pointAll 6 tyrePaths = .ok t' ∧
    hGetParam (hSetParam tyreHeap t' "vehicle.tire_fl.LMUX" (.num 3)).1 t' "vehicle.tire_rr.LMUX" = .ok (.num 3) ∧
    (let q := deepCopy tyreHeap t'
     hGetParam (hSetParam q.1 q.2 "vehicle.tire_fl.LMUX" (.num 3)).1 q.2 "vehicle.tire_rr.LMUX" = .ok (.num 2)) :=
  ⟨_, rfl, rfl, rfl⟩

/-- The hypotheses of `C108_set_param` and `C108_history` hold for the tree before the loop. -/
example : Separate tyreTree ∧ Dicts tyreHeap tyreTree := by
  refine ⟨by unfold Separate; decide +kernel, fun a _ => ?_⟩
  unfold tyreHeap
  simp only
  split_ifs <;> exact ⟨_, rfl⟩

end Lumos.Trees
