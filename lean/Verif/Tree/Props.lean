import Verif.Tree.Model
import Mathlib.Tactic.SplitIfs
/-!
# Properties of trees: C39 (round trips), C40 (parameter access), C43 (subtree replacement)
-/

namespace Lumos.Trees

open Lumos

variable {V : Type}

namespace Tree

mutual
theorem ind1 {P : Tree V → Prop} (h : ∀ d cs, (∀ p ∈ cs, P p.2) → P (node d cs)) : ∀ t, P t
  | node d cs => h d cs (ind2 h cs)
theorem ind2 {P : Tree V → Prop} (h : ∀ d cs, (∀ p ∈ cs, P p.2) → P (node d cs)) :
    ∀ (cs : List (String × Tree V)), ∀ p ∈ cs, P p.2
  | [], _, hp => by simp at hp
  | (k, c) :: cs, p, hp => by
    rcases List.mem_cons.mp hp with e | hp
    · rw [e]; exact ind1 h c
    · exact ind2 h cs p hp
end

/-! ## Specification vocabulary -/

/-- Names of children are unique, at every level (they are the keys of a Python dictionary). -/
inductive WF : Tree V → Prop
  | node (d : PV V) (cs : List (String × Tree V)) (hk : (Dict.keys cs).Nodup) (h : ∀ p ∈ cs, WF p.2) : WF (node d cs)

/-- A name that is not empty and contains no dot. -/
def GoodName (s : String) : Prop := s ≠ "" ∧ '.' ∉ s.toList

/-- Trees whose child names are non-empty and without dots, whose names are unique (they are dictionary keys) and,
for a parameter tree, whose data are dictionaries with keys without dots. -/
inductive Named (ty : DataType) : Tree V → Prop
  | node (d : PV V) (cs : List (String × Tree V)) (hk : (Dict.keys cs).Nodup) (hn : ∀ p ∈ cs, GoodName p.1)
      (hd : ty = .dict → ∃ kvs, d = .dict kvs ∧ (Dict.keys kvs).Nodup ∧ ∀ kv ∈ kvs, '.' ∉ kv.1.toList)
      (h : ∀ p ∈ cs, Named ty p.2) : Named ty (node d cs)

theorem Named.wf {ty : DataType} {t : Tree V} (h : Named ty t) : WF t := by
  induction h with
  | node d cs hk _ _ _ ih => exact .node d cs hk ih

/-- The path of a list of names. -/
def pathOf (ns : List String) : String := pyJoin '.' ns

/-- The parameter with key `k` of the node reached by the child names `ns`. -/
def paramAt (t : Tree V) (ns : List String) (k : String) : Option (PV V) :=
  match getNames t ns with
  | .ok s =>
    match s.data with
    | .dict kvs => kvs.lookup k
    | _ => none
  | .error _ => none

/-! ## C39: dictionaries -/

theorem fromDictL_toDictL (d : PV V) (acc cs : List (String × Tree V)) (hk : (Dict.keys (acc ++ cs)).Nodup)
    (h : ∀ p ∈ cs, fromDict (toDict p.2) = .ok p.2) :
    fromDictL (node d acc) (toDictL cs) = .ok (node d (acc ++ cs)) := by
  induction cs generalizing acc with
  | nil => simp [toDictL, fromDictL]
  | cons p cs ih =>
    obtain ⟨k, c⟩ := p
    have hc : fromDict (toDict c) = .ok c := h (k, c) (by simp)
    have hkn : k ∉ Dict.keys acc := by
      unfold Dict.keys at hk ⊢
      simp only [List.map_append, List.map_cons] at hk
      rw [List.nodup_append] at hk
      intro hm
      exact hk.2.2 k hm k (List.mem_cons_self ..) rfl
    rw [toDictL, fromDictL, hc]
    simp only [data, children]
    rw [Dict.set_new acc k c hkn, ih (acc ++ [(k, c)])]
    · simp
    · simpa using hk
    · exact fun p hp => h p (List.mem_cons_of_mem _ hp)

/-- **C39 (dictionary round trip).** `from_dict(to_dict(t))` is `t`, for trees of any depth and width and any data. -/
theorem C39_dict_round_trip {t : Tree V} (h : WF t) : fromDict (toDict t) = .ok t := by
  induction h with
  | node d cs hk _ ih =>
    rw [toDict, fromDict]
    have h1 : List.lookup "data" [("data", d), ("children", PV.dict (toDictL cs))] = some d := by
      simp
    have h2 : List.lookup "children" [("data", d), ("children", PV.dict (toDictL cs))] = some (PV.dict (toDictL cs)) := by
      simp [Dict.lookup_cons]
    split
    · rename_i h; rw [h1] at h; cases h
    · rename_i d' h
      rw [h1] at h
      cases h
      split
      · rename_i h; rw [h2] at h; cases h
      · rename_i cs' h
        rw [h2] at h
        cases h
        have := fromDictL_toDictL d [] cs (by simpa using hk) ih
        simpa using this
      · rename_i x hx h
        rw [h2] at h
        cases h
        exact absurd rfl (hx _)

/-- **C39 (what is no tree dictionary).** A value that is not a dictionary, or has no "data" or no "children" entry,
is rejected with TypeError or KeyError. -/
theorem C39_from_dict_errors :
    (∀ s : String, fromDict (PV.str s : PV V) = .error .typeError)
    ∧ (∀ kvs : List (String × PV V), kvs.lookup "data" = none ∨ kvs.lookup "children" = none →
        fromDict (.dict kvs) = .error .keyError) := by
  refine ⟨fun s => by rw [fromDict]; simp, ?_⟩
  intro kvs h
  rw [fromDict]
  split
  · rfl
  · rename_i d hd
    rcases h with h | h
    · rw [hd] at h; cases h
    · split
      · rfl
      · rename_i h'; rw [h] at h'; cases h'
      · rename_i h'; rw [h] at h'; cases h'

/-! ## Paths -/

theorem resolve_path {ns : List String} (h : ∀ n ∈ ns, GoodName n) : resolve (pathOf ns) '.' = ns := by
  unfold resolve pathOf
  cases ns with
  | nil => rfl
  | cons n ns =>
    have hs := pySplit_join '.' (l := n :: ns) (fun s hs => (h s hs).2) (by simp)
    split_ifs with he
    · rw [he] at hs
      have : pySplit '.' "" = [""] := rfl
      rw [this] at hs
      simp only [List.cons.injEq] at hs
      exact absurd hs.1.symm (h n (by simp)).1
    · exact hs

theorem path_parent {ns : List String} (h : ∀ n ∈ ns, '.' ∉ n.toList) {k : String} (hk : '.' ∉ k.toList) :
    pathParent (pathOf (ns ++ [k])) '.' = pathOf ns ∧ pathKey (pathOf (ns ++ [k])) '.' = k := by
  have hs := pySplit_join '.' (l := ns ++ [k]) (fun s hs => by
    rcases List.mem_append.mp hs with h1 | h1
    · exact h s h1
    · rw [List.mem_singleton.mp h1]; exact hk) (by simp)
  unfold pathParent pathKey
  rw [pathOf, hs]
  simp [pathOf]

/-! ## In-place updates -/

theorem updateAt_ok {t : Tree V} {ns : List String} {s : Tree V} (f : Tree V → Tree V × Option PyErr)
    (h : getNames t ns = .ok s) :
    (updateAt t ns f).2 = (f s).2 ∧ getNames (updateAt t ns f).1 ns = .ok (f s).1 := by
  induction ns generalizing t with
  | nil =>
    simp only [getNames, Except.ok.injEq] at h
    subst h
    exact ⟨rfl, rfl⟩
  | cons n ns ih =>
    obtain ⟨d, cs⟩ := t
    simp only [getNames, children] at h
    cases hl : cs.lookup n with
    | none => simp [hl] at h
    | some c =>
      simp only [hl] at h
      obtain ⟨h1, h2⟩ := ih h
      unfold updateAt
      simp only [children, data, hl]
      refine ⟨h1, ?_⟩
      simp only [getNames, children, Dict.lookup_set, if_true]
      exact h2

theorem updateAt_error {t : Tree V} {ns : List String} {e : PyErr} (f : Tree V → Tree V × Option PyErr)
    (h : getNames t ns = .error e) : updateAt t ns f = (t, some .keyError) := by
  induction ns generalizing t with
  | nil => simp [getNames] at h
  | cons n ns ih =>
    obtain ⟨d, cs⟩ := t
    simp only [getNames, children] at h
    cases hl : cs.lookup n with
    | none => simp [updateAt, children, hl]
    | some c =>
      simp only [hl] at h
      unfold updateAt
      simp only [children, data, hl, ih h, Dict.set_same hl]

/-- An update that raises and leaves its node as it is leaves the whole tree as it is. -/
theorem updateAt_same {t : Tree V} {ns : List String} {s : Tree V} {e : PyErr} (f : Tree V → Tree V × Option PyErr)
    (h : getNames t ns = .ok s) (hf : f s = (s, some e)) : updateAt t ns f = (t, some e) := by
  induction ns generalizing t with
  | nil =>
    simp only [getNames, Except.ok.injEq] at h
    subst h
    exact hf
  | cons n ns ih =>
    obtain ⟨d, cs⟩ := t
    simp only [getNames, children] at h
    cases hl : cs.lookup n with
    | none => simp [hl] at h
    | some c =>
      simp only [hl] at h
      unfold updateAt
      simp only [children, data, hl, ih h, Dict.set_same hl]

theorem getNames_error {t : Tree V} {ns : List String} {e : PyErr} (h : getNames t ns = .error e) : e = .keyError := by
  induction ns generalizing t with
  | nil => simp [getNames] at h
  | cons n ns ih =>
    simp only [getNames] at h
    cases hl : t.children.lookup n with
    | none => simp only [hl, Except.error.injEq] at h; exact h.symm
    | some c => simp only [hl] at h; exact ih h

/-- Parameters after an update of one parameter. -/
theorem paramAt_putKey {t s : Tree V} {ns : List String} {kvs : List (String × PV V)} (h : getNames t ns = .ok s)
    (hs : s.data = .dict kvs) (k : String) (v : PV V) (ns' : List String) (k' : String) :
    paramAt (updateAt t ns (putKey k v)).1 ns' k'
      = if ns' = ns ∧ k' = k then some v else paramAt t ns' k' := by
  induction ns generalizing t ns' with
  | nil =>
    obtain ⟨d, cs⟩ := t
    simp only [getNames, Except.ok.injEq] at h
    subst h
    simp only [data] at hs
    subst hs
    unfold updateAt putKey
    simp only [data, children]
    cases ns' with
    | nil => simp [paramAt, getNames, data, Dict.lookup_set]
    | cons n' ns' => simp [paramAt, getNames, children]
  | cons n ns ih =>
    obtain ⟨d, cs⟩ := t
    simp only [getNames, children] at h
    cases hl : cs.lookup n with
    | none => simp [hl] at h
    | some c =>
      simp only [hl] at h
      unfold updateAt
      simp only [children, data, hl]
      cases ns' with
      | nil => simp [paramAt, getNames, data]
      | cons n' ns' =>
        have := ih h ns'
        simp only [paramAt, getNames, children, Dict.lookup_set] at this ⊢
        by_cases hn : n' = n
        · subst hn
          simp only [if_true, List.cons.injEq, true_and, hl]
          exact this
        · simp [hn]

/-! ## C40 -/

theorem getParam_eq (t : Tree V) (p : String) (c : Char) (v : PV V) :
    getParam t p c = .ok v ↔ paramAt t (resolve (pathParent p c) '.') (pathKey p c) = some v := by
  unfold getParam paramAt getSubtree
  simp only [bind, Except.bind]
  cases hg : getNames t (resolve (pathParent p c) '.') with
  | error e => simp
  | ok s =>
    simp only
    cases hd : s.data with
    | str _ => simp
    | val _ => simp
    | dict kvs =>
      simp only [Dict.get]
      cases hl : List.lookup (pathKey p c) kvs <;> simp

theorem pyJoin_one (c : Char) (k : String) : pyJoin c [k] = k := by
  simp [pyJoin, joinChars]

theorem pyJoin_dot (k : String) : pyJoin '.' ["", k] = "." ++ k := by
  apply String.toList_injective
  simp [pyJoin, joinChars]

/-- The parts of a path, as `get_param` and `set_param` use them (default delimiter). -/
theorem address_injective {p p' : String}
    (h1 : resolve (pathParent p '.') '.' = resolve (pathParent p' '.') '.') (h2 : pathKey p '.' = pathKey p' '.') :
    p = p' ∨ p = "." ++ p' ∨ p' = "." ++ p := by
  have key : ∀ q : String, ((pySplit '.' q).dropLast = [] ∧ resolve (pathParent q '.') '.' = [])
      ∨ ((pySplit '.' q).dropLast = [""] ∧ resolve (pathParent q '.') '.' = [])
      ∨ (resolve (pathParent q '.') '.' = (pySplit '.' q).dropLast ∧ (pySplit '.' q).dropLast ≠ []) := by
    intro q
    by_cases hd : (pySplit '.' q).dropLast = []
    · left
      refine ⟨hd, ?_⟩
      unfold pathParent; rw [hd]; rfl
    · right
      have hs := pySplit_join '.' (l := (pySplit '.' q).dropLast)
        (fun s hs => pySplit_parts '.' q s (List.dropLast_subset _ hs)) hd
      unfold resolve pathParent
      split_ifs with he
      · left
        rw [he] at hs
        exact ⟨hs.symm, rfl⟩
      · right; exact ⟨hs, hd⟩
  have rebuild : ∀ q : String, q = pyJoin '.' ((pySplit '.' q).dropLast ++ [pathKey q '.']) := by
    intro q
    have hne := pySplit_ne_nil '.' q
    have : pathKey q '.' = (pySplit '.' q).getLast hne := by
      unfold pathKey
      rw [List.getLastD_eq_getLast?, List.getLast?_eq_some_getLast hne, Option.getD_some]
    rw [this, List.dropLast_append_getLast hne, pyJoin_split]
  have single : ∀ q : String, (pySplit '.' q).dropLast = [] → q = pathKey q '.' := by
    intro q hq
    have := rebuild q
    rw [hq, List.nil_append, pyJoin_one] at this
    exact this
  have dotted : ∀ q : String, (pySplit '.' q).dropLast = [""] → q = "." ++ pathKey q '.' := by
    intro q hq
    have := rebuild q
    rw [hq, List.singleton_append, pyJoin_dot] at this
    exact this
  rcases key p with ⟨a, b⟩ | ⟨a, b⟩ | ⟨a, b⟩ <;> rcases key p' with ⟨a', b'⟩ | ⟨a', b'⟩ | ⟨a', b'⟩
  · left; rw [single p a, single p' a', h2]
  · right; right; rw [dotted p' a', ← h2, ← single p a]
  · rw [b, a'] at h1; exact absurd h1.symm b'
  · right; left; rw [dotted p a, h2, ← single p' a']
  · left; rw [dotted p a, dotted p' a', h2]
  · rw [b, a'] at h1; exact absurd h1.symm b'
  · rw [b', a] at h1; exact absurd h1 b
  · rw [b', a] at h1; exact absurd h1 b
  · left
    rw [rebuild p, rebuild p', ← a, ← a', h1, h2]

/-- **C40 (get after set).** After a successful `set_param(p, v)`, `get_param(p)` is `v` (any delimiter). -/
theorem C40_get_set {t t' : Tree V} {p : String} {v : PV V} {c : Char} (h : setParam t p v c = (t', none)) :
    getParam t' p c = .ok v := by
  rw [getParam_eq]
  unfold setParam setLeaf at h
  simp only at h
  cases hg : getNames t (resolve (pathParent p c) '.') with
  | error e => rw [updateAt_error _ hg] at h; simp at h
  | ok s =>
    cases hd : s.data with
    | str x =>
      have := updateAt_ok (putKey (pathKey p c) v) hg
      rw [h] at this
      simp [putKey, hd] at this
    | val x =>
      have := updateAt_ok (putKey (pathKey p c) v) hg
      rw [h] at this
      simp [putKey, hd] at this
    | dict kvs =>
      have := paramAt_putKey hg hd (pathKey p c) v (resolve (pathParent p c) '.') (pathKey p c)
      rw [h] at this
      simpa using this

/-- **C40 (frame).** After a successful `set_param(p, v)`, `get_param` at any other path gives what it gave before;
paths that differ only by one leading dot may be the same parameter (`C40_leading_dot`). -/
theorem C40_frame {t t' : Tree V} {p : String} {v : PV V} (h : setParam t p v = (t', none)) {p' : String}
    (h1 : p' ≠ p) (h2 : p' ≠ "." ++ p) (h3 : p ≠ "." ++ p') (w : PV V) :
    getParam t' p' = .ok w ↔ getParam t p' = .ok w := by
  rw [getParam_eq, getParam_eq]
  unfold setParam setLeaf at h
  simp only at h
  cases hg : getNames t (resolve (pathParent p '.') '.') with
  | error e => rw [updateAt_error _ hg] at h; simp at h
  | ok s =>
    cases hd : s.data with
    | str x =>
      have := updateAt_ok (putKey (pathKey p '.') v) hg
      rw [h] at this
      simp [putKey, hd] at this
    | val x =>
      have := updateAt_ok (putKey (pathKey p '.') v) hg
      rw [h] at this
      simp [putKey, hd] at this
    | dict kvs =>
      have := paramAt_putKey hg hd (pathKey p '.') v (resolve (pathParent p' '.') '.') (pathKey p' '.')
      rw [h] at this
      rw [this, if_neg]
      rintro ⟨e1, e2⟩
      rcases address_injective e1 e2 with e | e | e
      · exact h1 e
      · exact h2 e
      · exact h3 e

/-- **C40 (failure).** `set_param` fails exactly if the node addressed by the path does not exist (KeyError) or does
not hold a dictionary (TypeError), and then leaves the tree unchanged. -/
theorem C40_set_failure {t t' : Tree V} {p : String} {v : PV V} {c : Char} {e : PyErr}
    (h : setParam t p v c = (t', some e)) :
    t' = t ∧ ((getSubtree t (pathParent p c) = .error .keyError ∧ e = .keyError)
      ∨ ∃ s, getSubtree t (pathParent p c) = .ok s ∧ (∀ kvs, s.data ≠ .dict kvs) ∧ e = .typeError) := by
  unfold setParam setLeaf at h
  simp only at h
  unfold getSubtree
  cases hg : getNames t (resolve (pathParent p c) '.') with
  | error e' =>
    rw [updateAt_error _ hg] at h
    simp only [Prod.mk.injEq, Option.some.injEq] at h
    exact ⟨h.1.symm, Or.inl ⟨by rw [getNames_error hg], h.2.symm⟩⟩
  | ok s =>
    cases hd : s.data with
    | str x =>
      rw [updateAt_same _ hg (e := .typeError) (by simp [putKey, hd])] at h
      simp only [Prod.mk.injEq, Option.some.injEq] at h
      exact ⟨h.1.symm, Or.inr ⟨s, rfl, by simp [hd], h.2.symm⟩⟩
    | val x =>
      rw [updateAt_same _ hg (e := .typeError) (by simp [putKey, hd])] at h
      simp only [Prod.mk.injEq, Option.some.injEq] at h
      exact ⟨h.1.symm, Or.inr ⟨s, rfl, by simp [hd], h.2.symm⟩⟩
    | dict kvs =>
      have := (updateAt_ok (putKey (pathKey p c) v) hg).1
      rw [h] at this
      simp [putKey, hd] at this

/-- **C40 (a missing node).** Setting or getting through a path of child names that does not exist in the tree raises
KeyError; the tree keeps its value. -/
theorem C40_missing_node {t : Tree V} {ns : List String} {k : String} (hn : ∀ n ∈ ns, GoodName n) (hk : '.' ∉ k.toList)
    (h : getNames t ns = .error .keyError) (v : PV V) :
    setParam t (pathOf (ns ++ [k])) v = (t, some .keyError) ∧ getParam t (pathOf (ns ++ [k])) = .error .keyError := by
  obtain ⟨e1, e2⟩ := path_parent (fun n hn' => (hn n hn').2) hk
  constructor
  · unfold setParam setLeaf
    simp only [e1, resolve_path hn]
    exact updateAt_error _ h
  · unfold getParam getSubtree
    rw [e1, resolve_path hn, h]
    rfl

/-- **C40 (sequences).** After any sequence of successful `set_param` calls, a parameter reads as the value of the last
call with its path, and as its initial value if there is none. Paths do not begin with a dot. -/
theorem C40_history (updates : List (String × PV V)) {t t' : Tree V}
    (h : setLeaves .dict t updates = .ok t') (hd : ∀ u ∈ updates, ∀ q, u.1 ≠ "." ++ q) {p : String}
    (hp : ∀ q, p ≠ "." ++ q) (w : PV V) :
    getParam t' p = .ok w ↔
      match updates.reverse.lookup p with
      | some v => v = w
      | none => getParam t p = .ok w := by
  induction updates generalizing t with
  | nil =>
    simp only [setLeaves, Except.ok.injEq] at h
    subst h
    simp
  | cons u us ih =>
    obtain ⟨k, v⟩ := u
    unfold setLeaves at h
    cases hs : setLeaf .dict t k v with
    | mk t1 o =>
      cases o with
      | some e => simp [hs] at h
      | none =>
        simp only [hs] at h
        rw [ih h fun u hu => hd u (List.mem_cons_of_mem _ hu)]
        have hset : setParam t k v = (t1, none) := hs
        have happ : ∀ l : List (String × PV V), (l ++ [(k, v)]).lookup p
            = (match l.lookup p with
              | some x => some x
              | none => if p = k then some v else none) := by
          intro l
          induction l with
          | nil => simp [Dict.lookup_cons]
          | cons a l ih =>
            obtain ⟨a1, a2⟩ := a
            simp only [List.cons_append, Dict.lookup_cons, ih]
            split_ifs <;> rfl
        rw [List.reverse_cons, happ]
        cases hl : us.reverse.lookup p with
        | some x => simp
        | none =>
          simp only
          by_cases hpk : p = k
          · subst hpk
            rw [C40_get_set hset]
            simp
          · simp only [hpk, if_false]
            exact C40_frame hset hpk (hp k) (hd (k, v) (by simp) p) w

/-- **C40 (finding: a new key).** `set_param` with a key that the addressed node does not have succeeds and adds it. -/
theorem C40_set_creates {t s : Tree V} {p : String} {c : Char} {kvs : List (String × PV V)}
    (hg : getSubtree t (pathParent p c) = .ok s) (hd : s.data = .dict kvs) (hk : kvs.lookup (pathKey p c) = none)
    (v : PV V) : ∃ t', setParam t p v c = (t', none) ∧ getParam t p c = .error .keyError ∧ getParam t' p c = .ok v := by
  refine ⟨(setParam t p v c).1, ?_, ?_, ?_⟩
  · have := (updateAt_ok (putKey (pathKey p c) v) hg).1
    simp only [putKey, hd] at this
    exact Prod.ext rfl this
  · unfold getParam
    rw [hg]
    simp [bind, Except.bind, hd, Dict.get, hk]
  · refine C40_get_set (t := t) (v := v) ?_
    have := (updateAt_ok (putKey (pathKey p c) v) hg).1
    simp only [putKey, hd] at this
    exact Prod.ext rfl this

/-- **C40 (finding: a leading dot).** A path with one leading dot in front of a key addresses the root's parameter of
that name. -/
theorem C40_leading_dot (t : Tree V) (k : String) (hk : '.' ∉ k.toList) (v : PV V) :
    getParam t ("." ++ k) = getParam t k ∧ setParam t ("." ++ k) v = setParam t k v := by
  have e1 := path_parent (ns := []) (by simp) hk
  have e2 := path_parent (ns := [""]) (by simp) hk
  have q1 : pathOf ([] ++ [k]) = k := by unfold pathOf; rw [List.nil_append, pyJoin_one]
  have q2 : pathOf ([""] ++ [k]) = "." ++ k := by unfold pathOf; rw [List.singleton_append, pyJoin_dot]
  rw [q1] at e1
  rw [q2] at e2
  unfold getParam setParam setLeaf
  simp only [e1.1, e1.2, e2.1, e2.2]
  exact ⟨rfl, rfl⟩

/-- **C40 (finding: the delimiter argument).** With a delimiter other than the dot, a path through two or more
children cannot be used: it is looked up as one child whose name contains the delimiter, so in a tree without such
names `get_param` and `set_param` raise KeyError although the nodes exist. -/
theorem C40_custom_delimiter {t : Tree V} {c : Char} (hc : c ≠ '.') {n1 n2 k : String} {ns : List String}
    (hn : ∀ n ∈ n1 :: n2 :: ns, '.' ∉ n.toList ∧ c ∉ n.toList) (hk : c ∉ k.toList)
    (hno : ∀ p ∈ t.children, c ∉ p.1.toList) (v : PV V) :
    getParam t (pyJoin c (n1 :: n2 :: ns ++ [k])) c = .error .keyError
    ∧ setParam t (pyJoin c (n1 :: n2 :: ns ++ [k])) v c = (t, some .keyError) := by
  have hs := pySplit_join c (l := n1 :: n2 :: ns ++ [k]) (fun s hs => by
    rcases List.mem_append.mp hs with h1 | h1
    · exact (hn s h1).2
    · rw [List.mem_singleton.mp h1]; exact hk) (by simp)
  have hp : pathParent (pyJoin c (n1 :: n2 :: ns ++ [k])) c = pyJoin c (n1 :: n2 :: ns) := by
    unfold pathParent
    rw [hs, List.dropLast_concat]
  have hmem : c ∈ (pyJoin c (n1 :: n2 :: ns)).toList := by
    simp [pyJoin, joinChars]
  have hdot : '.' ∉ (pyJoin c (n1 :: n2 :: ns)).toList := by
    unfold pyJoin
    rw [String.toList_ofList]
    generalize n1 :: n2 :: ns = l at hn
    induction l with
    | nil => simp [joinChars]
    | cons a l ih =>
      cases l with
      | nil => simpa [joinChars] using (hn a (by simp)).1
      | cons b l =>
        simp only [List.map_cons, joinChars, List.mem_append, List.mem_cons, not_or]
        refine ⟨(hn a (by simp)).1, Ne.symm hc, ?_⟩
        have := ih fun n h => hn n (List.mem_cons_of_mem _ h)
        simpa using this
  have hres : resolve (pyJoin c (n1 :: n2 :: ns)) '.' = [pyJoin c (n1 :: n2 :: ns)] := by
    unfold resolve
    rw [if_neg]
    · unfold pySplit
      rw [splitChars_no '.' hdot]
      simp
    · intro h
      rw [h] at hmem
      simp at hmem
  have hlook : t.children.lookup (pyJoin c (n1 :: n2 :: ns)) = none := by
    rw [Dict.lookup_none]
    intro hm
    obtain ⟨p, hp, e⟩ := List.mem_map.mp hm
    have := hno p hp
    rw [e] at this
    exact this hmem
  have hg : getNames t (resolve (pyJoin c (n1 :: n2 :: ns)) '.') = .error .keyError := by
    rw [hres]
    simp [getNames, hlook]
  constructor
  · unfold getParam getSubtree
    rw [hp, hg]
    rfl
  · unfold setParam setLeaf
    simp only [hp]
    exact updateAt_error _ hg

/-! ## C43 -/

/-- Reading after replacing a child. -/
theorem getNames_putChild {t par old : Tree V} {ns : List String} {n : String} (h : getNames t ns = .ok par)
    (ho : par.children.lookup n = some old) (new : Tree V) (rest : List String) :
    getNames (updateAt t ns (putChild n new)).1 (ns ++ n :: rest) = getNames new rest := by
  induction ns generalizing t with
  | nil =>
    simp only [getNames, Except.ok.injEq] at h
    subst h
    obtain ⟨d, cs⟩ := t
    simp only [children] at ho
    unfold updateAt putChild
    simp only [children, ho, List.nil_append, getNames, Dict.lookup_set, if_true]
  | cons m ns ih =>
    obtain ⟨d, cs⟩ := t
    simp only [getNames, children] at h
    cases hl : cs.lookup m with
    | none => simp [hl] at h
    | some c =>
      simp only [hl] at h
      unfold updateAt
      simp only [children, data, hl, List.cons_append, getNames, Dict.lookup_set, if_true]
      exact ih h

/-- Nodes elsewhere keep their own data and the names of their children. -/
theorem other_putChild {t par old : Tree V} {ns : List String} {n : String} (h : getNames t ns = .ok par)
    (ho : par.children.lookup n = some old) (new : Tree V) (ns' : List String) (hne : ¬ (ns ++ [n]) <+: ns') :
    match getNames t ns', getNames (updateAt t ns (putChild n new)).1 ns' with
    | .ok a, .ok b => b.data = a.data ∧ Dict.keys b.children = Dict.keys a.children
    | .error e, .error e' => e' = e
    | _, _ => False := by
  induction ns generalizing t ns' with
  | nil =>
    simp only [getNames, Except.ok.injEq] at h
    subst h
    obtain ⟨d, cs⟩ := t
    simp only [children] at ho
    unfold updateAt putChild
    simp only [children, ho]
    cases ns' with
    | nil =>
      simp only [getNames, data, children, Dict.keys_set]
      refine ⟨trivial, ?_⟩
      rw [if_pos]
      rw [← Dict.lookup_isSome, ho]
      rfl
    | cons m ns' =>
      have hm : m ≠ n := by
        rintro rfl
        exact hne (by simp)
      simp only [getNames, children, Dict.lookup_set, hm, if_false]
      cases hl : List.lookup m cs with
      | none => simp
      | some c =>
        simp only
        cases getNames c ns' <;> simp
  | cons m ns ih =>
    obtain ⟨d, cs⟩ := t
    simp only [getNames, children] at h
    cases hl : cs.lookup m with
    | none => simp [hl] at h
    | some c =>
      simp only [hl] at h
      unfold updateAt
      simp only [children, data, hl]
      cases ns' with
      | nil =>
        simp only [getNames, data, children, Dict.keys_set]
        refine ⟨trivial, ?_⟩
        rw [if_pos]
        rw [← Dict.lookup_isSome, hl]
        rfl
      | cons m' ns' =>
        simp only [getNames, children, Dict.lookup_set]
        by_cases hm : m' = m
        · subst hm
          simp only [if_true, hl]
          refine ih h ns' fun hp => hne ?_
          obtain ⟨r, hr⟩ := hp
          exact ⟨r, by rw [← hr]; simp⟩
        · simp only [hm, if_false]
          cases hl' : List.lookup m' cs with
          | none => simp
          | some c' =>
            simp only
            cases getNames c' ns' <;> simp

/-- **C43 (replacement).** For every path of child names to an existing node, `replace_subtree` succeeds; afterwards
the path leads to the new subtree and everything below it is that of the new subtree; every node not below the path
still exists or is missing as before, with the same data and the same child names. -/
theorem C43_replace {t old new : Tree V} {ns : List String} {n : String} (hn : ∀ m ∈ ns ++ [n], GoodName m)
    (h : getSubtree t (pathOf (ns ++ [n])) = .ok old) :
    ∃ t', replaceSubtree t (pathOf (ns ++ [n])) new = (t', none)
      ∧ getSubtree t' (pathOf (ns ++ [n])) = .ok new
      ∧ (∀ rest, getNames t' (ns ++ [n] ++ rest) = getNames new rest)
      ∧ ∀ ns', ¬ (ns ++ [n]) <+: ns' →
        match getNames t ns', getNames t' ns' with
        | .ok a, .ok b => b.data = a.data ∧ Dict.keys b.children = Dict.keys a.children
        | .error e, .error e' => e' = e
        | _, _ => False := by
  have hns : ∀ m ∈ ns, GoodName m := fun m hm => hn m (by simp [hm])
  have hnn : GoodName n := hn n (by simp)
  have hsplit : ∀ (ns : List String) (t : Tree V), getNames t (ns ++ [n]) = .ok old →
      ∃ par, getNames t ns = .ok par ∧ par.children.lookup n = some old := by
    intro ns
    induction ns with
    | nil =>
      intro t h
      refine ⟨t, rfl, ?_⟩
      simp only [List.nil_append, getNames] at h
      cases hl : t.children.lookup n with
      | none => simp [hl] at h
      | some c => simp only [hl, Except.ok.injEq] at h; rw [h]
    | cons m ns ih =>
      intro t h
      simp only [List.cons_append, getNames] at h
      cases hl : t.children.lookup m with
      | none => simp [hl] at h
      | some c =>
        simp only [hl] at h
        obtain ⟨par, h1, h2⟩ := ih c h
        exact ⟨par, by simp [getNames, hl, h1], h2⟩
  unfold getSubtree at h
  rw [resolve_path hn] at h
  obtain ⟨par, h1, h2⟩ := hsplit ns t h
  obtain ⟨e1, e2⟩ := path_parent (fun m hm => (hns m hm).2) hnn.2
  refine ⟨(replaceSubtree t (pathOf (ns ++ [n])) new).1, ?_, ?_, ?_, ?_⟩
  · unfold replaceSubtree
    rw [e1, e2, resolve_path hns]
    refine Prod.ext rfl ?_
    rw [(updateAt_ok _ h1).1]
    simp [putChild, h2]
  · unfold getSubtree replaceSubtree
    rw [e1, e2, resolve_path hns, resolve_path hn]
    exact getNames_putChild h1 h2 new []
  · intro rest
    unfold replaceSubtree
    rw [e1, e2, resolve_path hns, List.append_assoc]
    exact getNames_putChild h1 h2 new rest
  · intro ns' hne
    unfold replaceSubtree
    rw [e1, e2, resolve_path hns]
    exact other_putChild h1 h2 new ns' hne

/-- **C43 (parameters elsewhere).** `replace_subtree` keeps the value of every parameter that is not below the
replaced node. -/
theorem C43_params {t t' old new : Tree V} {ns : List String} {n : String} (hn : ∀ m ∈ ns ++ [n], GoodName m)
    (h : getSubtree t (pathOf (ns ++ [n])) = .ok old) (hr : replaceSubtree t (pathOf (ns ++ [n])) new = (t', none))
    {ns' : List String} (hne : ¬ (ns ++ [n]) <+: ns') (k : String) : paramAt t' ns' k = paramAt t ns' k := by
  obtain ⟨t1, h1, _, _, h4⟩ := C43_replace (new := new) hn h
  rw [hr] at h1
  cases h1
  have := h4 ns' hne
  unfold paramAt
  cases ha : getNames t ns' with
  | error e =>
    cases hb : getNames t' ns' with
    | error e' => rfl
    | ok b => simp [ha, hb] at this
  | ok a =>
    cases hb : getNames t' ns' with
    | error e' => simp [ha, hb] at this
    | ok b =>
      simp only [ha, hb] at this
      simp only [this.1]

/-- **C43 (failure).** If the addressed node does not exist, `replace_subtree` raises KeyError and leaves the tree
unchanged. -/
theorem C43_missing {t new : Tree V} {ns : List String} {n : String} (hn : ∀ m ∈ ns ++ [n], GoodName m)
    (h : getSubtree t (pathOf (ns ++ [n])) = .error .keyError) :
    replaceSubtree t (pathOf (ns ++ [n])) new = (t, some .keyError) := by
  have hns : ∀ m ∈ ns, GoodName m := fun m hm => hn m (by simp [hm])
  have hnn : GoodName n := hn n (by simp)
  obtain ⟨e1, e2⟩ := path_parent (fun m hm => (hns m hm).2) hnn.2
  unfold getSubtree at h
  rw [resolve_path hn] at h
  unfold replaceSubtree
  rw [e1, e2, resolve_path hns]
  cases hg : getNames t ns with
  | error e => exact updateAt_error _ hg
  | ok par =>
    refine updateAt_same _ hg ?_
    have hl : par.children.lookup n = none := by
      by_contra hc
      obtain ⟨c, hc⟩ := Option.ne_none_iff_exists'.mp hc
      have : ∀ (ns : List String) (t : Tree V), getNames t ns = .ok par → getNames t (ns ++ [n]) = .ok c := by
        intro ns
        induction ns with
        | nil =>
          intro t h
          simp only [getNames, Except.ok.injEq] at h
          subst h
          simp [getNames, hc]
        | cons m ns ih =>
          intro t h
          simp only [List.cons_append, getNames] at h ⊢
          cases hl : t.children.lookup m with
          | none => simp [hl] at h
          | some c' => simp only [hl] at h ⊢; exact ih c' h
      rw [this ns t hg] at h
      cases h
    simp [putChild, hl]

end Tree

end Lumos.Trees
