import Verif.Tree.Props
/-!
# Flat dictionaries of trees (C39, continued)
-/

namespace Lumos.Trees

open Lumos

variable {V : Type}

namespace Tree

/-- The leaves that a node holds itself. -/
def ownLeaves (ty : DataType) (d : PV V) : List (List String × PV V) :=
  match ty, d with
  | .dict, .dict kvs => kvs.map fun (kv : String × PV V) => ([kv.1], kv.2)
  | .dict, _ => []
  | .str, d => [([], d)]

theorem ownLeaves_dict (kvs : List (String × PV V)) :
    ownLeaves .dict (.dict kvs) = kvs.map fun (kv : String × PV V) => ([kv.1], kv.2) := rfl

theorem ownLeaves_str (d : PV V) : ownLeaves .str d = [([], d)] := rfl

mutual
/-- Specification: the leaves of a tree in order, each with its list of names. For a parameter tree (`dict`) a leaf is
one parameter, its names being the child names followed by the key; for a configuration tree (`str`) a leaf is the
data of one node. -/
def leaves (ty : DataType) : Tree V → List (List String × PV V)
  | node d cs => ownLeaves ty d ++ leavesL ty cs
/-- See `leaves`. -/
def leavesL (ty : DataType) : List (String × Tree V) → List (List String × PV V)
  | [] => []
  | (n, c) :: cs => (leaves ty c).map (fun (a : List String × PV V) => (n :: a.1, a.2)) ++ leavesL ty cs
end

/-- The possible name lists of leaves. -/
def Addr (ty : DataType) (ns : List String) : Prop :=
  (ty = .dict → ∃ ms k, ns = ms ++ [k] ∧ (∀ m ∈ ms, GoodName m) ∧ '.' ∉ k.toList)
  ∧ (ty = .str → ∀ m ∈ ns, GoodName m)

theorem Addr.cons {ty : DataType} {n : String} {ns : List String} (hn : GoodName n) (h : Addr ty ns) :
    Addr ty (n :: ns) := by
  constructor
  · intro e
    obtain ⟨ms, k, rfl, h1, h2⟩ := h.1 e
    refine ⟨n :: ms, k, rfl, ?_, h2⟩
    intro m hm
    rcases List.mem_cons.mp hm with rfl | hm
    · exact hn
    · exact h1 m hm
  · intro e m hm
    rcases List.mem_cons.mp hm with rfl | hm
    · exact hn
    · exact h.2 e m hm

theorem mem_leavesL {ty : DataType} {cs : List (String × Tree V)} {a : List String × PV V} (h : a ∈ leavesL ty cs) :
    ∃ p ∈ cs, ∃ b ∈ leaves ty p.2, a = (p.1 :: b.1, b.2) := by
  induction cs with
  | nil => simp [leavesL] at h
  | cons p cs ih =>
    obtain ⟨n, c⟩ := p
    rw [leavesL] at h
    rcases List.mem_append.mp h with h | h
    · obtain ⟨b, hb, rfl⟩ := List.mem_map.mp h
      exact ⟨(n, c), by simp, b, hb, rfl⟩
    · obtain ⟨p, hp, b, hb, e⟩ := ih h
      exact ⟨p, List.mem_cons_of_mem _ hp, b, hb, e⟩

theorem leaves_addr {ty : DataType} {t : Tree V} (h : Named ty t) : ∀ a ∈ leaves ty t, Addr ty a.1 := by
  induction h with
  | node d cs hk hn hd _ ih =>
    intro a ha
    rw [leaves] at ha
    rcases List.mem_append.mp ha with ha | ha
    · cases ty with
      | dict =>
        obtain ⟨kvs, rfl, _, hkv⟩ := hd rfl
        rw [ownLeaves_dict] at ha
        obtain ⟨kv, hkvm, rfl⟩ := List.mem_map.mp ha
        exact ⟨fun _ => ⟨[], kv.1, rfl, by simp, hkv kv hkvm⟩, fun e => by cases e⟩
      | str =>
        rw [ownLeaves_str, List.mem_singleton] at ha
        subst ha
        refine ⟨fun e => (by cases e), fun _ m hm => ?_⟩
        simp at hm
    · obtain ⟨p, hp, b, hb, rfl⟩ := mem_leavesL ha
      exact (ih p hp b hb).cons (hn p hp)

/-- Leaves have different paths. -/
theorem pathOf_inj {ty : DataType} {ns ms : List String} (h1 : Addr ty ns) (h2 : Addr ty ms) (e : pathOf ns = pathOf ms) :
    ns = ms := by
  cases ty with
  | dict =>
    obtain ⟨a, k, rfl, ha, hk⟩ := h1.1 rfl
    obtain ⟨b, l, rfl, hb, hl⟩ := h2.1 rfl
    have s1 := pySplit_join '.' (l := a ++ [k]) (fun s hs => by
      rcases List.mem_append.mp hs with h | h
      · exact (ha s h).2
      · rw [List.mem_singleton.mp h]; exact hk) (by simp)
    have s2 := pySplit_join '.' (l := b ++ [l]) (fun s hs => by
      rcases List.mem_append.mp hs with h | h
      · exact (hb s h).2
      · rw [List.mem_singleton.mp h]; exact hl) (by simp)
    unfold pathOf at e
    rw [← s1, ← s2, e]
  | str => rw [← resolve_path (h1.2 rfl), ← resolve_path (h2.2 rfl), e]

theorem nodup_addrs {ty : DataType} {t : Tree V} (h : Named ty t) : ((leaves ty t).map Prod.fst).Nodup := by
  induction h with
  | node d cs hk hn hd hc ih =>
    rw [leaves, List.map_append, List.nodup_append]
    have hne : ∀ p ∈ cs, ty = .dict → ∀ b ∈ leaves ty p.2, b.1 ≠ [] := by
      intro p hp e b hb hb0
      obtain ⟨ms, k, h1, _⟩ := (leaves_addr (hc p hp) b hb).1 e
      rw [hb0] at h1
      simp at h1
    refine ⟨?_, ?_, ?_⟩
    · cases ty with
      | dict =>
        obtain ⟨kvs, rfl, hnd, _⟩ := hd rfl
        simp only [ownLeaves_dict, List.map_map]
        have : (kvs.map (Prod.fst ∘ fun (kv : String × PV V) => ([kv.1], kv.2))) = (Dict.keys kvs).map fun k => [k] := by
          simp [Dict.keys, List.map_map, Function.comp_def]
        rw [this]
        exact hnd.map fun a b h => by simpa using h
      | str => simp [ownLeaves_str]
    · clear hd
      induction cs with
      | nil => simp [leavesL]
      | cons p cs ihc =>
        obtain ⟨n, c⟩ := p
        unfold Dict.keys at hk ihc
        simp only [List.map_cons, List.nodup_cons] at hk
        rw [leavesL, List.map_append, List.nodup_append]
        refine ⟨?_, ?_, ?_⟩
        · have := ih (n, c) (by simp)
          rw [List.map_map]
          have e : (leaves ty c).map (Prod.fst ∘ fun (a : List String × PV V) => (n :: a.1, a.2))
              = ((leaves ty c).map Prod.fst).map (n :: ·) := by simp [List.map_map, Function.comp_def]
          rw [e]
          exact this.map fun a b h => by simpa using h
        · exact ihc hk.2 (fun p hp => hn p (List.mem_cons_of_mem _ hp)) (fun p hp => hc p (List.mem_cons_of_mem _ hp))
            (fun p hp => ih p (List.mem_cons_of_mem _ hp)) (fun p hp => hne p (List.mem_cons_of_mem _ hp))
        · intro a ha b hb
          simp only [List.map_map, List.mem_map, Function.comp_apply] at ha
          obtain ⟨x, _, rfl⟩ := ha
          obtain ⟨y, hy, rfl⟩ := List.mem_map.mp hb
          obtain ⟨q, hq, z, _, rfl⟩ := mem_leavesL hy
          intro he
          simp only [List.cons.injEq] at he
          exact hk.1 (List.mem_map.mpr ⟨q, hq, he.1.symm⟩)
    · intro a ha b hb hab
      subst hab
      obtain ⟨y, hy, rfl⟩ := List.mem_map.mp hb
      obtain ⟨q, hq, z, hz, rfl⟩ := mem_leavesL hy
      cases ty with
      | dict =>
        obtain ⟨kvs, rfl, _, _⟩ := hd rfl
        simp only [ownLeaves_dict, List.map_map, List.mem_map, Function.comp_apply] at ha
        obtain ⟨kv, _, e⟩ := ha
        simp only [List.cons.injEq] at e
        exact hne q hq rfl z hz e.2.symm
      | str => simp [ownLeaves_str] at ha

/-! ## What the flat dictionary contains -/

/-- Name lists as keys under a prefix: `prefix.names` or `names` when the prefix is empty. -/
def keyUnder (pre : String) (ns : List String) : String := if pre = "" then pathOf ns else pathOf (pre :: ns)

theorem pathOf_cons (n : String) {ns : List String} (h : ns ≠ []) : pathOf (n :: ns) = n ++ "." ++ pathOf ns := by
  apply String.toList_injective
  cases ns with
  | nil => exact absurd rfl h
  | cons m ms => simp [pathOf, pyJoin, joinChars]

theorem addPrefix_eq (d : List (String × PV V)) (pre : String) (hd : (Dict.keys d).Nodup) (hp : pre ≠ "") :
    addPrefix d pre = d.map fun (nv : String × PV V) => (pre ++ "." ++ nv.1, nv.2) := by
  unfold addPrefix
  rw [if_neg hp]
  have inj : Function.Injective fun (k : String) => pre ++ "." ++ k := by
    intro a b h
    have := congrArg String.toList h
    simp only [String.toList_append, List.append_assoc] at this
    exact String.toList_injective (List.append_cancel_left (List.append_cancel_left this))
  have e : d.foldl (fun (acc : List (String × PV V)) (nv : String × PV V) => Dict.set acc (pre ++ "." ++ nv.1) nv.2) []
      = Dict.update [] (d.map fun (nv : String × PV V) => (pre ++ "." ++ nv.1, nv.2)) := by
    unfold Dict.update
    rw [List.foldl_map]
  rw [e, Dict.update_new]
  · simp
  · rw [List.nil_append]
    unfold Dict.keys at hd ⊢
    rw [List.map_map]
    have : (Prod.fst ∘ fun (nv : String × PV V) => (pre ++ "." ++ nv.1, nv.2))
        = (fun (k : String) => pre ++ "." ++ k) ∘ Prod.fst := rfl
    rw [this, ← List.map_map]
    exact hd.map inj

/-- The flat dictionary as a list of entries, before the prefix is applied. -/
def entries (ty : DataType) (t : Tree V) (pre : String) : List (String × PV V) :=
  (leaves ty t).map fun (a : List String × PV V) => (keyUnder pre a.1, a.2)

theorem keyUnder_inj {ty : DataType} {pre : String} (hpre : pre = "" ∨ GoodName pre) {ns ms : List String}
    (h1 : Addr ty ns) (h2 : Addr ty ms) (e : keyUnder pre ns = keyUnder pre ms) : ns = ms := by
  unfold keyUnder at e
  rcases hpre with rfl | hg
  · simp only [if_true] at e
    exact pathOf_inj h1 h2 e
  · rw [if_neg hg.1, if_neg hg.1] at e
    have := pathOf_inj (h1.cons hg) (h2.cons hg) e
    simpa using this

theorem nodup_keys {ty : DataType} {pre : String} (hpre : pre = "" ∨ GoodName pre) {L : List (List String × PV V)}
    (hL : (L.map Prod.fst).Nodup) (ha : ∀ a ∈ L, Addr ty a.1) :
    (Dict.keys (L.map fun (a : List String × PV V) => (keyUnder pre a.1, a.2))).Nodup := by
  unfold Dict.keys
  rw [List.map_map]
  have : (Prod.fst ∘ fun (a : List String × PV V) => (keyUnder pre a.1, a.2)) = (keyUnder pre) ∘ Prod.fst := rfl
  rw [this, ← List.map_map]
  refine hL.map_on ?_
  intro x hx y hy e
  obtain ⟨a, haL, rfl⟩ := List.mem_map.mp hx
  obtain ⟨b, hbL, rfl⟩ := List.mem_map.mp hy
  exact keyUnder_inj hpre (ha a haL) (ha b hbL) e

theorem makeFlatDict_eq {ty : DataType} {t : Tree V} (h : Named ty t) (pre : String) (hpre : pre = "" ∨ GoodName pre) :
    makeFlatDict ty t pre = .ok (entries ty t pre) := by
  induction h generalizing pre with
  | node d cs hk hn hd hc ih =>
    have hN : Named ty (node d cs) := .node d cs hk hn hd hc
    have hnd := nodup_addrs hN
    have hadr := leaves_addr hN
    -- the entries of the node itself
    have own : ∃ L0, leaves ty (node d cs) = L0 ++ leavesL ty cs ∧
        makeFlatDict ty (node d cs) pre
          = makeFlatDictL ty cs pre (L0.map fun (a : List String × PV V) => (keyUnder pre a.1, a.2)) := by
      cases ty with
      | dict =>
        obtain ⟨kvs, rfl, hkn, _⟩ := hd rfl
        refine ⟨kvs.map fun (kv : String × PV V) => ([kv.1], kv.2), rfl, ?_⟩
        rw [makeFlatDict]
        congr 1
        rw [List.map_map]
        rcases hpre with rfl | hg
        · unfold addPrefix
          simp only [if_true]
          have : kvs = kvs.map id := by simp
          rw [this]
          simp only [List.map_map]
          refine List.map_congr_left fun kv _ => ?_
          simp [keyUnder, pathOf, pyJoin_one]
        · rw [addPrefix_eq kvs pre hkn hg.1]
          refine List.map_congr_left fun kv _ => ?_
          simp only [Function.comp_apply, keyUnder, if_neg hg.1]
          rw [pathOf_cons pre (by simp)]
          simp [pathOf, pyJoin_one]
      | str =>
        refine ⟨[([], d)], rfl, ?_⟩
        rw [makeFlatDict]
        · congr 1
          simp only [List.map_cons, List.map_nil, keyUnder]
          rcases hpre with rfl | hg
          · rfl
          · rw [if_neg hg.1]
            simp [pathOf, pyJoin_one]
    obtain ⟨L0, hL0, hm⟩ := own
    rw [hm]
    -- the loop over the children
    have loop : ∀ (done : List (List String × PV V)) (rest : List (String × Tree V)),
        ((done ++ leavesL ty rest).map Prod.fst).Nodup → (∀ a ∈ done ++ leavesL ty rest, Addr ty a.1) →
        (∀ p ∈ rest, GoodName p.1) → (∀ p ∈ rest, Named ty p.2) →
        (∀ p ∈ rest, ∀ pre, pre = "" ∨ GoodName pre → makeFlatDict ty p.2 pre = .ok (entries ty p.2 pre)) →
        makeFlatDictL ty rest pre (done.map fun (a : List String × PV V) => (keyUnder pre a.1, a.2))
          = .ok ((done ++ leavesL ty rest).map fun (a : List String × PV V) => (keyUnder pre a.1, a.2)) := by
      intro done rest
      induction rest generalizing done with
      | nil => intro _ _ _ _ _; simp [makeFlatDictL, leavesL]
      | cons p rest ihr =>
        obtain ⟨n, c⟩ := p
        intro h1 h2 h3 h4 h5
        have hgn : GoodName n := h3 (n, c) (by simp)
        have hNc : Named ty c := h4 (n, c) (by simp)
        rw [makeFlatDictL, h5 (n, c) (by simp) n (Or.inr hgn)]
        simp only
        have hent : addPrefix (entries ty c n) pre
            = ((leaves ty c).map fun (a : List String × PV V) => (n :: a.1, a.2)).map
                fun (a : List String × PV V) => (keyUnder pre a.1, a.2) := by
          have hkn : (Dict.keys (entries ty c n)).Nodup := nodup_keys (ty := ty) (Or.inr hgn) (nodup_addrs hNc) (leaves_addr hNc)
          rcases hpre with rfl | hg
          · unfold addPrefix entries
            simp only [if_true, List.map_map]
            refine List.map_congr_left fun a _ => ?_
            simp [keyUnder, hgn.1]
          · rw [addPrefix_eq _ pre hkn hg.1]
            unfold entries
            simp only [List.map_map]
            refine List.map_congr_left fun a _ => ?_
            simp only [Function.comp_apply, keyUnder, if_neg hgn.1, if_neg hg.1]
            rw [pathOf_cons pre (by simp)]
        rw [leavesL, ← List.append_assoc] at h1 h2
        rw [hent, Dict.update_new, ← List.map_append, leavesL, ← List.append_assoc]
        · exact ihr _ h1 h2 (fun p hp => h3 p (List.mem_cons_of_mem _ hp)) (fun p hp => h4 p (List.mem_cons_of_mem _ hp))
            (fun p hp => h5 p (List.mem_cons_of_mem _ hp))
        · rw [← List.map_append]
          refine nodup_keys (ty := ty) hpre ?_ ?_
          · rw [List.map_append] at h1
            exact (List.nodup_append.mp h1).1
          · exact fun a ha => h2 a (List.mem_append_left _ ha)
    have := loop L0 cs (by rw [← hL0]; exact hnd) (by rw [← hL0]; exact hadr) hn hc ih
    rw [this, ← hL0]
    rfl

/-- **C39 (content of the flat dictionary).** For every tree whose names are non-empty and without dots, the flat
dictionary has one entry per leaf (parameter, or node of a configuration tree), in order, whose key is the path of the
leaf; all keys are different. -/
theorem C39_flat_content {ty : DataType} {t : Tree V} (h : Named ty t) :
    makeFlatDict ty t "" = .ok ((leaves ty t).map fun (a : List String × PV V) => (pathOf a.1, a.2))
    ∧ ((leaves ty t).map fun (a : List String × PV V) => pathOf a.1).Nodup := by
  have h1 := makeFlatDict_eq h "" (Or.inl rfl)
  have h2 := nodup_keys (ty := ty) (pre := "") (Or.inl rfl) (nodup_addrs h) (leaves_addr h)
  refine ⟨h1, ?_⟩
  simpa [Dict.keys, List.map_map, Function.comp_def, keyUnder] using h2

/-! ## Setting leaves -/

/-- `_set_leaf` at a list of names. -/
def setA (ty : DataType) (t : Tree V) (ns : List String) (v : PV V) : Tree V × Option PyErr :=
  match ty with
  | .str => updateAt t ns (putData v)
  | .dict => updateAt t ns.dropLast (putKey (ns.getLastD "") v)

theorem setLeaf_eq {ty : DataType} {ns : List String} (h : Addr ty ns) (t : Tree V) (v : PV V) :
    setLeaf ty t (pathOf ns) v = setA ty t ns v := by
  cases ty with
  | str => simp only [setLeaf, setA, resolve_path (h.2 rfl)]
  | dict =>
    obtain ⟨ms, k, rfl, h1, h2⟩ := h.1 rfl
    obtain ⟨e1, e2⟩ := path_parent (fun m hm => (h1 m hm).2) h2
    simp only [setLeaf, setA, e1, e2, resolve_path h1]
    simp

/-- Setting a list of leaves. -/
def setAllA (ty : DataType) (t : Tree V) : List (List String × PV V) → Py (Tree V)
  | [] => .ok t
  | (ns, v) :: L =>
    match setA ty t ns v with
    | (_, some e) => .error e
    | (t', none) => setAllA ty t' L

theorem setLeaves_eq {ty : DataType} {L : List (List String × PV V)} (h : ∀ a ∈ L, Addr ty a.1) (t : Tree V) :
    setLeaves ty t (L.map fun (a : List String × PV V) => (pathOf a.1, a.2)) = setAllA ty t L := by
  induction L generalizing t with
  | nil => rfl
  | cons a L ih =>
    obtain ⟨ns, v⟩ := a
    rw [List.map_cons, setLeaves, setAllA, setLeaf_eq (h (ns, v) (by simp))]
    cases hs : setA ty t ns v with
    | mk t' o =>
      cases o with
      | some e => rfl
      | none => exact ih (fun a ha => h a (List.mem_cons_of_mem _ ha)) t'

theorem setAllA_append (ty : DataType) (t : Tree V) (L M : List (List String × PV V)) :
    setAllA ty t (L ++ M) = (setAllA ty t L).bind fun t' => setAllA ty t' M := by
  induction L generalizing t with
  | nil => rfl
  | cons a L ih =>
    obtain ⟨ns, v⟩ := a
    rw [List.cons_append, setAllA, setAllA]
    cases hs : setA ty t ns v with
    | mk t' o =>
      cases o with
      | some e => rfl
      | none => exact ih t'

theorem setA_cons {ty : DataType} {d : PV V} {cs : List (String × Tree V)} {n : String} {c : Tree V}
    (hl : cs.lookup n = some c) {ns : List String} (h : Addr ty ns) (v : PV V) :
    setA ty (node d cs) (n :: ns) v = (node d (Dict.set cs n (setA ty c ns v).1), (setA ty c ns v).2) := by
  cases ty with
  | str => simp [setA, updateAt, children, data, hl]
  | dict =>
    obtain ⟨ms, k, rfl, _, _⟩ := h.1 rfl
    have e1 : (n :: (ms ++ [k])).dropLast = n :: ms := by
      rw [← List.cons_append, List.dropLast_concat]
    have e2 : (n :: (ms ++ [k])).getLastD "" = k := by
      rw [← List.cons_append, List.getLastD_eq_getLast?, List.getLast?_concat]; rfl
    have e3 : (ms ++ [k]).getLastD "" = k := by simp
    simp only [setA, e1, e2, e3, List.dropLast_concat, updateAt, children, data, hl]

/-- Setting leaves of one child. -/
theorem setAllA_child {ty : DataType} {d : PV V} {cs : List (String × Tree V)} {n : String} {c c2 : Tree V}
    (hl : cs.lookup n = some c) {L : List (List String × PV V)} (hL : ∀ a ∈ L, Addr ty a.1)
    (h : setAllA ty c L = .ok c2) :
    setAllA ty (node d cs) (L.map fun (a : List String × PV V) => (n :: a.1, a.2)) = .ok (node d (Dict.set cs n c2)) := by
  induction L generalizing c cs with
  | nil =>
    simp only [setAllA, Except.ok.injEq] at h
    subst h
    simp [setAllA, Dict.set_same hl]
  | cons a L ih =>
    obtain ⟨ns, v⟩ := a
    rw [setAllA] at h
    rw [List.map_cons, setAllA, setA_cons hl (hL (ns, v) (by simp))]
    cases hs : setA ty c ns v with
    | mk c1 o =>
      cases o with
      | some e => simp [hs] at h
      | none =>
        simp only [hs] at h
        simp only
        have hl' : (Dict.set cs n c1).lookup n = some c1 := by rw [Dict.lookup_set]; simp
        rw [ih hl' (fun a ha => hL a (List.mem_cons_of_mem _ ha)) h, Dict.set_set]

mutual
/-- Two trees with the same names of children everywhere and, for parameter trees, the same keys. -/
def SameShape (ty : DataType) : Tree V → Tree V → Prop
  | node d' cs', node d cs =>
    (ty = .dict → ∃ kvs' kvs, d' = .dict kvs' ∧ d = .dict kvs ∧ Dict.keys kvs' = Dict.keys kvs) ∧ SameShapeL ty cs' cs
/-- See `SameShape`. -/
def SameShapeL (ty : DataType) : List (String × Tree V) → List (String × Tree V) → Prop
  | [], [] => True
  | (n', c') :: cs', (n, c) :: cs => n' = n ∧ SameShape ty c' c ∧ SameShapeL ty cs' cs
  | _, _ => False
end

theorem sameShapeL_iff {ty : DataType} {cs' cs : List (String × Tree V)} :
    SameShapeL ty cs' cs ↔ List.Forall₂ (fun (p' p : String × Tree V) => p'.1 = p.1 ∧ SameShape ty p'.2 p.2) cs' cs := by
  induction cs' generalizing cs with
  | nil => cases cs <;> simp [SameShapeL]
  | cons p' cs' ih =>
    cases cs with
    | nil => simp [SameShapeL]
    | cons p cs =>
      obtain ⟨n', c'⟩ := p'
      obtain ⟨n, c⟩ := p
      simp [SameShapeL, ih, and_assoc]

theorem SameShape.node {ty : DataType} (d' d : PV V) (cs' cs : List (String × Tree V))
    (hd : ty = .dict → ∃ kvs' kvs, d' = .dict kvs' ∧ d = .dict kvs ∧ Dict.keys kvs' = Dict.keys kvs)
    (h : List.Forall₂ (fun (p' p : String × Tree V) => p'.1 = p.1 ∧ SameShape ty p'.2 p.2) cs' cs) :
    SameShape ty (Tree.node d' cs') (Tree.node d cs) := by
  rw [SameShape]
  exact ⟨hd, sameShapeL_iff.mpr h⟩

/-- Setting all keys of a dictionary. -/
theorem setAll_keys (cs : List (String × Tree V)) (done rest' rest : List (String × PV V))
    (hk : Dict.keys rest' = Dict.keys rest) (hn : (Dict.keys (done ++ rest)).Nodup) :
    setAllA .dict (node (.dict (done ++ rest')) cs) (rest.map fun (kv : String × PV V) => ([kv.1], kv.2))
      = .ok (node (.dict (done ++ rest)) cs) := by
  induction rest generalizing done rest' with
  | nil =>
    have : rest' = [] := by simpa [Dict.keys] using hk
    subst this
    simp [setAllA]
  | cons p rest ih =>
    obtain ⟨k, v⟩ := p
    cases rest' with
    | nil => simp [Dict.keys] at hk
    | cons q rest' =>
      obtain ⟨k', v'⟩ := q
      unfold Dict.keys at hk
      simp only [List.map_cons, List.cons.injEq] at hk
      obtain ⟨rfl, hk⟩ := hk
      have hnk : k' ∉ Dict.keys done := by
        unfold Dict.keys at hn ⊢
        simp only [List.map_append, List.map_cons] at hn
        rw [List.nodup_append] at hn
        intro hm
        exact hn.2.2 k' hm k' (List.mem_cons_self ..) rfl
      rw [List.map_cons, setAllA]
      have : setA .dict (node (.dict (done ++ (k', v') :: rest')) cs) [k'] v
          = (node (.dict (done ++ (k', v) :: rest')) cs, none) := by
        simp only [setA, List.dropLast_singleton, List.getLastD_cons, List.getLastD_nil, updateAt, putKey, data, children]
        rw [Dict.set_append _ _ _ _ hnk]
        simp [Dict.set]
      rw [this]
      simp only
      have e : ∀ r : List (String × PV V), done ++ (k', v) :: r = (done ++ [(k', v)]) ++ r := by simp
      rw [e rest', e rest, ih (done ++ [(k', v)]) rest' hk (by rw [← e]; exact hn)]

/-- Writing the leaves of `t` into a tree of the same shape gives `t`. -/
theorem setAll_leaves {ty : DataType} {t : Tree V} (hN : Named ty t) :
    ∀ t', SameShape ty t' t → setAllA ty t' (leaves ty t) = .ok t := by
  induction hN with
  | node d cs hk hn hd hc ih =>
    intro t' hS
    obtain ⟨d', cs'⟩ := t'
    rw [SameShape, sameShapeL_iff] at hS
    obtain ⟨hdd, hF⟩ := hS
    · -- the goal
      rw [leaves, setAllA_append]
      -- own data
      have own : setAllA ty (node d' cs') (ownLeaves ty d) = .ok (node d cs') := by
        cases ty with
        | dict =>
          obtain ⟨kvs', kvs, rfl, rfl, hkk⟩ := hdd rfl
          obtain ⟨_, e, hnk, _⟩ := hd rfl
          cases e
          have := setAll_keys cs' [] kvs' kvs hkk (by simpa using hnk)
          simpa [ownLeaves_dict] using this
        | str => simp [ownLeaves_str, setAllA, setA, updateAt, putData, children]
      rw [own]
      simp only [Except.bind]
      -- children
      have loop : ∀ (done rest' rest : List (String × Tree V)), (Dict.keys (done ++ rest)).Nodup →
          List.Forall₂ (fun p' p => p'.1 = p.1 ∧ SameShape ty p'.2 p.2) rest' rest →
          (∀ p ∈ rest, ∀ t', SameShape ty t' p.2 → setAllA ty t' (leaves ty p.2) = .ok p.2) →
          (∀ p ∈ rest, Named ty p.2) →
          setAllA ty (node d (done ++ rest')) (leavesL ty rest) = .ok (node d (done ++ rest)) := by
        intro done rest' rest
        induction rest generalizing done rest' with
        | nil =>
          intro _ hF _ _
          cases hF
          simp [leavesL, setAllA]
        | cons p rest ihr =>
          obtain ⟨n, c⟩ := p
          intro h1 hF h3 h4
          cases hF with
          | cons hp hF' =>
            rename_i q rest''
            obtain ⟨n', c'⟩ := q
            obtain ⟨hnn, hS⟩ := hp
            simp only at hnn hS
            subst hnn
            have hnk : n' ∉ Dict.keys done := by
              unfold Dict.keys at h1 ⊢
              simp only [List.map_append, List.map_cons] at h1
              rw [List.nodup_append] at h1
              intro hm
              exact h1.2.2 n' hm n' (List.mem_cons_self ..) rfl
            have hl : (done ++ (n', c') :: rest'').lookup n' = some c' := by
              have : ∀ l : List (String × Tree V), n' ∉ Dict.keys l →
                  (l ++ (n', c') :: rest'').lookup n' = some c' := by
                intro l
                induction l with
                | nil => intro _; simp [Dict.lookup_cons]
                | cons a l ih =>
                  obtain ⟨a1, a2⟩ := a
                  intro hm
                  unfold Dict.keys at hm ih
                  simp only [List.map_cons, List.mem_cons, not_or] at hm
                  rw [List.cons_append, Dict.lookup_cons, if_neg hm.1]
                  exact ih hm.2
              exact this done hnk
            have hNc : Named ty c := h4 (n', c) (by simp)
            have hset := setAllA_child (d := d) hl (leaves_addr hNc) (h3 (n', c) (by simp) c' hS)
            rw [leavesL, setAllA_append, hset]
            simp only [Except.bind]
            rw [Dict.set_append _ _ _ _ hnk]
            simp only [Dict.set, if_true]
            have e : ∀ r : List (String × Tree V), done ++ (n', c) :: r = (done ++ [(n', c)]) ++ r := by simp
            rw [e rest'', e rest]
            refine ihr (done ++ [(n', c)]) rest'' ?_ hF' (fun p hp => h3 p (List.mem_cons_of_mem _ hp))
              (fun p hp => h4 p (List.mem_cons_of_mem _ hp))
            rw [← e]
            exact h1
      have := loop [] cs' cs (by simpa using hk) hF ih hc
      simpa using this

/-- The data of a node with every leaf replaced by `v`. -/
def relabelData (ty : DataType) (v d : PV V) : PV V :=
  match ty, d with
  | .dict, .dict kvs => .dict (kvs.map fun (kv : String × PV V) => (kv.1, v))
  | .dict, d => d
  | .str, _ => v

mutual
/-- The tree with every leaf replaced by `v`. -/
def relabel (ty : DataType) (v : PV V) : Tree V → Tree V
  | node d cs =>
    node (relabelData ty v d) (relabelL ty v cs)
/-- See `relabel`. -/
def relabelL (ty : DataType) (v : PV V) : List (String × Tree V) → List (String × Tree V)
  | [] => []
  | (n, c) :: cs => (n, relabel ty v c) :: relabelL ty v cs
end

theorem relabelL_eq (ty : DataType) (v : PV V) (cs : List (String × Tree V)) :
    relabelL ty v cs = cs.map fun (p : String × Tree V) => (p.1, relabel ty v p.2) := by
  induction cs with
  | nil => simp [relabelL]
  | cons p cs ih => obtain ⟨n, c⟩ := p; simp [relabelL, ih]

theorem relabel_facts {ty : DataType} (v : PV V) {t : Tree V} (h : Named ty t) :
    Named ty (relabel ty v t) ∧ SameShape ty t (relabel ty v t) ∧ SameShape ty (relabel ty v t) t
    ∧ leaves ty (relabel ty v t) = (leaves ty t).map fun (a : List String × PV V) => (a.1, v) := by
  induction h with
  | node d cs hk hn hd hc ih =>
    rw [relabel, relabelL_eq]
    refine ⟨?_, ?_, ?_, ?_⟩
    · refine .node _ _ ?_ ?_ ?_ ?_
      · unfold Dict.keys at hk ⊢
        rw [List.map_map]
        exact hk
      · intro p hp
        obtain ⟨q, hq, rfl⟩ := List.mem_map.mp hp
        exact hn q hq
      · intro e
        subst e
        obtain ⟨kvs, rfl, h1, h2⟩ := hd rfl
        refine ⟨_, rfl, ?_, ?_⟩
        · unfold Dict.keys at h1 ⊢
          rw [List.map_map]
          exact h1
        · intro kv hkv
          obtain ⟨q, hq, rfl⟩ := List.mem_map.mp hkv
          exact h2 q hq
      · intro p hp
        obtain ⟨q, hq, rfl⟩ := List.mem_map.mp hp
        exact (ih q hq).1
    · refine .node _ _ _ _ ?_ ?_
      · intro e
        subst e
        obtain ⟨kvs, rfl, h1, h2⟩ := hd rfl
        exact ⟨kvs, _, rfl, rfl, by simp [Dict.keys, List.map_map, Function.comp_def]⟩
      · rw [List.forall₂_map_right_iff, List.forall₂_same]
        exact fun p hp => ⟨rfl, (ih p hp).2.1⟩
    · refine .node _ _ _ _ ?_ ?_
      · intro e
        subst e
        obtain ⟨kvs, rfl, h1, h2⟩ := hd rfl
        exact ⟨_, kvs, rfl, rfl, by simp [Dict.keys, List.map_map, Function.comp_def]⟩
      · rw [List.forall₂_map_left_iff, List.forall₂_same]
        exact fun p hp => ⟨rfl, (ih p hp).2.2.1⟩
    · rw [leaves, leaves, List.map_append]
      congr 1
      · cases ty with
        | dict =>
          obtain ⟨kvs, rfl, h1, h2⟩ := hd rfl
          simp [relabelData, ownLeaves_dict, List.map_map, Function.comp_def]
        | str => simp [relabelData, ownLeaves_str]
      · clear hd hk
        induction cs with
        | nil => simp [leavesL]
        | cons p cs ihc =>
          obtain ⟨n, c⟩ := p
          rw [List.map_cons, leavesL, leavesL, List.map_append,
            ihc (fun p hp => hn p (List.mem_cons_of_mem _ hp)) (fun p hp => hc p (List.mem_cons_of_mem _ hp))
              (fun p hp => ih p (List.mem_cons_of_mem _ hp))]
          congr 1
          have := (ih (n, c) (by simp)).2.2.2
          simp only at this
          rw [this, List.map_map, List.map_map]
          rfl

/-- **C39 (flat round trip).** For every tree whose names are non-empty and without dots, `to_flat_dict` succeeds and
`from_flat_dict` of its result is the tree, for parameter trees and for configuration trees. -/
theorem C39_flat_round_trip {ty : DataType} {t : Tree V} (h : Named ty t) :
    ∃ flat td, toFlatDict ty t = .ok (flat, td) ∧ fromFlatDict ty td flat = .ok t := by
  obtain ⟨hflat, _⟩ := C39_flat_content h
  obtain ⟨r1, r2, r3, r4⟩ := relabel_facts (.str "*") h
  have hdef : makeTreeDef ty t = .ok (toDict (relabel ty (.str "*") t)) := by
    unfold makeTreeDef
    rw [hflat, C39_dict_round_trip h.wf]
    simp only [bind, Except.bind]
    rw [List.map_map]
    have e : (leaves ty t).map ((fun (kv : String × PV V) => (kv.1, PV.str "*"))
          ∘ fun (a : List String × PV V) => (pathOf a.1, a.2))
        = (leaves ty (relabel ty (.str "*") t)).map fun (a : List String × PV V) => (pathOf a.1, a.2) := by
      rw [r4, List.map_map]
      rfl
    rw [e, setLeaves_eq (leaves_addr r1), setAll_leaves r1 t r2]
    rfl
  refine ⟨(leaves ty t).map fun (a : List String × PV V) => (pathOf a.1, a.2), toDict (relabel ty (.str "*") t), ?_, ?_⟩
  · unfold toFlatDict
    rw [hflat, hdef]
    rfl
  · unfold fromFlatDict
    rw [C39_dict_round_trip r1.wf]
    simp only [bind, Except.bind]
    rw [setLeaves_eq (leaves_addr h), setAll_leaves h _ r3]

theorem SameShape.trans {ty : DataType} {t u w : Tree V} (h1 : SameShape ty t u) (h2 : SameShape ty u w) :
    SameShape ty t w := by
  match t, u, w, h1, h2 with
  | .node d1 c1, .node d2 c2, .node d3 c3, h1, h2 =>
    rw [SameShape] at h1 h2 ⊢
    refine ⟨fun e => ?_, transL h1.2 h2.2⟩
    obtain ⟨a, b, e1, e2, e3⟩ := h1.1 e
    obtain ⟨b', c, e2', e4, e5⟩ := h2.1 e
    rw [e2, PV.dict.injEq] at e2'
    subst e2'
    exact ⟨a, c, e1, e4, e3.trans e5⟩
where
  /-- See `SameShape.trans`. -/
  transL {ty : DataType} {a b c : List (String × Tree V)} (h1 : SameShapeL ty a b) (h2 : SameShapeL ty b c) :
      SameShapeL ty a c := by
    match a, b, c, h1, h2 with
    | [], [], [], _, _ => simp [SameShapeL]
    | [], [], _ :: _, _, h2 => simp [SameShapeL] at h2
    | [], _ :: _, _, h1, _ => simp [SameShapeL] at h1
    | _ :: _, [], _, h1, _ => simp [SameShapeL] at h1
    | _ :: _, _ :: _, [], _, h2 => simp [SameShapeL] at h2
    | (n1, t1) :: a, (n2, t2) :: b, (n3, t3) :: c, h1, h2 =>
      rw [SameShapeL] at h1 h2 ⊢
      exact ⟨h1.1.trans h2.1, SameShape.trans h1.2.1 h2.2.1, transL h1.2.2 h2.2.2⟩

/-- **C39 (new values).** With the tree definition of `t`, `from_flat_dict` accepts the flat dictionary of every tree of
the same shape and returns that tree: the tree definition carries the shape only. -/
theorem C39_flat_other_values {ty : DataType} {t u : Tree V} (h : Named ty t) (hu : Named ty u)
    (hs0 : SameShape ty t u) :
    ∃ flat td flat' td', toFlatDict ty t = .ok (flat, td) ∧ toFlatDict ty u = .ok (flat', td')
      ∧ fromFlatDict ty td flat' = .ok u := by
  have hs : SameShape ty (relabel ty (.str "*") t) u := (relabel_facts (.str "*") h).2.2.1.trans hs0
  have key : ∀ {t : Tree V}, Named ty t → toFlatDict ty t
      = .ok ((leaves ty t).map (fun (a : List String × PV V) => (pathOf a.1, a.2)), toDict (relabel ty (.str "*") t)) := by
    intro t h
    obtain ⟨hflat, _⟩ := C39_flat_content h
    obtain ⟨r1, r2, r3, r4⟩ := relabel_facts (.str "*") h
    unfold toFlatDict makeTreeDef
    rw [hflat, C39_dict_round_trip h.wf]
    simp only [bind, Except.bind]
    rw [List.map_map]
    have e : (leaves ty t).map ((fun (kv : String × PV V) => (kv.1, PV.str "*"))
          ∘ fun (a : List String × PV V) => (pathOf a.1, a.2))
        = (leaves ty (relabel ty (.str "*") t)).map fun (a : List String × PV V) => (pathOf a.1, a.2) := by
      rw [r4, List.map_map]
      rfl
    rw [e, setLeaves_eq (leaves_addr r1), setAll_leaves r1 t r2]
    rfl
  refine ⟨_, _, _, _, key h, key hu, ?_⟩
  unfold fromFlatDict
  rw [C39_dict_round_trip (relabel_facts (.str "*") h).1.wf]
  simp only [bind, Except.bind]
  rw [setLeaves_eq (leaves_addr hu), setAll_leaves hu _ hs]

/-! ## Findings and non-vacuity -/

/-- **C39 (finding: a dot in a key).** A root parameter whose key contains a dot makes `to_flat_dict` raise KeyError. -/
theorem C39_dot_in_key (v : V) : toFlatDict .dict (node (.dict [("a.b", .val v)]) []) = .error .keyError := by
  have hf : makeFlatDict .dict (node (.dict [("a.b", PV.val v)]) []) "" = .ok [("a.b", .val v)] := by
    rw [makeFlatDict, makeFlatDictL]; rfl
  have hd : makeTreeDef .dict (node (.dict [("a.b", PV.val v)]) []) = .error .keyError := by
    unfold makeTreeDef
    rw [hf, C39_dict_round_trip (.node _ _ (by simp [Dict.keys]) (by simp))]
    simp only [bind, Except.bind, List.map_cons, List.map_nil, setLeaves, setLeaf]
    have e : resolve (pathParent "a.b" '.') '.' = ["a"] := by decide +kernel
    rw [e]
    simp [updateAt, children]
  unfold toFlatDict
  rw [hf, hd]
  rfl

/-- **C39 (finding: an empty child name).** With a child named by the empty string, the flat round trip raises nothing
and silently overwrites the root's parameter by the child's parameter of the same key. -/
theorem C39_empty_child_name (v w : V) :
    ∃ flat td, toFlatDict .dict (node (.dict [("k", .val v)]) [("", node (.dict [("k", .val w)]) [])]) = .ok (flat, td)
      ∧ fromFlatDict .dict td flat = .ok (node (.dict [("k", .val w)]) [("", node (.dict [("k", .val w)]) [])]) := by
  have hf : makeFlatDict .dict (node (.dict [("k", .val v)]) [("", node (.dict [("k", .val w)]) [])]) ""
      = .ok [("k", .val w)] := by
    rw [makeFlatDict, makeFlatDictL, makeFlatDict, makeFlatDictL]
    simp [makeFlatDictL, addPrefix, Dict.update, Dict.set]
  have hr : resolve (pathParent "k" '.') '.' = [] := by decide +kernel
  have hk : pathKey "k" '.' = "k" := by decide +kernel
  have wf : ∀ a b : PV V, WF (node (.dict [("k", a)]) [("", node (.dict [("k", b)]) [])]) := by
    intro a b
    refine .node _ _ (by simp [Dict.keys]) ?_
    intro p hp
    rw [List.mem_singleton] at hp
    subst hp
    exact .node _ _ (by simp [Dict.keys]) (by simp)
  have hset : ∀ a b c : PV V, setLeaves .dict (node (.dict [("k", a)]) [("", node (.dict [("k", b)]) [])]) [("k", c)]
      = .ok (node (.dict [("k", c)]) [("", node (.dict [("k", b)]) [])]) := by
    intro a b c
    simp [setLeaves, setLeaf, hr, hk, updateAt, putKey, data, children, Dict.set]
  refine ⟨[("k", .val w)], toDict (node (.dict [("k", .str "*")]) [("", node (.dict [("k", .val w)]) [])]), ?_, ?_⟩
  · unfold toFlatDict makeTreeDef
    rw [hf, C39_dict_round_trip (wf _ _)]
    simp only [bind, Except.bind, List.map_cons, List.map_nil]
    rw [hset]
    rfl
  · unfold fromFlatDict
    rw [C39_dict_round_trip (wf _ _)]
    simp only [bind, Except.bind]
    rw [hset]

/-- A car with an aero package: two levels, several parameters. -/
def exParams : Tree Nat :=
  node (.dict [("mass", .val 700), ("height", .val 3)])
    [("aero", node (.dict [("cd", .val 1)]) [("drs", node (.dict [("gain", .val 2), ("on", .val 0)]) [])]),
     ("tire", node (.dict []) [])]

theorem exParams_named : Named .dict exParams := by
  have good : ∀ s ∈ ["aero", "drs", "tire"], GoodName s := by
    intro s hs
    simp only [List.mem_cons, List.not_mem_nil, or_false] at hs
    rcases hs with rfl | rfl | rfl <;> exact ⟨by decide, by decide +kernel⟩
  refine .node _ _ (by decide +kernel) ?_ (fun _ => ⟨_, rfl, by decide +kernel, ?_⟩) ?_
  · intro p hp
    simp only [List.mem_cons, List.not_mem_nil, or_false] at hp
    rcases hp with rfl | rfl
    · exact good _ (by simp)
    · exact good _ (by simp)
  · intro kv hkv
    simp only [List.mem_cons, List.not_mem_nil, or_false] at hkv
    rcases hkv with rfl | rfl <;> decide +kernel
  · intro p hp
    simp only [List.mem_cons, List.not_mem_nil, or_false] at hp
    rcases hp with rfl | rfl
    · refine .node _ _ (by decide +kernel) ?_ (fun _ => ⟨_, rfl, by decide +kernel, ?_⟩) ?_
      · intro p hp
        rw [List.mem_singleton] at hp
        subst hp
        exact good _ (by simp)
      · intro kv hkv
        rw [List.mem_singleton] at hkv
        subst hkv
        decide +kernel
      · intro p hp
        rw [List.mem_singleton] at hp
        subst hp
        refine .node _ _ (by simp [Dict.keys]) (by simp) (fun _ => ⟨_, rfl, by decide +kernel, ?_⟩) (by simp)
        intro kv hkv
        simp only [List.mem_cons, List.not_mem_nil, or_false] at hkv
        rcases hkv with rfl | rfl <;> decide +kernel
    · exact .node _ _ (by simp [Dict.keys]) (by simp) (fun _ => ⟨_, rfl, by simp [Dict.keys], by simp⟩) (by simp)

example : (leaves .dict exParams).map (fun a => pathOf a.1) = ["mass", "height", "aero.cd", "aero.drs.gain", "aero.drs.on"] := by
  decide +kernel

end Tree

end Lumos.Trees
