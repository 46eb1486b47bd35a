import Verif.Tree.CompositionProps
/-!
# Sharing between models, parameter trees and dictionaries (C39, C42)

The value-level model of `Verif/Tree/Composition.lean` says what is read; this file says which Python objects are shared.
A heap holds the dictionaries `_params` / `_data` and numpy arrays, which are mutable; numbers are immutable. `Tree` and
`CompositeModel` objects are Lean values holding the address of their dictionary: every function modelled here creates
new `Tree` objects, so that no `Tree` object is ever shared. Models `set_recursive_params`, `get_recursive_params`
(lumos/models/composition.py:206-231) and the deep copies of `Tree.to_dict` / `Tree.from_dict`
(lumos/models/tree_utils.py:69-93).
-/

namespace Lumos.Trees

open Lumos

variable {V : Type}

/-- A reference stored in a dictionary: a number, or the address of an array. -/
inductive Ref (V : Type)
  | num (v : V)
  | ptr (a : Nat)

/-- A mutable object: an array or a dictionary of parameters. -/
inductive Cell (V : Type)
  | arr (data : List V)
  | dict (items : List (String × Ref V))

/-- The heap; addresses from `next` on are unused. -/
structure Heap (V : Type) where
  /-- The object at an address. -/
  cells : Nat → Cell V
  /-- The first unused address. -/
  next : Nat

namespace Heap

/-- A new object. -/
def alloc (h : Heap V) (c : Cell V) : Heap V × Nat :=
  (⟨fun a => if a = h.next then c else h.cells a, h.next + 1⟩, h.next)

/-- In-place change of an object. -/
def write (h : Heap V) (a : Nat) (c : Cell V) : Heap V := ⟨fun b => if b = a then c else h.cells b, h.next⟩

/-- The items of a dictionary. -/
def items (h : Heap V) (a : Nat) : List (String × Ref V) :=
  match h.cells a with
  | .dict l => l
  | .arr _ => []

/-- The elements of an array. -/
def elems (h : Heap V) (a : Nat) : List V :=
  match h.cells a with
  | .arr l => l
  | .dict _ => []

/-- `d[k] = r` on the dictionary at address `a`: what `set_param` and `_set_leaf` do (tree_utils.py:102). -/
def setItem (h : Heap V) (a : Nat) (k : String) (r : Ref V) : Heap V := h.write a (.dict (Dict.set (h.items a) k r))

/-- `x[:] = data` on the array at address `a`. -/
def setArray (h : Heap V) (a : Nat) (data : List V) : Heap V := h.write a (.arr data)

end Heap

/-- The value of a parameter as read: a number or the elements of an array. -/
inductive Val (V : Type)
  | num (v : V)
  | arr (l : List V)

/-- Reading a reference. -/
def readRef (h : Heap V) : Ref V → Val V
  | .num v => .num v
  | .ptr a => .arr (h.elems a)

/-- Reading a dictionary. -/
def readDict (h : Heap V) (a : Nat) : List (String × PV (Val V)) :=
  (h.items a).map fun (kr : String × Ref V) => (kr.1, .val (readRef h kr.2))

/-- A `ParameterTree` object: the address of `_data`, and `_children`. -/
inductive HTree
  | node (data : Nat) (children : List (String × HTree))

/-- A `CompositeModel` object: its class, the address of `_params`, and `_submodels`. -/
inductive HMod (V : Type)
  | node (cls : ClassDef (Val V)) (params : Nat) (subs : List (String × HMod V))

mutual
/-- What a parameter tree contains. -/
def readTree (h : Heap V) : HTree → Tree (Val V)
  | .node a cs => .node (.dict (readDict h a)) (readTreeL h cs)
/-- See `readTree`. -/
def readTreeL (h : Heap V) : List (String × HTree) → List (String × Tree (Val V))
  | [] => []
  | (n, t) :: cs => (n, readTree h t) :: readTreeL h cs
end

mutual
/-- What a model contains. -/
def readMod (h : Heap V) : HMod V → Mod (Val V)
  | .node c a s => .node c (readDict h a) (readModL h s)
/-- See `readMod`. -/
def readModL (h : Heap V) : List (String × HMod V) → List (String × Mod (Val V))
  | [] => []
  | (n, m) :: s => (n, readMod h m) :: readModL h s
end

/-- `dict.copy()`: a new dictionary with the same references. -/
def copyDict (h : Heap V) (a : Nat) : Heap V × Nat := h.alloc (.dict (h.items a))

mutual
/-- `get_recursive_params` (composition.py:219-231). -/
def getRec (h : Heap V) : HMod V → Heap V × HTree
  | .node c a s =>
    let r := copyDict h a
    if c.isLeaf then (r.1, .node r.2 [])
    else
      let q := getRecL r.1 s
      (q.1, .node r.2 q.2)
/-- The loop of `get_recursive_params`. -/
def getRecL (h : Heap V) : List (String × HMod V) → Heap V × List (String × HTree)
  | [] => (h, [])
  | (n, m) :: s =>
    let r := getRec h m
    let q := getRecL r.1 s
    (q.1, (n, r.2) :: q.2)
end

/-- `_children`. -/
def HTree.children : HTree → List (String × HTree)
  | .node _ cs => cs

/-- Address of `_data`. -/
def HTree.data : HTree → Nat
  | .node a _ => a

mutual
/-- `set_recursive_params` (composition.py:206-217). -/
def setRec (h : Heap V) : HMod V → HTree → Heap V × HMod V × Option PyErr
  | .node c _ s, t =>
    let r := copyDict h t.data
    if c.isLeaf then (r.1, .node c r.2 s, none)
    else
      let q := setRecL r.1 s t
      (q.1, .node c r.2 q.2.1, q.2.2)
/-- The loop of `set_recursive_params`. -/
def setRecL (h : Heap V) : List (String × HMod V) → HTree → Heap V × List (String × HMod V) × Option PyErr
  | [], _ => (h, [], none)
  | (n, m) :: s, t =>
    match t.children.lookup n with
    | none => (h, (n, m) :: s, some .keyError)
    | some c =>
      match setRec h m c with
      | (h', m', some e) => (h', (n, m') :: s, some e)
      | (h', m', none) =>
        let q := setRecL h' s t
        (q.1, (n, m') :: q.2.1, q.2.2)
end

/-- `deepcopy` of the references of a dictionary: arrays are copied. Simplification: `deepcopy` keeps the sharing of an
array that occurs twice, the model copies it twice; what is read is the same. -/
def deepRefs (h : Heap V) : List (String × Ref V) → Heap V × List (String × Ref V)
  | [] => (h, [])
  | (k, .num v) :: l =>
    let q := deepRefs h l
    (q.1, (k, .num v) :: q.2)
  | (k, .ptr a) :: l =>
    let r := h.alloc (.arr (h.elems a))
    let q := deepRefs r.1 l
    (q.1, (k, .ptr r.2) :: q.2)

mutual
/-- The deep copy in `to_dict` and `from_dict` (tree_utils.py:69-93) of the objects below a tree: the nested dictionary
(respectively the new tree) has the same form as the tree. -/
def deepCopy (h : Heap V) : HTree → Heap V × HTree
  | .node a cs =>
    let r := deepRefs h (h.items a)
    let d := r.1.alloc (.dict r.2)
    let q := deepCopyL d.1 cs
    (q.1, .node d.2 q.2)
/-- See `deepCopy`. -/
def deepCopyL (h : Heap V) : List (String × HTree) → Heap V × List (String × HTree)
  | [] => (h, [])
  | (n, t) :: cs =>
    let r := deepCopy h t
    let q := deepCopyL r.1 cs
    (q.1, (n, r.2) :: q.2)
end

/-! ## Frames -/

/-- The heaps agree on all addresses below `n`. -/
def Agree (n : Nat) (h h' : Heap V) : Prop := ∀ a < n, h'.cells a = h.cells a

/-- The dictionary at `a` and the arrays it refers to are below `n`. -/
def DictIn (n : Nat) (h : Heap V) (a : Nat) : Prop :=
  a < n ∧ (∃ l, h.cells a = .dict l) ∧ ∀ kr ∈ h.items a, ∀ b, kr.2 = .ptr b → b < n

mutual
/-- All objects of a tree are below `n`. -/
def TreeIn (n : Nat) (h : Heap V) : HTree → Prop
  | .node a cs => DictIn n h a ∧ TreeInL n h cs
/-- See `TreeIn`. -/
def TreeInL (n : Nat) (h : Heap V) : List (String × HTree) → Prop
  | [] => True
  | (_, t) :: cs => TreeIn n h t ∧ TreeInL n h cs
end

mutual
/-- All objects of a model are below `n`. -/
def ModIn (n : Nat) (h : Heap V) : HMod V → Prop
  | .node _ a s => DictIn n h a ∧ ModInL n h s
/-- See `ModIn`. -/
def ModInL (n : Nat) (h : Heap V) : List (String × HMod V) → Prop
  | [] => True
  | (_, m) :: s => ModIn n h m ∧ ModInL n h s
end

namespace Agree

theorem refl (n : Nat) (h : Heap V) : Agree n h h := fun _ _ => rfl

theorem trans {n k : Nat} {h h' h'' : Heap V} (a : Agree n h h') (b : Agree k h' h'') (hn : n ≤ k) : Agree n h h'' :=
  fun x hx => (b x (Nat.lt_of_lt_of_le hx hn)).trans (a x hx)

theorem alloc (h : Heap V) (c : Cell V) : Agree h.next h (h.alloc c).1 := by
  intro a ha
  simp only [Heap.alloc]
  rw [if_neg (by omega)]

theorem items {n : Nat} {h h' : Heap V} (e : Agree n h h') {a : Nat} (ha : a < n) : h'.items a = h.items a := by
  unfold Heap.items
  rw [e a ha]

theorem elems {n : Nat} {h h' : Heap V} (e : Agree n h h') {a : Nat} (ha : a < n) : h'.elems a = h.elems a := by
  unfold Heap.elems
  rw [e a ha]

theorem readDict {n : Nat} {h h' : Heap V} (e : Agree n h h') {a : Nat} (ha : DictIn n h a) :
    Trees.readDict h' a = Trees.readDict h a := by
  unfold Trees.readDict
  rw [e.items ha.1]
  apply List.map_congr_left
  intro kr hkr
  obtain ⟨k, r⟩ := kr
  cases r with
  | num v => rfl
  | ptr b => simp only [readRef]; rw [e.elems (ha.2.2 _ hkr b rfl)]

theorem dictIn {n : Nat} {h h' : Heap V} (e : Agree n h h') {a : Nat} (ha : DictIn n h a) : DictIn n h' a := by
  refine ⟨ha.1, by rw [e a ha.1]; exact ha.2.1, ?_⟩
  rw [e.items ha.1]
  exact ha.2.2

end Agree

theorem DictIn.mono {n k : Nat} {h : Heap V} {a : Nat} (ha : DictIn n h a) (hn : n ≤ k) : DictIn k h a :=
  ⟨Nat.lt_of_lt_of_le ha.1 hn, ha.2.1, fun kr hkr b hb => Nat.lt_of_lt_of_le (ha.2.2 kr hkr b hb) hn⟩

mutual
theorem frameTree {n k : Nat} {h h' : Heap V} (e : Agree n h h') (hn : n ≤ k) :
    ∀ t, TreeIn n h t → readTree h' t = readTree h t ∧ TreeIn k h' t
  | .node a cs, ht => by
    rw [TreeIn] at ht
    obtain ⟨i1, i2⟩ := frameTreeL e hn cs ht.2
    rw [readTree, readTree, TreeIn, i1, e.readDict ht.1]
    exact ⟨rfl, (e.dictIn ht.1).mono hn, i2⟩
theorem frameTreeL {n k : Nat} {h h' : Heap V} (e : Agree n h h') (hn : n ≤ k) :
    ∀ cs, TreeInL n h cs → readTreeL h' cs = readTreeL h cs ∧ TreeInL k h' cs
  | [], _ => by simp [readTreeL, TreeInL]
  | (m, t) :: cs, ht => by
    rw [TreeInL] at ht
    obtain ⟨i1, i2⟩ := frameTree e hn t ht.1
    obtain ⟨j1, j2⟩ := frameTreeL e hn cs ht.2
    rw [readTreeL, readTreeL, TreeInL, i1, j1]
    exact ⟨rfl, i2, j2⟩
end

mutual
theorem frameMod {n k : Nat} {h h' : Heap V} (e : Agree n h h') (hn : n ≤ k) :
    ∀ m, ModIn n h m → readMod h' m = readMod h m ∧ ModIn k h' m
  | .node c a s, hm => by
    rw [ModIn] at hm
    obtain ⟨i1, i2⟩ := frameModL e hn s hm.2
    rw [readMod, readMod, ModIn, i1, e.readDict hm.1]
    exact ⟨rfl, (e.dictIn hm.1).mono hn, i2⟩
theorem frameModL {n k : Nat} {h h' : Heap V} (e : Agree n h h') (hn : n ≤ k) :
    ∀ s, ModInL n h s → readModL h' s = readModL h s ∧ ModInL k h' s
  | [], _ => by simp [readModL, ModInL]
  | (l, m) :: s, hm => by
    rw [ModInL] at hm
    obtain ⟨i1, i2⟩ := frameMod e hn m hm.1
    obtain ⟨j1, j2⟩ := frameModL e hn s hm.2
    rw [readModL, readModL, ModInL, i1, j1]
    exact ⟨rfl, i2, j2⟩
end

theorem copyDict_spec {h : Heap V} {a : Nat} (ha : DictIn h.next h a) :
    (copyDict h a).1.next = h.next + 1 ∧ Agree h.next h (copyDict h a).1 ∧ (copyDict h a).2 = h.next
    ∧ readDict (copyDict h a).1 (copyDict h a).2 = readDict h a
    ∧ DictIn (copyDict h a).1.next (copyDict h a).1 (copyDict h a).2 := by
  have hi : (copyDict h a).1.items (copyDict h a).2 = h.items a := by
    simp [copyDict, Heap.alloc, Heap.items]
  have hag : Agree h.next h (copyDict h a).1 := .alloc _ _
  refine ⟨rfl, hag, rfl, ?_, ?_, ⟨h.items a, by simp [copyDict, Heap.alloc]⟩, ?_⟩
  · unfold readDict
    rw [hi]
    apply List.map_congr_left
    intro kr hkr
    obtain ⟨k, r⟩ := kr
    cases r with
    | num v => rfl
    | ptr b => simp only [readRef]; rw [hag.elems (ha.2.2 _ hkr b rfl)]
  · show h.next < h.next + 1
    omega
  · rw [hi]
    intro kr hkr b hb
    have := ha.2.2 kr hkr b hb
    show b < h.next + 1
    omega

mutual
/-- All dictionaries of a tree are at addresses from `n` on. -/
def TreeFrom (n : Nat) : HTree → Prop
  | .node a cs => n ≤ a ∧ TreeFromL n cs
/-- See `TreeFrom`. -/
def TreeFromL (n : Nat) : List (String × HTree) → Prop
  | [] => True
  | (_, t) :: cs => TreeFrom n t ∧ TreeFromL n cs
end

mutual
theorem TreeFrom.mono {n k : Nat} (hn : k ≤ n) : ∀ t, TreeFrom n t → TreeFrom k t
  | .node a cs, h => by
    rw [TreeFrom] at h ⊢
    exact ⟨Nat.le_trans hn h.1, TreeFromL.mono hn cs h.2⟩
theorem TreeFromL.mono {n k : Nat} (hn : k ≤ n) : ∀ cs, TreeFromL n cs → TreeFromL k cs
  | [], _ => by simp [TreeFromL]
  | (_, t) :: cs, h => by
    rw [TreeFromL] at h ⊢
    exact ⟨TreeFrom.mono hn t h.1, TreeFromL.mono hn cs h.2⟩
end

mutual
/-- All parameter dictionaries of a model are at addresses from `n` on. -/
def ModFrom (n : Nat) : HMod V → Prop
  | .node _ a s => n ≤ a ∧ ModFromL n s
/-- See `ModFrom`. -/
def ModFromL (n : Nat) : List (String × HMod V) → Prop
  | [] => True
  | (_, m) :: s => ModFrom n m ∧ ModFromL n s
end

mutual
theorem ModFrom.mono {n k : Nat} (hn : k ≤ n) : ∀ m : HMod V, ModFrom n m → ModFrom k m
  | .node _ a s, h => by
    rw [ModFrom] at h ⊢
    exact ⟨Nat.le_trans hn h.1, ModFromL.mono hn s h.2⟩
theorem ModFromL.mono {n k : Nat} (hn : k ≤ n) : ∀ s : List (String × HMod V), ModFromL n s → ModFromL k s
  | [], _ => by simp [ModFromL]
  | (_, m) :: s, h => by
    rw [ModFromL] at h ⊢
    exact ⟨ModFrom.mono hn m h.1, ModFromL.mono hn s h.2⟩
end

mutual
theorem getRec_spec : ∀ (m : HMod V) (h : Heap V), ModIn h.next h m →
    h.next ≤ (getRec h m).1.next ∧ Agree h.next h (getRec h m).1
    ∧ readTree (getRec h m).1 (getRec h m).2 = (readMod h m).getParams
    ∧ TreeIn (getRec h m).1.next (getRec h m).1 (getRec h m).2 ∧ TreeFrom h.next (getRec h m).2
  | .node c a s, h, hm => by
    rw [ModIn] at hm
    obtain ⟨c1, c2, c3, c4, c5⟩ := copyDict_spec hm.1
    rw [getRec]
    by_cases hl : c.isLeaf = true
    · simp only [hl, if_true]
      refine ⟨by omega, c2, ?_, ?_, ?_⟩
      · rw [readTree, readMod, Mod.getParams, c4, if_pos hl, readTreeL]
      · rw [TreeIn, TreeInL]
        exact ⟨c5, trivial⟩
      · rw [TreeFrom, TreeFromL, c3]
        exact ⟨Nat.le_refl _, trivial⟩
    · simp only [hl, Bool.false_eq_true, if_false]
      have hn : h.next ≤ (copyDict h a).1.next := by rw [c1]; exact Nat.le_succ _
      obtain ⟨f1, f2⟩ := frameModL c2 hn s hm.2
      obtain ⟨r1, r2, r3, r4, r5⟩ := getRecL_spec s (copyDict h a).1 f2
      refine ⟨Nat.le_trans hn r1, c2.trans r2 hn, ?_, ?_, ?_⟩
      · rw [readTree, readMod, Mod.getParams, if_neg hl, r3, f1, r2.readDict c5, c4]
      · rw [TreeIn]
        exact ⟨(r2.dictIn c5).mono r1, r4⟩
      · rw [TreeFrom, c3]
        exact ⟨Nat.le_refl _, TreeFromL.mono hn _ r5⟩
theorem getRecL_spec : ∀ (s : List (String × HMod V)) (h : Heap V), ModInL h.next h s →
    h.next ≤ (getRecL h s).1.next ∧ Agree h.next h (getRecL h s).1
    ∧ readTreeL (getRecL h s).1 (getRecL h s).2 = Mod.getParamsL (readModL h s)
    ∧ TreeInL (getRecL h s).1.next (getRecL h s).1 (getRecL h s).2 ∧ TreeFromL h.next (getRecL h s).2
  | [], h, _ => by
    simp [getRecL, readTreeL, readModL, Mod.getParamsL, TreeInL, TreeFromL, Agree.refl]
  | (n, m) :: s, h, hm => by
    rw [ModInL] at hm
    obtain ⟨r1, r2, r3, r4, r5⟩ := getRec_spec m h hm.1
    obtain ⟨f1, f2⟩ := frameModL r2 r1 s hm.2
    obtain ⟨q1, q2, q3, q4, q5⟩ := getRecL_spec s (getRec h m).1 f2
    obtain ⟨g1, g2⟩ := frameTree q2 q1 _ r4
    rw [getRecL]
    simp only
    refine ⟨Nat.le_trans r1 q1, r2.trans q2 r1, ?_, ?_, ?_⟩
    · rw [readTreeL, readModL, Mod.getParamsL, g1, r3, q3, f1]
    · rw [TreeInL]
      exact ⟨g2, q4⟩
    · rw [TreeFromL]
      exact ⟨r5, TreeFromL.mono r1 _ q5⟩
end

theorem lookup_readTreeL (h : Heap V) (cs : List (String × HTree)) (n : String) :
    (readTreeL h cs).lookup n = (cs.lookup n).map (readTree h) := by
  induction cs with
  | nil => simp [readTreeL]
  | cons p cs ih =>
    obtain ⟨k, t⟩ := p
    rw [readTreeL, List.lookup_cons, List.lookup_cons]
    split
    · rfl
    · exact ih

theorem treeIn_lookup {n : Nat} {h : Heap V} {cs : List (String × HTree)} (hc : TreeInL n h cs) {k : String} {t : HTree}
    (hl : cs.lookup k = some t) : TreeIn n h t := by
  induction cs with
  | nil => simp at hl
  | cons p cs ih =>
    obtain ⟨k', t'⟩ := p
    rw [TreeInL] at hc
    rw [List.lookup_cons] at hl
    split at hl
    · simp only [Option.some.injEq] at hl
      rw [← hl]
      exact hc.1
    · exact ih hc.2 hl

mutual
theorem setRec_spec : ∀ (m : HMod V) (t : HTree) (h : Heap V), ModIn h.next h m → TreeIn h.next h t → (readMod h m).WF →
    h.next ≤ (setRec h m t).1.next ∧ Agree h.next h (setRec h m t).1
    ∧ (readMod (setRec h m t).1 (setRec h m t).2.1, (setRec h m t).2.2) = (readMod h m).setParams (readTree h t)
    ∧ ModIn (setRec h m t).1.next (setRec h m t).1 (setRec h m t).2.1
    ∧ ((setRec h m t).2.2 = none → ModFrom h.next (setRec h m t).2.1)
  | .node c a s, t, h, hm, ht, hw => by
    rw [ModIn] at hm
    obtain ⟨b, cs⟩ := t
    rw [TreeIn] at ht
    obtain ⟨c1, c2, c3, c4, c5⟩ := copyDict_spec ht.1
    have hn : h.next ≤ (copyDict h b).1.next := by rw [c1]; exact Nat.le_succ _
    obtain ⟨f1, f2⟩ := frameModL c2 hn s hm.2
    have htree : TreeIn h.next h (.node b cs) := by rw [TreeIn]; exact ht
    obtain ⟨g1, g2⟩ := frameTree c2 hn _ htree
    rw [readMod] at hw
    rw [setRec, readMod]
    simp only [HTree.data]
    have hd : (readTree h (.node b cs)).data = .dict (readDict h b) := by rw [readTree]; rfl
    cases hw with
    | node _ _ _ hlf hk hws =>
    rw [Mod.setParams_node hlf hd]
    by_cases hl : c.isLeaf = true
    · simp only [hl, if_true]
      have hs0 : s = [] := by
        have := hlf hl
        cases s with
        | nil => rfl
        | cons p s => obtain ⟨n, m⟩ := p; rw [readModL] at this; simp at this
      subst hs0
      refine ⟨hn, c2, ?_, ?_, ?_⟩
      · rw [readMod, c4]
        simp [readModL, Mod.setParamsL]
      · rw [ModIn]
        exact ⟨c5, f2⟩
      · intro _
        rw [ModFrom, ModFromL, c3]
        exact ⟨Nat.le_refl _, trivial⟩
    · simp only [hl, Bool.false_eq_true, if_false]
      obtain ⟨r1, r2, r3, r4, r5⟩ := setRecL_spec s (.node b cs) (copyDict h b).1 f2 g2 (by rw [f1]; exact hws)
      refine ⟨Nat.le_trans hn r1, c2.trans r2 hn, ?_, ?_, ?_⟩
      · rw [f1, g1] at r3
        rw [readMod, r2.readDict c5, c4, ← r3]
      · rw [ModIn]
        exact ⟨(r2.dictIn c5).mono r1, r4⟩
      · intro he
        rw [ModFrom, c3]
        exact ⟨Nat.le_refl _, ModFromL.mono hn _ (r5 he)⟩
theorem setRecL_spec : ∀ (s : List (String × HMod V)) (t : HTree) (h : Heap V), ModInL h.next h s → TreeIn h.next h t →
    (∀ q ∈ readModL h s, q.2.WF) →
    h.next ≤ (setRecL h s t).1.next ∧ Agree h.next h (setRecL h s t).1
    ∧ (readModL (setRecL h s t).1 (setRecL h s t).2.1, (setRecL h s t).2.2) = Mod.setParamsL (readModL h s) (readTree h t)
    ∧ ModInL (setRecL h s t).1.next (setRecL h s t).1 (setRecL h s t).2.1
    ∧ ((setRecL h s t).2.2 = none → ModFromL h.next (setRecL h s t).2.1)
  | [], t, h, _, _, _ => by
    simp [setRecL, readModL, Mod.setParamsL, ModInL, ModFromL, Agree.refl]
  | (n, m) :: s, t, h, hm, ht, hw => by
    rw [ModInL] at hm
    rw [readModL] at hw
    rw [setRecL, readModL, Mod.setParamsL]
    have hch : (readTree h t).children.lookup n = (t.children.lookup n).map (readTree h) := by
      obtain ⟨b, cs⟩ := t
      rw [readTree]
      simp only [Tree.children, HTree.children]
      exact lookup_readTreeL h cs n
    rw [hch]
    cases hlk : t.children.lookup n with
    | none =>
      simp only [Option.map_none]
      refine ⟨Nat.le_refl _, Agree.refl _ _, by rw [readModL], ?_, fun e => by simp at e⟩
      rw [ModInL]
      exact hm
    | some ct =>
      simp only [Option.map_some]
      have hct : TreeIn h.next h ct := by
        obtain ⟨b, cs⟩ := t
        rw [TreeIn] at ht
        exact treeIn_lookup ht.2 hlk
      obtain ⟨r1, r2, r3, r4, r5⟩ := setRec_spec m ct h hm.1 hct (hw (n, readMod h m) (by simp))
      obtain ⟨f1, f2⟩ := frameModL r2 r1 s hm.2
      obtain ⟨g1, g2⟩ := frameTree r2 r1 _ ht
      rw [← r3]
      cases hr : setRec h m ct with
      | mk h' mo =>
        obtain ⟨m', o⟩ := mo
        simp only [hr] at r1 r2 r4 r5 f1 f2 g1 g2
        cases o with
        | some e =>
          simp only
          refine ⟨r1, r2, ?_, ?_, fun e => by simp at e⟩
          · rw [readModL, f1]
          · rw [ModInL]
            exact ⟨r4, f2⟩
        | none =>
          simp only
          obtain ⟨q1, q2, q3, q4, q5⟩ := setRecL_spec s t h' f2 g2 (by
            rw [f1]; exact fun q hq => hw q (List.mem_cons_of_mem _ hq))
          obtain ⟨k1, k2⟩ := frameMod q2 q1 m' r4
          refine ⟨Nat.le_trans r1 q1, r2.trans q2 r1, ?_, ?_, ?_⟩
          · rw [f1, g1] at q3
            rw [readModL, k1, ← q3]
          · rw [ModInL]
            exact ⟨k2, q4⟩
          · intro he
            rw [ModFromL]
            exact ⟨r5 rfl, ModFromL.mono r1 _ (q5 he)⟩
end

mutual
/-- The addresses of the dictionaries of a tree: what `set_param` on the tree can write to. -/
def dicts : HTree → List Nat
  | .node a cs => a :: dictsL cs
/-- See `dicts`. -/
def dictsL : List (String × HTree) → List Nat
  | [] => []
  | (_, t) :: cs => dicts t ++ dictsL cs
end

mutual
theorem dicts_from {n : Nat} : ∀ t, TreeFrom n t → ∀ a ∈ dicts t, n ≤ a
  | .node a cs, h, b, hb => by
    rw [TreeFrom] at h
    rw [dicts] at hb
    rcases List.mem_cons.mp hb with rfl | hb
    · exact h.1
    · exact dictsL_from cs h.2 b hb
theorem dictsL_from {n : Nat} : ∀ cs, TreeFromL n cs → ∀ a ∈ dictsL cs, n ≤ a
  | [], _, b, hb => by simp [dictsL] at hb
  | (_, t) :: cs, h, b, hb => by
    rw [TreeFromL] at h
    rw [dictsL] at hb
    rcases List.mem_append.mp hb with hb | hb
    · exact dicts_from t h.1 b hb
    · exact dictsL_from cs h.2 b hb
end

mutual
theorem dicts_in {n : Nat} {h : Heap V} : ∀ t, TreeIn n h t → ∀ a ∈ dicts t, DictIn n h a
  | .node a cs, ht, b, hb => by
    rw [TreeIn] at ht
    rw [dicts] at hb
    rcases List.mem_cons.mp hb with rfl | hb
    · exact ht.1
    · exact dictsL_in cs ht.2 b hb
theorem dictsL_in {n : Nat} {h : Heap V} : ∀ cs, TreeInL n h cs → ∀ a ∈ dictsL cs, DictIn n h a
  | [], _, b, hb => by simp [dictsL] at hb
  | (_, t) :: cs, ht, b, hb => by
    rw [TreeInL] at ht
    rw [dictsL] at hb
    rcases List.mem_append.mp hb with hb | hb
    · exact dicts_in t ht.1 b hb
    · exact dictsL_in cs ht.2 b hb
end

/-- A sequence of item assignments. -/
def setItems (h : Heap V) : List (Nat × String × Ref V) → Heap V
  | [] => h
  | (a, k, r) :: ws => setItems (h.setItem a k r) ws

theorem setItems_agree {n : Nat} (ws : List (Nat × String × Ref V)) (h : Heap V) (hw : ∀ w ∈ ws, n ≤ w.1) :
    Agree n h (setItems h ws) := by
  induction ws generalizing h with
  | nil => exact Agree.refl _ _
  | cons w ws ih =>
    obtain ⟨a, k, r⟩ := w
    have h1 : Agree n h (h.setItem a k r) := by
      intro b hb
      have := hw (a, k, r) (by simp)
      simp only at this
      simp only [Heap.setItem, Heap.write]
      rw [if_neg (by omega)]
    exact h1.trans (ih _ (fun w hw' => hw w (List.mem_cons_of_mem _ hw'))) (Nat.le_refl _)

/-- **C42 (refinement).** On the heap, `get_recursive_params` returns a tree that reads as the value-level model says and
leaves everything that existed unchanged. -/
theorem C42_heap_get {m : HMod V} {h : Heap V} (hm : ModIn h.next h m) :
    readTree (getRec h m).1 (getRec h m).2 = (readMod h m).getParams ∧ Agree h.next h (getRec h m).1
    ∧ readMod (getRec h m).1 m = readMod h m := by
  obtain ⟨h1, h2, h3, _⟩ := getRec_spec m h hm
  exact ⟨h3, h2, (frameMod h2 h1 m hm).1⟩

/-- **C42 (refinement).** On the heap, `set_recursive_params` does what the value-level model says and changes neither the
given tree nor anything else that existed. -/
theorem C42_heap_set {m : HMod V} {t : HTree} {h : Heap V} (hm : ModIn h.next h m) (ht : TreeIn h.next h t)
    (hw : (readMod h m).WF) :
    (readMod (setRec h m t).1 (setRec h m t).2.1, (setRec h m t).2.2) = (readMod h m).setParams (readTree h t)
    ∧ Agree h.next h (setRec h m t).1 ∧ readTree (setRec h m t).1 t = readTree h t := by
  obtain ⟨h1, h2, h3, _⟩ := setRec_spec m t h hm ht hw
  exact ⟨h3, h2, (frameTree h2 h1 t ht).1⟩

/-- **C42 (the returned tree is isolated).** After `t = model.get_recursive_params()`, no sequence of assignments of
parameters in `t` (`set_param`, `t.data[k] = v`) changes the model. -/
theorem C42_returned_isolated {m : HMod V} {h : Heap V} (hm : ModIn h.next h m) (ws : List (Nat × String × Ref V))
    (hw : ∀ w ∈ ws, w.1 ∈ dicts (getRec h m).2) :
    readMod (setItems (getRec h m).1 ws) m = readMod h m := by
  obtain ⟨h1, h2, _, _, h5⟩ := getRec_spec m h hm
  have := setItems_agree (n := h.next) ws (getRec h m).1 (fun w hw' => dicts_from _ h5 w.1 (hw w hw'))
  exact (frameMod (h2.trans this (Nat.le_refl _)) (Nat.le_refl _) m hm).1

mutual
theorem readMod_eq {n : Nat} {h h' : Heap V} (hi : ∀ a, n ≤ a → h'.cells a = h.cells a)
    (he : ∀ a, h'.elems a = h.elems a) : ∀ m : HMod V, ModFrom n m → readMod h' m = readMod h m
  | .node c a s, hm => by
    rw [ModFrom] at hm
    have hitems : h'.items a = h.items a := by
      unfold Heap.items
      rw [hi a hm.1]
    have hd : readDict h' a = readDict h a := by
      unfold readDict
      rw [hitems]
      apply List.map_congr_left
      intro kr _
      obtain ⟨k, r⟩ := kr
      cases r with
      | num v => rfl
      | ptr b => simp only [readRef, he]
    rw [readMod, readMod, hd, readModL_eq hi he s hm.2]
theorem readModL_eq {n : Nat} {h h' : Heap V} (hi : ∀ a, n ≤ a → h'.cells a = h.cells a)
    (he : ∀ a, h'.elems a = h.elems a) : ∀ s : List (String × HMod V), ModFromL n s → readModL h' s = readModL h s
  | [], _ => by simp [readModL]
  | (_, m) :: s, hm => by
    rw [ModFromL] at hm
    rw [readModL, readModL, readMod_eq hi he m hm.1, readModL_eq hi he s hm.2]
end

theorem setItems_below {n : Nat} (ws : List (Nat × String × Ref V)) (h : Heap V)
    (hw : ∀ w ∈ ws, w.1 < n ∧ ∃ l, h.cells w.1 = .dict l) :
    (∀ a, n ≤ a → (setItems h ws).cells a = h.cells a) ∧ ∀ a, (setItems h ws).elems a = h.elems a := by
  induction ws generalizing h with
  | nil => exact ⟨fun _ _ => rfl, fun _ => rfl⟩
  | cons w ws ih =>
    obtain ⟨b, k, r⟩ := w
    obtain ⟨hb, l, hl⟩ := hw (b, k, r) (by simp)
    simp only at hb hl
    have hd : ∀ a l, h.cells a = .dict l → ∃ l', (h.setItem b k r).cells a = .dict l' := by
      intro a l ha
      simp only [Heap.setItem, Heap.write]
      by_cases e : a = b
      · simp [e]
      · simp [e, ha]
    obtain ⟨i1, i2⟩ := ih (h.setItem b k r) (fun w hw' => by
      obtain ⟨h1, l, h2⟩ := hw w (List.mem_cons_of_mem _ hw')
      exact ⟨h1, hd _ _ h2⟩)
    constructor
    · intro a ha
      rw [setItems, i1 a ha]
      simp only [Heap.setItem, Heap.write]
      rw [if_neg (by omega)]
    · intro a
      rw [setItems, i2 a]
      unfold Heap.elems
      simp only [Heap.setItem, Heap.write]
      by_cases e : a = b
      · subst e
        simp [hl]
      · simp [e]

/-- **C42 (the model is isolated from the source).** After a successful `model.set_recursive_params(t)`, no sequence of
assignments of parameters in `t` changes the model. -/
theorem C42_source_isolated {m : HMod V} {t : HTree} {h : Heap V} (hm : ModIn h.next h m) (ht : TreeIn h.next h t)
    (hw : (readMod h m).WF) (hok : (setRec h m t).2.2 = none) (ws : List (Nat × String × Ref V))
    (hws : ∀ w ∈ ws, w.1 ∈ dicts t) :
    readMod (setItems (setRec h m t).1 ws) (setRec h m t).2.1 = readMod (setRec h m t).1 (setRec h m t).2.1 := by
  obtain ⟨h1, h2, _, _, h5⟩ := setRec_spec m t h hm ht hw
  obtain ⟨i1, i2⟩ := setItems_below (n := h.next) ws (setRec h m t).1 (fun w hw' => by
    have hd := dicts_in t ht w.1 (hws w hw')
    refine ⟨hd.1, ?_⟩
    rw [h2 _ hd.1]
    exact hd.2.1)
  exact readMod_eq i1 i2 _ (h5 hok)

/-- **C42 (finding: arrays are shared).** The copies are shallow: writing into an array obtained from the returned tree
changes the model. -/
theorem C42_shared_array (c : ClassDef (Val V)) (hc : c.submodels = []) (x y : V) :
    ∃ (h : Heap V) (m : HMod V), ModIn h.next h m ∧ (readMod h m).WF
      ∧ (readMod h m).getParams = .node (.dict [("map", .val (.arr [x]))]) []
      ∧ ∃ a, Heap.items (getRec h m).1 (getRec h m).2.data = [("map", .ptr a)]
        ∧ (readMod ((getRec h m).1.setArray a [y]) m).getParams = .node (.dict [("map", .val (.arr [y]))]) [] := by
  have hl : c.isLeaf = true := by rw [isLeaf_iff]; exact hc
  refine ⟨⟨fun a => if a = 0 then .arr [x] else .dict [("map", .ptr 0)], 2⟩, .node c 1 [], ?_, ?_, ?_, 0, ?_, ?_⟩
  · rw [ModIn, ModInL]
    refine ⟨⟨by simp, ⟨_, rfl⟩, ?_⟩, trivial⟩
    intro kr hkr b hb
    simp only [Heap.items, Nat.one_ne_zero, if_false, List.mem_singleton] at hkr
    subst hkr
    simp only [Ref.ptr.injEq] at hb
    subst hb
    simp
  · rw [readMod, readModL]
    exact .node _ _ _ (fun _ => rfl) (by simp [Dict.keys]) (by simp)
  · simp [readMod, readModL, Mod.getParams, hl, readDict, Heap.items, readRef, Heap.elems]
  · simp [getRec, hl, copyDict, Heap.alloc, Heap.items, HTree.data]
  · simp [getRec, hl, copyDict, Heap.alloc, Heap.items, readMod, readModL, Mod.getParams, readDict, readRef,
      Heap.elems, Heap.setArray, Heap.write]

/-! ## Deep copies -/

theorem deepRefs_spec (l : List (String × Ref V)) (h : Heap V) (hl : ∀ kr ∈ l, ∀ b, kr.2 = .ptr b → b < h.next) :
    h.next ≤ (deepRefs h l).1.next ∧ Agree h.next h (deepRefs h l).1
    ∧ ((deepRefs h l).2.map fun (kr : String × Ref V) => (kr.1, readRef (deepRefs h l).1 kr.2))
        = (l.map fun (kr : String × Ref V) => (kr.1, readRef h kr.2))
    ∧ ∀ kr ∈ (deepRefs h l).2, ∀ b, kr.2 = .ptr b → h.next ≤ b ∧ b < (deepRefs h l).1.next := by
  induction l generalizing h with
  | nil => simp [deepRefs, Agree.refl]
  | cons kr l ih =>
    obtain ⟨k, r⟩ := kr
    cases r with
    | num v =>
      obtain ⟨i1, i2, i3, i4⟩ := ih h (fun kr hkr => hl kr (List.mem_cons_of_mem _ hkr))
      rw [deepRefs]
      refine ⟨i1, i2, ?_, ?_⟩
      · rw [List.map_cons, List.map_cons, i3]
        rfl
      · intro kr hkr b hb
        rcases List.mem_cons.mp hkr with rfl | hkr
        · simp at hb
        · exact i4 kr hkr b hb
    | ptr a =>
      have ha := hl (k, .ptr a) (by simp) a rfl
      have hag : Agree h.next h (h.alloc (.arr (h.elems a))).1 := .alloc _ _
      obtain ⟨i1, i2, i3, i4⟩ := ih (h.alloc (.arr (h.elems a))).1 (fun kr hkr b hb => by
        have := hl kr (List.mem_cons_of_mem _ hkr) b hb
        show b < h.next + 1
        omega)
      have hn : h.next ≤ (h.alloc (.arr (h.elems a))).1.next := by simp [Heap.alloc]
      have hlt : (h.alloc (.arr (h.elems a))).2 < (h.alloc (.arr (h.elems a))).1.next := by simp [Heap.alloc]
      rw [deepRefs]
      simp only
      refine ⟨Nat.le_trans hn i1, hag.trans i2 hn, ?_, ?_⟩
      · rw [List.map_cons, List.map_cons, i3]
        congr 1
        · simp only [readRef]
          rw [i2.elems hlt]
          simp [Heap.alloc, Heap.elems]
        · apply List.map_congr_left
          intro kr hkr
          obtain ⟨k', r⟩ := kr
          cases r with
          | num v => rfl
          | ptr b => simp only [readRef]; rw [hag.elems (hl _ (List.mem_cons_of_mem _ hkr) b rfl)]
      · intro kr hkr b hb
        rcases List.mem_cons.mp hkr with rfl | hkr
        · simp only [Ref.ptr.injEq] at hb
          subst hb
          exact ⟨by simp [Heap.alloc], Nat.lt_of_lt_of_le hlt i1⟩
        · exact ⟨Nat.le_trans hn (i4 kr hkr b hb).1, (i4 kr hkr b hb).2⟩

mutual
/-- All objects of the tree, dictionaries and arrays, are at addresses from `n` on. -/
def AllFrom (n : Nat) (h : Heap V) : HTree → Prop
  | .node a cs => (n ≤ a ∧ ∀ kr ∈ h.items a, ∀ b, kr.2 = .ptr b → n ≤ b) ∧ AllFromL n h cs
/-- See `AllFrom`. -/
def AllFromL (n : Nat) (h : Heap V) : List (String × HTree) → Prop
  | [] => True
  | (_, t) :: cs => AllFrom n h t ∧ AllFromL n h cs
end

mutual
theorem AllFrom.frame {n k l : Nat} {h h' : Heap V} (e : Agree k h h') (hn : l ≤ n) :
    ∀ t, TreeIn k h t → AllFrom n h t → AllFrom l h' t
  | .node a cs, hi, ht => by
    rw [TreeIn] at hi
    rw [AllFrom] at ht ⊢
    refine ⟨⟨Nat.le_trans hn ht.1.1, ?_⟩, AllFromL.frame e hn cs hi.2 ht.2⟩
    rw [e.items hi.1.1]
    exact fun kr hkr b hb => Nat.le_trans hn (ht.1.2 kr hkr b hb)
theorem AllFromL.frame {n k l : Nat} {h h' : Heap V} (e : Agree k h h') (hn : l ≤ n) :
    ∀ cs, TreeInL k h cs → AllFromL n h cs → AllFromL l h' cs
  | [], _, _ => by simp [AllFromL]
  | (_, t) :: cs, hi, ht => by
    rw [TreeInL] at hi
    rw [AllFromL] at ht ⊢
    exact ⟨AllFrom.frame e hn t hi.1 ht.1, AllFromL.frame e hn cs hi.2 ht.2⟩
end

mutual
theorem deepCopy_spec : ∀ (t : HTree) (h : Heap V), TreeIn h.next h t →
    h.next ≤ (deepCopy h t).1.next ∧ Agree h.next h (deepCopy h t).1
    ∧ readTree (deepCopy h t).1 (deepCopy h t).2 = readTree h t
    ∧ TreeIn (deepCopy h t).1.next (deepCopy h t).1 (deepCopy h t).2
    ∧ AllFrom h.next (deepCopy h t).1 (deepCopy h t).2
  | .node a cs, h, ht => by
    rw [TreeIn] at ht
    obtain ⟨d1, d2, d3, d4⟩ := deepRefs_spec (h.items a) h ht.1.2.2
    rw [deepCopy]
    simp only
    generalize hr : deepRefs h (h.items a) = r at *
    have e1 : Agree r.1.next r.1 (r.1.alloc (.dict r.2)).1 := .alloc _ _
    have n1 : r.1.next ≤ (r.1.alloc (.dict r.2)).1.next := by simp [Heap.alloc]
    have hitems : (r.1.alloc (.dict r.2)).1.items (r.1.alloc (.dict r.2)).2 = r.2 := by simp [Heap.alloc, Heap.items]
    have hD : DictIn (r.1.alloc (.dict r.2)).1.next (r.1.alloc (.dict r.2)).1 (r.1.alloc (.dict r.2)).2 := by
      refine ⟨by simp [Heap.alloc], ⟨r.2, by simp [Heap.alloc]⟩, ?_⟩
      rw [hitems]
      intro kr hkr b hb
      exact Nat.lt_of_lt_of_le (d4 kr hkr b hb).2 n1
    have e2 : Agree h.next h (r.1.alloc (.dict r.2)).1 := d2.trans e1 d1
    obtain ⟨f1, f2⟩ := frameTreeL e2 (Nat.le_trans d1 n1) cs ht.2
    obtain ⟨q1, q2, q3, q4, q5⟩ := deepCopyL_spec cs (r.1.alloc (.dict r.2)).1 f2
    refine ⟨Nat.le_trans (Nat.le_trans d1 n1) q1, e2.trans q2 (Nat.le_trans d1 n1), ?_, ?_, ?_⟩
    · rw [readTree, readTree, q3, f1, q2.readDict hD]
      congr 2
      unfold readDict
      rw [hitems]
      have e3 : (r.2.map fun (kr : String × Ref V) => (kr.1, readRef (r.1.alloc (.dict r.2)).1 kr.2))
          = (r.2.map fun (kr : String × Ref V) => (kr.1, readRef r.1 kr.2)) := by
        apply List.map_congr_left
        intro kr hkr
        obtain ⟨k, x⟩ := kr
        cases x with
        | num v => rfl
        | ptr b => simp only [readRef]; rw [e1.elems (d4 _ hkr b rfl).2]
      rw [d3] at e3
      have := congrArg (List.map fun (kv : String × Val V) => (kv.1, PV.val kv.2)) e3
      rw [List.map_map, List.map_map] at this
      exact this
    · rw [TreeIn]
      exact ⟨(q2.dictIn hD).mono q1, q4⟩
    · rw [AllFrom]
      refine ⟨⟨d1, ?_⟩, AllFromL.frame (Agree.refl _ _) (Nat.le_trans d1 n1) _ q4 q5⟩
      rw [q2.items hD.1, hitems]
      exact fun kr hkr b hb => (d4 kr hkr b hb).1
theorem deepCopyL_spec : ∀ (cs : List (String × HTree)) (h : Heap V), TreeInL h.next h cs →
    h.next ≤ (deepCopyL h cs).1.next ∧ Agree h.next h (deepCopyL h cs).1
    ∧ readTreeL (deepCopyL h cs).1 (deepCopyL h cs).2 = readTreeL h cs
    ∧ TreeInL (deepCopyL h cs).1.next (deepCopyL h cs).1 (deepCopyL h cs).2
    ∧ AllFromL h.next (deepCopyL h cs).1 (deepCopyL h cs).2
  | [], h, _ => by simp [deepCopyL, readTreeL, TreeInL, AllFromL, Agree.refl]
  | (n, t) :: cs, h, ht => by
    rw [TreeInL] at ht
    obtain ⟨r1, r2, r3, r4, r5⟩ := deepCopy_spec t h ht.1
    obtain ⟨f1, f2⟩ := frameTreeL r2 r1 cs ht.2
    obtain ⟨q1, q2, q3, q4, q5⟩ := deepCopyL_spec cs (deepCopy h t).1 f2
    obtain ⟨g1, g2⟩ := frameTree q2 q1 _ r4
    rw [deepCopyL]
    simp only
    refine ⟨Nat.le_trans r1 q1, r2.trans q2 r1, ?_, ?_, ?_⟩
    · rw [readTreeL, readTreeL, g1, r3, q3, f1]
    · rw [TreeInL]
      exact ⟨g2, q4⟩
    · rw [AllFromL]
      exact ⟨AllFrom.frame q2 (Nat.le_refl _) _ r4 r5, AllFromL.frame (Agree.refl _ _) r1 _ q4 q5⟩
end

mutual
theorem readTree_from {n : Nat} {h h' : Heap V} (e : ∀ a, n ≤ a → h'.cells a = h.cells a) :
    ∀ t, AllFrom n h t → readTree h' t = readTree h t
  | .node a cs, ht => by
    rw [AllFrom] at ht
    have hi : h'.items a = h.items a := by
      unfold Heap.items
      rw [e a ht.1.1]
    rw [readTree, readTree, readTreeL_from e cs ht.2]
    congr 2
    unfold readDict
    rw [hi]
    apply List.map_congr_left
    intro kr hkr
    obtain ⟨k, r⟩ := kr
    cases r with
    | num v => rfl
    | ptr b =>
      simp only [readRef, Heap.elems]
      rw [e b (ht.1.2 _ hkr b rfl)]
theorem readTreeL_from {n : Nat} {h h' : Heap V} (e : ∀ a, n ≤ a → h'.cells a = h.cells a) :
    ∀ cs, AllFromL n h cs → readTreeL h' cs = readTreeL h cs
  | [], _ => by simp [readTreeL]
  | (_, t) :: cs, ht => by
    rw [AllFromL] at ht
    rw [readTreeL, readTreeL, readTree_from e t ht.1, readTreeL_from e cs ht.2]
end

/-- **C39 (the dictionary is isolated).** `to_dict` (and `from_dict`) copies everything below: the copy reads the same,
all of its objects, dictionaries and arrays, are new, and whatever is then done to new objects leaves the tree as it was,
and whatever is done to the objects that existed before leaves the copy as it is. -/
theorem C39_copy_isolated {t : HTree} {h : Heap V} (ht : TreeIn h.next h t) :
    readTree (deepCopy h t).1 (deepCopy h t).2 = readTree h t
    ∧ AllFrom h.next (deepCopy h t).1 (deepCopy h t).2
    ∧ (∀ h' : Heap V, (∀ a, a < h.next → h'.cells a = (deepCopy h t).1.cells a) → readTree h' t = readTree h t)
    ∧ (∀ h' : Heap V, (∀ a, h.next ≤ a → h'.cells a = (deepCopy h t).1.cells a) →
        readTree h' (deepCopy h t).2 = readTree h t) := by
  obtain ⟨h1, h2, h3, h4, h5⟩ := deepCopy_spec t h ht
  refine ⟨h3, h5, fun h' e => (frameTree (h2.trans e (Nat.le_refl _)) (Nat.le_refl _) t ht).1, fun h' e => ?_⟩
  rw [readTree_from e _ h5, h3]

end Lumos.Trees
