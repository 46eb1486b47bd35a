import Verif.Tree.Flat
/-!
# Raveling parameter trees (C41)

Models the numpy branch of `ParameterTree.tree_ravel` and `_ravel_flat_dict` (lumos/models/tree_utils.py:182-209,
228-315). Not modelled: casadi values (`_is_casadi_instance`), and the conversion of numbers to a common dtype that
`np.hstack` performs (all numbers have one type `α`).
-/

namespace Lumos.Trees

open Lumos

variable {α : Type}

/-- A number (`shape = []`) or a numpy array, its elements in row-major order. -/
structure NArr (α : Type) where
  /-- `np.shape`. -/
  shape : List Nat
  /-- `np.ravel`. -/
  data : List α
  deriving DecidableEq

namespace NArr

/-- The elements fit the shape: what numpy guarantees for every array. -/
def Valid (a : NArr α) : Prop := a.data.length = a.shape.prod

/-- A number or an array with more than one element. -/
def Good (a : NArr α) : Prop := a.Valid ∧ (a.shape = [] ∨ 1 < a.data.length)

end NArr

/-- `arr[st:en]` (numpy slicing, clamped). -/
def slice (arr : List α) (st en : Nat) : List α := (arr.take en).drop st

/-- `np.cumsum`, started at `st`. -/
def cumsumFrom (st : Nat) : List Nat → List Nat
  | [] => []
  | s :: ss => (st + s) :: cumsumFrom (st + s) ss

/-- `np.split(arr, indices)` (used in tree_utils.py:260-265): the pieces between consecutive indices, the first
starting at 0 and the last ending at the end. -/
def npSplit (arr : List α) (indices : List Nat) : List (List α) :=
  ((0 :: indices).zip (indices ++ [arr.length])).map fun (p : Nat × Nat) => slice arr p.1 p.2

/-- `chunk.reshape(shape) if _size(chunk) > 1 else chunk[0]` (tree_utils.py:307-308): `reshape` raises ValueError when
the sizes differ, `chunk[0]` raises IndexError on an empty chunk. -/
def rebuild (chunk : List α) (shape : List Nat) : Py (NArr α) :=
  if 1 < chunk.length then
    if shape.prod = chunk.length then .ok ⟨shape, chunk⟩ else .error .valueError
  else
    match chunk with
    | [] => .error .indexError
    | x :: _ => .ok ⟨[], [x]⟩

/-- The list comprehension over `zip(chunks, new_shapes)` (tree_utils.py:306-309). -/
def rebuildAll : List (List α × List Nat) → Py (List (NArr α))
  | [] => .ok []
  | (c, s) :: l => do
    let v ← rebuild c s
    let vs ← rebuildAll l
    return v :: vs

/-- `_ravel_flat_dict` (tree_utils.py:277-315): the flat vector and the function that undoes it. -/
def ravelFlatDict (flat : List (String × NArr α)) : List α × (List α → Py (List (String × NArr α))) :=
  match flat with
  | [] => ([], fun _ => .ok [])
  | _ =>
    let keys := flat.map Prod.fst
    let sizes := flat.map fun (kv : String × NArr α) => kv.2.data.length
    let shapes := flat.map fun (kv : String × NArr α) => kv.2.shape
    let indices := cumsumFrom 0 sizes
    let unravel := fun (arr : List α) => do
      let vs ← rebuildAll ((npSplit arr indices.dropLast).zip shapes)
      return keys.zip vs
    ((flat.map fun (kv : String × NArr α) => kv.2.data).flatten, unravel)

/-- The values of a flat dictionary when all are numbers or arrays. Simplification: a parameter value of another kind
makes the model raise TypeError. -/
def flatValues : List (String × PV (NArr α)) → Py (List (String × NArr α))
  | [] => .ok []
  | (k, .val v) :: l => do
    let r ← flatValues l
    return (k, v) :: r
  | _ => .error .typeError

/-- `tree_unflatten` (tree_utils.py:189-193). -/
def treeUnflatten (treeDef : PV (NArr α)) (flatKeys : List String) (children : List (NArr α)) : Py (Tree (NArr α)) :=
  Tree.fromFlatDict .dict treeDef (flatKeys.zip (children.map PV.val))

/-- `tree_ravel` (tree_utils.py:195-209): the flat vector and `unravel_pytree`. -/
def treeRavel (t : Tree (NArr α)) : Py (List α × (List α → Py (Tree (NArr α)))) := do
  let r ← Tree.toFlatDict .dict t
  let flat ← flatValues r.1
  let keys := r.1.map Prod.fst
  let rv := ravelFlatDict flat
  return (rv.1, fun x => do
    let d ← rv.2 x
    treeUnflatten r.2 keys (d.map Prod.snd))

/-! ## Splitting at the cumulated sizes -/

/-- The pieces of the given sizes, the last one taking everything that is left. -/
def pieces : List α → List Nat → List (List α)
  | _, [] => []
  | arr, [_] => [arr]
  | arr, s :: ss => arr.take s :: pieces (arr.drop s) ss

theorem pieces_cons2 (arr : List α) (s s' : Nat) (ss : List Nat) :
    pieces arr (s :: s' :: ss) = arr.take s :: pieces (arr.drop s) (s' :: ss) := rfl

theorem npSplit_aux (arr : List α) (st s : Nat) (ss : List Nat) :
    ((st :: (cumsumFrom st (s :: ss)).dropLast).zip ((cumsumFrom st (s :: ss)).dropLast ++ [arr.length])).map
      (fun (p : Nat × Nat) => slice arr p.1 p.2) = pieces (arr.drop st) (s :: ss) := by
  induction ss generalizing st s with
  | nil => simp [cumsumFrom, pieces, slice]
  | cons s' ss ih =>
    have e : (cumsumFrom st (s :: s' :: ss)).dropLast = (st + s) :: (cumsumFrom (st + s) (s' :: ss)).dropLast := by
      simp [cumsumFrom]
    rw [e, List.cons_append, List.zip_cons_cons, List.map_cons, ih, pieces_cons2, List.drop_drop]
    congr 1
    simp [slice, List.drop_take]

theorem npSplit_eq (arr : List α) (s : Nat) (ss : List Nat) :
    npSplit arr (cumsumFrom 0 (s :: ss)).dropLast = pieces arr (s :: ss) := by
  unfold npSplit
  rw [npSplit_aux]
  rfl

/-- Rebuilding with the right sizes. -/
theorem rebuildAll_ok {l : List (NArr α)} (h : ∀ a ∈ l, a.Good) (hne : l ≠ []) :
    rebuildAll ((pieces (l.map NArr.data).flatten (l.map fun a => a.data.length)).zip (l.map NArr.shape)) = .ok l := by
  induction l with
  | nil => exact absurd rfl hne
  | cons a l ih =>
    have ha := h a (by simp)
    have hr : rebuild a.data a.shape = .ok a := by
      obtain ⟨hv, hs⟩ := ha
      unfold NArr.Valid at hv
      unfold rebuild
      rcases hs with hs | hs
      · rw [hs] at hv
        simp only [List.prod_nil] at hv
        match hd : a.data, hv with
        | [x], _ =>
          obtain ⟨sh, da⟩ := a
          simp only at hs hd
          subst hs hd
          simp
      · rw [if_pos hs, if_pos hv.symm]
    cases l with
    | nil => simp [pieces, rebuildAll, hr, bind, Except.bind, pure, Except.pure]
    | cons b l =>
      have := ih (fun c hc => h c (List.mem_cons_of_mem _ hc)) (by simp)
      simp only [List.map_cons] at this ⊢
      rw [pieces_cons2, List.flatten_cons, List.take_left, List.drop_left, List.zip_cons_cons, rebuildAll, hr, this]
      rfl

theorem zip_fst_snd {β γ : Type} (l : List (β × γ)) : (l.map Prod.fst).zip (l.map Prod.snd) = l := by
  induction l with
  | nil => rfl
  | cons p l ih => simp [ih]

/-- **C41 (flat dictionary).** For every flat dictionary of numbers and arrays with more than one element, the vector
lists the elements of all values in order and `unravel` of it is the dictionary, keys and shapes included. -/
theorem C41_flat_dict {flat : List (String × NArr α)} (h : ∀ kv ∈ flat, kv.2.Good) :
    (ravelFlatDict flat).1 = (flat.map fun (kv : String × NArr α) => kv.2.data).flatten
    ∧ (ravelFlatDict flat).2 (ravelFlatDict flat).1 = .ok flat := by
  cases flat with
  | nil => exact ⟨rfl, rfl⟩
  | cons kv flat =>
    refine ⟨rfl, ?_⟩
    have := rebuildAll_ok (l := (kv :: flat).map Prod.snd) (by
      intro a ha
      obtain ⟨q, hq, rfl⟩ := List.mem_map.mp ha
      exact h q hq) (by simp)
    simp only [List.map_map, Function.comp_def, List.map_cons] at this
    simp only [ravelFlatDict, List.map_cons]
    rw [npSplit_eq, this]
    simp only [bind, Except.bind, pure, Except.pure, Except.ok.injEq, List.zip_cons_cons]
    obtain ⟨k, v⟩ := kv
    congr 1
    exact zip_fst_snd flat

/-- Every vector of the right length cuts into values of the same shapes. -/
theorem exists_values {l : List (NArr α)} (h : ∀ a ∈ l, a.Good) {x : List α}
    (hx : x.length = (l.map fun a => a.data.length).sum) :
    ∃ l' : List (NArr α), l'.map NArr.shape = l.map NArr.shape ∧ (l'.map fun a => a.data.length) = l.map (fun a => a.data.length)
      ∧ (l'.map NArr.data).flatten = x ∧ ∀ a ∈ l', a.Good := by
  induction l generalizing x with
  | nil =>
    refine ⟨[], rfl, rfl, ?_, by simp⟩
    have : x = [] := List.eq_nil_of_length_eq_zero (by simpa using hx)
    simp [this]
  | cons a l ih =>
    simp only [List.map_cons, List.sum_cons] at hx
    obtain ⟨l', h1, h2, h3, h4⟩ := ih (fun b hb => h b (List.mem_cons_of_mem _ hb)) (x := x.drop a.data.length)
      (by rw [List.length_drop]; omega)
    have hl : (x.take a.data.length).length = a.data.length := by rw [List.length_take]; omega
    refine ⟨⟨a.shape, x.take a.data.length⟩ :: l', by simp [h1], by simp [h2]; omega, by simp [h3], ?_⟩
    intro b hb
    rcases List.mem_cons.mp hb with rfl | hb
    · obtain ⟨g1, g2⟩ := h a (by simp)
      unfold NArr.Good NArr.Valid at *
      simp only [hl]
      exact ⟨g1, g2⟩
    · exact h4 b hb

/-- **C41 (every vector).** For every vector of the length of the raveled one, `unravel` returns a dictionary with the
same keys and shapes whose raveled vector is the given one. -/
theorem C41_flat_every_vector {flat : List (String × NArr α)} (h : ∀ kv ∈ flat, kv.2.Good) {x : List α}
    (hx : x.length = (ravelFlatDict flat).1.length) :
    ∃ flat' : List (String × NArr α), (ravelFlatDict flat).2 x = .ok flat' ∧ flat'.map Prod.fst = flat.map Prod.fst
      ∧ flat'.map (fun kv => kv.2.shape) = flat.map (fun kv => kv.2.shape) ∧ (ravelFlatDict flat').1 = x
      ∧ ∀ kv ∈ flat', kv.2.Good := by
  cases flat with
  | nil =>
    refine ⟨[], rfl, rfl, rfl, ?_, by simp⟩
    have : x = [] := List.eq_nil_of_length_eq_zero (by simpa [ravelFlatDict] using hx)
    simp [this, ravelFlatDict]
  | cons kv flat =>
    have hg : ∀ a ∈ (kv :: flat).map Prod.snd, a.Good := by
      intro a ha
      obtain ⟨q, hq, rfl⟩ := List.mem_map.mp ha
      exact h q hq
    obtain ⟨l', h1, h2, h3, h4⟩ := exists_values hg (x := x) (by
      rw [hx, (C41_flat_dict h).1, List.length_flatten]
      simp [List.map_map, Function.comp_def])
    have hlen : l'.length = (kv :: flat).length := by
      have := congrArg List.length h1
      simpa using this
    have hne : l' ≠ [] := by
      intro e
      simp [e] at hlen
    have hr := rebuildAll_ok h4 hne
    rw [h1, h2, h3] at hr
    have hg' : ∀ p ∈ ((kv :: flat).map Prod.fst).zip l', p.2.Good := fun p hp => h4 p.2 (List.of_mem_zip hp).2
    have hsnd : (((kv :: flat).map Prod.fst).zip l').map Prod.snd = l' := by
      rw [List.map_snd_zip]; simp [hlen]
    refine ⟨((kv :: flat).map Prod.fst).zip l', ?_, ?_, ?_, ?_, hg'⟩
    · simp only [List.map_map, Function.comp_def, List.map_cons] at hr
      simp only [ravelFlatDict, List.map_cons]
      rw [npSplit_eq, hr]
      rfl
    · rw [List.map_fst_zip]; simp [hlen]
    · have : (((kv :: flat).map Prod.fst).zip l').map (fun p => p.2.shape) = l'.map NArr.shape := by
        conv_rhs => rw [← hsnd, List.map_map]
        rfl
      rw [this, h1, List.map_map]
      rfl
    · rw [(C41_flat_dict hg').1, ← h3]
      conv_rhs => rw [← hsnd, List.map_map]
      rfl

theorem wrong_length {l : List (NArr α)} (h : ∀ a ∈ l, a.Good) {a : NArr α} (ha : a.Good) {x : List α} {l' : List (NArr α)}
    (hok : rebuildAll ((pieces x ((l ++ [a]).map fun b => b.data.length)).zip ((l ++ [a]).map NArr.shape)) = .ok l') :
    x.length = ((l ++ [a]).map fun b => b.data.length).sum
    ∨ x.length = (l.map fun b => b.data.length).sum + 1 := by
  induction l generalizing x l' with
  | nil =>
    simp only [List.nil_append, List.map_cons, List.map_nil, pieces, List.zip_cons_cons, List.zip_nil_right, rebuildAll,
      bind, Except.bind] at hok
    cases hr : rebuild x a.shape with
    | error e => simp [hr] at hok
    | ok v =>
      unfold rebuild at hr
      by_cases h1 : 1 < x.length
      · rw [if_pos h1] at hr
        by_cases h2 : a.shape.prod = x.length
        · left
          have := ha.1
          unfold NArr.Valid at this
          simp [this, h2]
        · simp [h2] at hr
      · rw [if_neg h1] at hr
        right
        match x, h1, hr with
        | [], _, hr => simp at hr
        | [_], _, _ => simp
        | _ :: _ :: _, h1, _ => simp at h1
  | cons b l ih =>
    have hsplit : ∃ c m, l ++ [a] = c :: m := by
      cases l with
      | nil => exact ⟨a, [], rfl⟩
      | cons c m => exact ⟨c, m ++ [a], rfl⟩
    obtain ⟨c, m, e⟩ := hsplit
    have hih := @ih (fun b hb => h b (List.mem_cons_of_mem _ hb))
    rw [e] at hih
    rw [List.cons_append, e] at hok ⊢
    simp only [List.map_cons] at hok hih ⊢
    rw [pieces_cons2, List.zip_cons_cons, rebuildAll] at hok
    simp only [bind, Except.bind] at hok
    cases hr : rebuild (x.take b.data.length) b.shape with
    | error e => simp [hr] at hok
    | ok v =>
      simp only [hr] at hok
      cases hr2 : rebuildAll ((pieces (x.drop b.data.length) (c.data.length :: m.map fun b => b.data.length)).zip
          (c.shape :: m.map NArr.shape)) with
      | error e => simp [hr2] at hok
      | ok vs =>
        have := hih hr2
        by_cases hlt : b.data.length ≤ x.length
        · rw [List.length_drop] at this
          simp only [List.sum_cons] at this ⊢
          omega
        · have hd : x.drop b.data.length = [] := by
            rw [List.drop_eq_nil_iff]; omega
          rw [hd] at hr2
          exfalso
          cases m with
          | nil => simp [pieces, rebuildAll, rebuild, bind, Except.bind] at hr2
          | cons m0 m => simp [pieces, rebuildAll, rebuild, bind, Except.bind] at hr2

/-- **C41 (wrong length).** If `unravel` accepts a vector then it has the length of the raveled vector or (finding) is
short by exactly the size of the last value minus one; every other vector is rejected. -/
theorem C41_wrong_length {flat : List (String × NArr α)} (h : ∀ kv ∈ flat, kv.2.Good) {k : String} {a : NArr α}
    (ha : a.Good) {x : List α} {r : List (String × NArr α)} (hok : (ravelFlatDict (flat ++ [(k, a)])).2 x = .ok r) :
    x.length = (ravelFlatDict (flat ++ [(k, a)])).1.length
    ∨ x.length + a.data.length = (ravelFlatDict (flat ++ [(k, a)])).1.length + 1 := by
  have hg : ∀ b ∈ flat.map Prod.snd, b.Good := by
    intro b hb
    obtain ⟨q, hq, rfl⟩ := List.mem_map.mp hb
    exact h q hq
  have hlen : (ravelFlatDict (flat ++ [(k, a)])).1.length
      = (flat.map fun (kv : String × NArr α) => kv.2.data.length).sum + a.data.length := by
    cases flat with
    | nil => simp [ravelFlatDict]
    | cons kv flat => simp [ravelFlatDict, List.length_flatten, List.map_map, Function.comp_def]; omega
  have hun : ∃ r, rebuildAll ((pieces x ((flat.map Prod.snd ++ [a]).map fun b => b.data.length)).zip
      ((flat.map Prod.snd ++ [a]).map NArr.shape)) = .ok r := by
    have hs : ∃ kv m, flat ++ [(k, a)] = kv :: m := by
      cases flat with
      | nil => exact ⟨_, _, rfl⟩
      | cons kv m => exact ⟨_, _, rfl⟩
    obtain ⟨kv, m, e⟩ := hs
    have e2 : flat.map Prod.snd ++ [a] = (kv :: m).map Prod.snd := by rw [← e]; simp
    rw [e2]
    rw [e] at hok
    simp only [ravelFlatDict, List.map_cons, bind, Except.bind] at hok
    rw [npSplit_eq] at hok
    simp only [List.map_cons, List.map_map, Function.comp_def]
    split at hok
    · simp at hok
    · exact ⟨_, by assumption⟩
  obtain ⟨r', hr'⟩ := hun
  have := wrong_length hg ha hr'
  rw [hlen]
  simp only [List.map_append, List.map_map, Function.comp_def, List.map_cons, List.map_nil, List.sum_append, List.sum_cons,
    List.sum_nil] at this
  omega

/-- **C41 (finding).** A vector that is too short by the size of the last value minus one is accepted: with one array of
two elements a vector of length one gives a number. -/
theorem C41_short_vector (x : α) (y : α × α) :
    (ravelFlatDict [("k", ⟨[2], [y.1, y.2]⟩)]).2 [x] = .ok [("k", ⟨[], [x]⟩)] := rfl

/-- **C41 (finding).** A one-element array comes back as a number: its shape is lost. -/
theorem C41_one_element (k : String) (x : α) :
    (ravelFlatDict [(k, ⟨[1], [x]⟩)]).2 (ravelFlatDict [(k, ⟨[1], [x]⟩)]).1 = .ok [(k, ⟨[], [x]⟩)] := rfl

/-- **C41 (finding).** An empty array makes `unravel` raise IndexError on the vector that `ravel` gave. -/
theorem C41_empty_array (k : String) : (ravelFlatDict [(k, (⟨[0], []⟩ : NArr α))]).2 (ravelFlatDict [(k, (⟨[0], []⟩ : NArr α))]).1
    = .error .indexError := rfl

/-! ## Trees -/

namespace Tree

/-- All parameters of the tree are numbers or arrays with more than one element. -/
def AllGood (t : Tree (NArr α)) : Prop := ∀ a ∈ leaves .dict t, ∃ v : NArr α, a.2 = .val v ∧ v.Good

/-- The values of a tree, in the order of its flat dictionary. -/
def values (t : Tree (NArr α)) : List (NArr α) :=
  (leaves .dict t).filterMap fun (a : List String × PV (NArr α)) => match a.2 with
    | .val v => some v
    | _ => none

theorem values_spec {t : Tree (NArr α)} (h : AllGood t) :
    (leaves .dict t).map Prod.snd = (values t).map PV.val ∧ ∀ v ∈ values t, v.Good := by
  unfold AllGood at h
  unfold values
  revert h
  generalize leaves .dict t = L
  intro h
  induction L with
  | nil => simp
  | cons a l ih =>
    obtain ⟨v, hv, hg⟩ := h a (by simp)
    obtain ⟨i1, i2⟩ := ih (fun b hb => h b (List.mem_cons_of_mem _ hb))
    simp only [List.map_cons, List.filterMap_cons, hv]
    refine ⟨by rw [i1], ?_⟩
    intro w hw
    rcases List.mem_cons.mp hw with rfl | hw
    · exact hg
    · exact i2 w hw

theorem flatValues_zip (ks : List String) (vs : List (NArr α)) :
    flatValues (ks.zip (vs.map PV.val)) = .ok (ks.zip vs) := by
  induction ks generalizing vs with
  | nil => rfl
  | cons k ks ih =>
    cases vs with
    | nil => rfl
    | cons v vs =>
      simp only [List.map_cons, List.zip_cons_cons, flatValues, ih]
      rfl

/-- What `to_flat_dict` returns. -/
theorem toFlatDict_eq {ty : DataType} {V : Type} {t : Tree V} (h : Named ty t) : toFlatDict ty t
    = .ok ((leaves ty t).map (fun (a : List String × PV V) => (pathOf a.1, a.2)), toDict (relabel ty (.str "*") t)) := by
  obtain ⟨hflat, _⟩ := C39_flat_content h
  obtain ⟨r1, r2, r3, r4⟩ := relabel_facts (.str "*") h
  unfold toFlatDict makeTreeDef
  rw [hflat, C39_dict_round_trip h.wf]
  simp only [bind, Except.bind]
  rw [List.map_map]
  have e : (leaves ty t).map ((fun (kv : String × PV V) => (kv.1, PV.str "*"))
        ∘ fun (a : List String × PV V) => (pathOf a.1, a.2))
      = (leaves ty (relabel ty (.str "*") t)).map fun (a : List String × PV V) => (pathOf a.1, a.2) := by
    rw [r4, List.map_map]
    rfl
  rw [e, setLeaves_eq (leaves_addr r1), setAll_leaves r1 t r2]
  rfl

theorem map_zip_left {β γ δ : Type} (f : β → δ) (l : List β) (ws : List γ) :
    (l.zip ws).map (fun (a : β × γ) => (f a.1, a.2)) = (l.map f).zip ws := by
  induction l generalizing ws with
  | nil => rfl
  | cons a l ih =>
    cases ws with
    | nil => rfl
    | cons w ws => simp [ih]

/-- A tree of the same shape with given values. -/
theorem exists_fill {V : Type} {t : Tree V} (h : Named .dict t) (vs : List (PV V)) (hv : vs.length = (leaves .dict t).length) :
    ∃ u, Named .dict u ∧ SameShape .dict t u ∧ leaves .dict u = ((leaves .dict t).map Prod.fst).zip vs := by
  induction h generalizing vs with
  | node d cs hk hn hd hc ih =>
    obtain ⟨kvs, rfl, hnd, hkv⟩ := hd rfl
    rw [leaves, ownLeaves_dict, List.length_append, List.length_map] at hv
    -- the children
    have kids : ∀ ws : List (PV V), ws.length = (leavesL .dict cs).length → ∃ cs', Dict.keys cs' = Dict.keys cs
        ∧ (∀ p ∈ cs', Named .dict p.2) ∧ SameShapeL .dict cs cs'
        ∧ leavesL .dict cs' = ((leavesL .dict cs).map Prod.fst).zip ws := by
      clear hd hk hn hv
      induction cs with
      | nil => intro ws _; exact ⟨[], rfl, by simp, by simp [SameShapeL], by simp [leavesL]⟩
      | cons p cs ihc =>
        obtain ⟨n, c⟩ := p
        intro ws hw
        rw [leavesL, List.length_append, List.length_map] at hw
        obtain ⟨cs', i1, i2, i3, i4⟩ := ihc (fun p hp => hc p (List.mem_cons_of_mem _ hp))
          (fun p hp => ih p (List.mem_cons_of_mem _ hp)) (ws.drop (leaves .dict c).length) (by rw [List.length_drop]; omega)
        obtain ⟨c', j1, j2, j3⟩ := ih (n, c) (by simp) (ws.take (leaves .dict c).length)
          (by rw [List.length_take]; simp only; omega)
        simp only at j2 j3
        refine ⟨(n, c') :: cs', ?_, ?_, ?_, ?_⟩
        · simpa [Dict.keys] using i1
        · intro p hp
          rcases List.mem_cons.mp hp with rfl | hp
          · exact j1
          · exact i2 p hp
        · rw [SameShapeL]
          exact ⟨rfl, j2, i3⟩
        · rw [leavesL, leavesL, i4, j3, List.map_append]
          conv_rhs => rw [← List.take_append_drop (leaves .dict c).length ws]
          rw [List.zip_append (by rw [List.length_map, List.length_map, List.length_take]; omega)]
          congr 1
          rw [map_zip_left (fun ns : List String => n :: ns), List.map_map, List.map_map]
          rfl
    obtain ⟨cs', k1, k2, k3, k4⟩ := kids (vs.drop kvs.length) (by rw [List.length_drop]; omega)
    have hl : (vs.take kvs.length).length = kvs.length := by rw [List.length_take]; omega
    have hkeys : Dict.keys ((Dict.keys kvs).zip (vs.take kvs.length)) = Dict.keys kvs := by
      unfold Dict.keys
      rw [List.map_fst_zip]
      rw [List.length_map, hl]; exact Nat.le_refl _
    refine ⟨node (.dict ((Dict.keys kvs).zip (vs.take kvs.length))) cs', ?_, ?_, ?_⟩
    · refine .node _ _ (by rw [k1]; exact hk) ?_ ?_ k2
      · intro p hp
        have : p.1 ∈ Dict.keys cs := by rw [← k1]; exact List.mem_map.mpr ⟨p, hp, rfl⟩
        obtain ⟨q, hq, e⟩ := List.mem_map.mp this
        rw [← e]
        exact hn q hq
      · intro _
        refine ⟨_, rfl, by rw [hkeys]; exact hnd, ?_⟩
        intro kv hm
        have : kv.1 ∈ Dict.keys kvs := (List.of_mem_zip (a := kv.1) (b := kv.2) hm).1
        obtain ⟨q, hq, e⟩ := List.mem_map.mp this
        rw [← e]
        exact hkv q hq
    · rw [SameShape]
      exact ⟨fun _ => ⟨_, _, rfl, rfl, hkeys.symm⟩, k3⟩
    · rw [leaves, leaves, k4, ownLeaves_dict, ownLeaves_dict, List.map_append]
      conv_rhs => rw [← List.take_append_drop kvs.length vs]
      rw [List.zip_append (by rw [List.length_map, List.length_map, hl])]
      congr 1
      simp [Dict.keys, List.zip_map_left, List.map_map, Function.comp_def]

theorem length_values {t : Tree (NArr α)} (h : AllGood t) : (values t).length = (leaves .dict t).length := by
  have := congrArg List.length (values_spec h).1
  simpa using this.symm

theorem leaves_zip {t : Tree (NArr α)} (h : AllGood t) :
    (leaves .dict t).map (fun (a : List String × PV (NArr α)) => (pathOf a.1, a.2))
      = ((leaves .dict t).map fun a => pathOf a.1).zip ((values t).map PV.val) := by
  rw [← (values_spec h).1]
  generalize leaves .dict t = L
  induction L with
  | nil => rfl
  | cons a L ih => simp [ih]

/-- What `tree_ravel` returns. -/
theorem treeRavel_eq {t : Tree (NArr α)} (hN : Named .dict t) (h : AllGood t) :
    treeRavel t = .ok ((ravelFlatDict (((leaves .dict t).map fun a => pathOf a.1).zip (values t))).1, fun x => do
      let d ← (ravelFlatDict (((leaves .dict t).map fun a => pathOf a.1).zip (values t))).2 x
      treeUnflatten (toDict (relabel .dict (.str "*") t)) ((leaves .dict t).map fun a => pathOf a.1) (d.map Prod.snd)) := by
  unfold treeRavel
  rw [toFlatDict_eq hN]
  simp only [bind, Except.bind]
  rw [leaves_zip h, flatValues_zip]
  simp only [pure, Except.pure]
  rw [List.map_fst_zip (by rw [List.length_map, List.length_map, length_values h]; exact Nat.le_refl _)]

theorem good_zip {t : Tree (NArr α)} (h : AllGood t) :
    ∀ kv ∈ ((leaves .dict t).map fun a => pathOf a.1).zip (values t), kv.2.Good :=
  fun kv hkv => (values_spec h).2 kv.2 (List.of_mem_zip (a := kv.1) (b := kv.2) hkv).2

theorem zip_data {β : Type} (f : NArr α → β) {t : Tree (NArr α)} (h : AllGood t) :
    (((leaves .dict t).map fun a => pathOf a.1).zip (values t)).map (fun (kv : String × NArr α) => f kv.2)
      = (values t).map f := by
  have : (((leaves .dict t).map fun a => pathOf a.1).zip (values t)).map Prod.snd = values t :=
    List.map_snd_zip (by rw [List.length_map, length_values h]; exact Nat.le_refl _)
  conv_rhs => rw [← this, List.map_map]
  rfl

/-- **C41 (tree round trip).** For every parameter tree whose values are numbers or arrays with more than one element,
`tree_ravel` succeeds; its vector lists the elements of all values in order, so that its length is the sum of their
sizes; and the returned function maps it to the tree. -/
theorem C41_round_trip {t : Tree (NArr α)} (hN : Named .dict t) (h : AllGood t) :
    ∃ x un, treeRavel t = .ok (x, un) ∧ x = ((values t).map NArr.data).flatten
      ∧ x.length = ((values t).map fun v => v.shape.prod).sum ∧ un x = .ok t := by
  refine ⟨_, _, treeRavel_eq hN h, ?_, ?_, ?_⟩
  · rw [(C41_flat_dict (good_zip h)).1, zip_data _ h]
  · rw [(C41_flat_dict (good_zip h)).1, zip_data _ h, List.length_flatten, List.map_map]
    congr 1
    apply List.map_congr_left
    intro v hv
    exact ((values_spec h).2 v hv).1
  · simp only [(C41_flat_dict (good_zip h)).2, bind, Except.bind]
    rw [List.map_snd_zip (by rw [List.length_map, length_values h]; exact Nat.le_refl _)]
    unfold treeUnflatten fromFlatDict
    rw [C39_dict_round_trip (relabel_facts (.str "*") hN).1.wf]
    simp only [bind, Except.bind]
    rw [← leaves_zip h, setLeaves_eq (leaves_addr hN), setAll_leaves hN _ (relabel_facts (.str "*") hN).2.2.1]

/-- **C41 (tree, every vector).** For every vector of the right length the returned function gives a tree of the same
structure, names and value shapes, and raveling that tree gives the vector. -/
theorem C41_every_vector {t : Tree (NArr α)} (hN : Named .dict t) (h : AllGood t) :
    ∃ x₀ un, treeRavel t = .ok (x₀, un) ∧ ∀ x : List α, x.length = x₀.length →
      ∃ u, un x = .ok u ∧ SameShape .dict t u ∧ (values u).map NArr.shape = (values t).map NArr.shape
        ∧ ∃ un', treeRavel u = .ok (x, un') := by
  refine ⟨_, _, treeRavel_eq hN h, ?_⟩
  intro x hx
  obtain ⟨flat', f1, f2, f3, f4, f5⟩ := C41_flat_every_vector (good_zip h) hx
  have hlen : flat'.length = (leaves .dict t).length := by
    have := congrArg List.length f2
    rw [List.length_map, List.length_map, List.length_zip, List.length_map, length_values h] at this
    omega
  obtain ⟨u, u1, u2, u3⟩ := exists_fill hN ((flat'.map Prod.snd).map PV.val) (by simp [hlen])
  have hgood : AllGood u := by
    intro a ha
    rw [u3] at ha
    obtain ⟨_, hm⟩ := List.of_mem_zip (a := a.1) (b := a.2) ha
    obtain ⟨v, hv, e⟩ := List.mem_map.mp hm
    obtain ⟨kv, hkv, rfl⟩ := List.mem_map.mp hv
    exact ⟨kv.2, e.symm, f5 kv hkv⟩
  have hvals : values u = flat'.map Prod.snd := by
    have h1 := (values_spec hgood).1
    rw [u3, List.map_snd_zip (by simp [hlen])] at h1
    exact (List.map_injective_iff.mpr (fun a b e => by simpa using e) h1).symm
  have haddr : (leaves .dict u).map (fun a => pathOf a.1) = (leaves .dict t).map fun a => pathOf a.1 := by
    have : (leaves .dict u).map Prod.fst = (leaves .dict t).map Prod.fst := by
      rw [u3, List.map_fst_zip (by simp [hlen])]
    have e := congrArg (List.map pathOf) this
    rwa [List.map_map, List.map_map] at e
  refine ⟨u, ?_, u2, ?_, ?_⟩
  · simp only [f1, bind, Except.bind]
    unfold treeUnflatten fromFlatDict
    rw [C39_dict_round_trip (relabel_facts (.str "*") hN).1.wf]
    simp only [bind, Except.bind]
    rw [← haddr, ← hvals, ← leaves_zip hgood, setLeaves_eq (leaves_addr u1),
      setAll_leaves u1 _ ((relabel_facts (.str "*") hN).2.2.1.trans u2)]
  · rw [hvals, List.map_map, ← zip_data NArr.shape h, ← f3]
    rfl
  · have hex : ∃ y un', treeRavel u = .ok (y, un') ∧ y = x := by
      refine ⟨_, _, treeRavel_eq u1 hgood, ?_⟩
      rw [haddr, hvals]
      have e : ((leaves .dict t).map fun a => pathOf a.1).zip (flat'.map Prod.snd) = flat' := by
        have : (leaves .dict t).map (fun a => pathOf a.1) = flat'.map Prod.fst := by
          rw [f2, List.map_fst_zip (by rw [List.length_map, length_values h]; exact Nat.le_refl _)]
        rw [this, zip_fst_snd]
      rw [e, f4]
    obtain ⟨y, un', e1, e2⟩ := hex
    exact ⟨un', by rw [e1, e2]⟩

/-- A car with an aero map (a 2×2 array), numbers and a child without parameters. -/
def exArrays : Tree (NArr Nat) :=
  node (.dict [("mass", .val ⟨[], [700]⟩)])
    [("aero", node (.dict [("map", .val ⟨[2, 2], [1, 2, 3, 4]⟩), ("cd", .val ⟨[], [9]⟩)]) []), ("tire", node (.dict []) [])]

theorem exArrays_ok : Named .dict exArrays ∧ AllGood exArrays ∧ (values exArrays).map NArr.data = [[700], [1, 2, 3, 4], [9]] := by
  have goodName : ∀ s ∈ ["aero", "tire"], GoodName s := by
    intro s hs
    rw [GoodName]
    revert s
    decide +kernel
  have dots : ∀ s ∈ ["mass", "map", "cd"], '.' ∉ s.toList := by decide +kernel
  refine ⟨?_, ?_, ?_⟩
  · refine .node _ _ (by decide +kernel) ?_ ?_ ?_
    · intro p hp
      simp only [List.mem_cons, List.not_mem_nil, or_false] at hp
      rcases hp with rfl | rfl
      · exact goodName _ (by simp)
      · exact goodName _ (by simp)
    · intro _
      exact ⟨_, rfl, by decide +kernel, fun kv hkv => by
        rw [List.mem_singleton] at hkv
        subst hkv
        exact dots _ (by simp)⟩
    · intro p hp
      simp only [List.mem_cons, List.not_mem_nil, or_false] at hp
      rcases hp with rfl | rfl
      · refine .node _ _ (by decide +kernel) (by simp) (fun _ => ⟨_, rfl, by decide +kernel, ?_⟩) (by simp)
        intro kv hkv
        simp only [List.mem_cons, List.not_mem_nil, or_false] at hkv
        rcases hkv with rfl | rfl
        · exact dots _ (by simp)
        · exact dots _ (by simp)
      · exact .node _ _ (by decide +kernel) (by simp) (fun _ => ⟨_, rfl, by decide +kernel, by simp⟩) (by simp)
  · intro a ha
    simp only [exArrays, leaves, leavesL, ownLeaves_dict, List.map_cons, List.map_nil, List.append_nil, List.cons_append,
      List.nil_append, List.mem_cons, List.not_mem_nil, or_false] at ha
    rcases ha with rfl | rfl | rfl
    · exact ⟨_, rfl, rfl, .inl rfl⟩
    · exact ⟨_, rfl, rfl, .inr (by decide)⟩
    · exact ⟨_, rfl, rfl, .inl rfl⟩
  · simp [values, exArrays, leaves, leavesL, ownLeaves_dict]

end Tree

end Lumos.Trees
