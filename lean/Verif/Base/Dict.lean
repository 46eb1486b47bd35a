import Verif.Base.Py
import Mathlib.Data.List.Nodup
import Mathlib.Data.List.Basic
/-!
# Python dictionaries with string keys and Python string splitting

Models the Python runtime, not lumos itself. A dictionary is the list of its items in insertion order.
-/

namespace Lumos

/-- A Python `dict` with string keys, as its items in insertion order. -/
abbrev Dict (α : Type) := List (String × α)

namespace Dict

variable {α : Type}

/-- `d[k] = v`: overwrite in place or append. -/
def set (d : Dict α) (k : String) (v : α) : Dict α :=
  match d with
  | [] => [(k, v)]
  | (k', v') :: d => if k' = k then (k', v) :: d else (k', v') :: set d k v

/-- `d[k]`: KeyError when missing. -/
def get (d : Dict α) (k : String) : Py α :=
  match d.lookup k with
  | some v => .ok v
  | none => .error .keyError

/-- `d.update(e)`. -/
def update (d e : Dict α) : Dict α := e.foldl (fun (acc : Dict α) (kv : String × α) => acc.set kv.1 kv.2) d

/-- The keys, in order. -/
def keys (d : Dict α) : List String := d.map Prod.fst

theorem lookup_cons (k k' : String) (v : α) (d : Dict α) :
    List.lookup k ((k', v) :: d) = if k = k' then some v else d.lookup k := by
  rw [List.lookup_cons]
  by_cases h : k = k'
  · simp [h]
  · have hb : (k == k') = false := by simpa using h
    simp [h, hb]

theorem lookup_set (d : Dict α) (k k' : String) (v : α) :
    (d.set k v).lookup k' = if k' = k then some v else d.lookup k' := by
  induction d with
  | nil => simp [set, lookup_cons]
  | cons p d ih =>
    obtain ⟨a, b⟩ := p
    unfold set
    by_cases h : a = k
    · subst h
      simp only [if_true, lookup_cons]
      split_ifs <;> rfl
    · simp only [h, if_false, lookup_cons, ih]
      by_cases h2 : k' = a
      · subst h2; simp [h]
      · simp [h2]

theorem keys_set (d : Dict α) (k : String) (v : α) :
    (d.set k v).keys = if k ∈ d.keys then d.keys else d.keys ++ [k] := by
  induction d with
  | nil => simp [set, keys]
  | cons p d ih =>
    obtain ⟨a, b⟩ := p
    unfold set
    by_cases h : a = k
    · subst h; simp [keys]
    · simp only [h, if_false]
      unfold keys at ih ⊢
      simp only [List.map_cons, ih, List.mem_cons, Ne.symm h, false_or]
      split_ifs <;> simp

theorem nodup_set {d : Dict α} (h : d.keys.Nodup) (k : String) (v : α) : (d.set k v).keys.Nodup := by
  rw [keys_set]
  split_ifs with hk
  · exact h
  · rw [List.nodup_append]
    exact ⟨h, by simp, by intro a ha b hb; rw [List.mem_singleton.mp hb]; rintro rfl; exact hk ha⟩

theorem lookup_isSome (d : Dict α) (k : String) : (d.lookup k).isSome ↔ k ∈ d.keys := by
  induction d with
  | nil => simp [keys]
  | cons p d ih =>
    obtain ⟨a, b⟩ := p
    rw [lookup_cons]
    unfold keys at ih ⊢
    by_cases h : k = a <;> simp [h, ih]

theorem lookup_none (d : Dict α) (k : String) : d.lookup k = none ↔ k ∉ d.keys := by
  rw [← lookup_isSome]; cases d.lookup k <;> simp

theorem mem_of_lookup {d : Dict α} {k : String} {v : α} (h : d.lookup k = some v) : (k, v) ∈ d := by
  induction d with
  | nil => simp at h
  | cons p d ih =>
    obtain ⟨a, b⟩ := p
    rw [lookup_cons] at h
    by_cases h2 : k = a
    · simp [h2] at h; simp [h, h2]
    · simp [h2] at h; exact List.mem_cons_of_mem _ (ih h)

theorem lookup_of_mem {d : Dict α} (hd : d.keys.Nodup) {k : String} {v : α} (h : (k, v) ∈ d) : d.lookup k = some v := by
  induction d with
  | nil => simp at h
  | cons p d ih =>
    obtain ⟨a, b⟩ := p
    rw [lookup_cons]
    unfold keys at hd ih
    simp only [List.map_cons, List.nodup_cons] at hd
    rcases List.mem_cons.mp h with h1 | h1
    · cases h1; simp
    · have : k ≠ a := by
        rintro rfl
        exact hd.1 (List.mem_map.mpr ⟨_, h1, rfl⟩)
      simp [this, ih hd.2 h1]

/-- Two dictionaries with the same keys in the same order and the same look-ups are equal. -/
theorem ext {d e : Dict α} (hk : d.keys = e.keys) (hd : d.keys.Nodup) (h : ∀ k, d.lookup k = e.lookup k) : d = e := by
  induction d generalizing e with
  | nil => cases e with
    | nil => rfl
    | cons _ _ => simp [keys] at hk
  | cons p d ih =>
    obtain ⟨a, b⟩ := p
    cases e with
    | nil => simp [keys] at hk
    | cons q e =>
      obtain ⟨a', b'⟩ := q
      unfold keys at hk hd ih
      simp only [List.map_cons, List.cons.injEq, List.nodup_cons] at hk hd
      obtain ⟨rfl, hk⟩ := hk
      have h1 := h a
      simp only [lookup_cons, if_true, Option.some.injEq] at h1
      subst h1
      congr 1
      refine ih hk hd.2 fun k => ?_
      have h2 := h k
      simp only [lookup_cons] at h2
      by_cases hka : k = a
      · subst hka
        have e1 : d.lookup k = none := by
          rw [lookup_none]; exact hd.1
        have e2 : e.lookup k = none := by
          rw [lookup_none]; unfold keys; rw [← hk]; exact hd.1
        rw [e1, e2]
      · simpa [hka] using h2

theorem set_same {d : Dict α} {k : String} {v : α} (h : d.lookup k = some v) : d.set k v = d := by
  induction d with
  | nil => simp at h
  | cons p d ih =>
    obtain ⟨a, b⟩ := p
    rw [lookup_cons] at h
    unfold set
    by_cases h2 : a = k
    · subst h2; simp at h; simp [h]
    · simp [Ne.symm h2] at h; simp [h2, ih h]

theorem set_set (d : Dict α) (k : String) (v w : α) : (d.set k v).set k w = d.set k w := by
  induction d with
  | nil => simp [set]
  | cons p d ih =>
    obtain ⟨a, b⟩ := p
    by_cases h : a = k
    · subst h; simp [set]
    · simp [set, h, ih]

theorem set_append (d e : Dict α) (k : String) (v : α) (h : k ∉ d.keys) :
    (d ++ e).set k v = d ++ e.set k v := by
  induction d with
  | nil => rfl
  | cons p d ih =>
    obtain ⟨a, b⟩ := p
    unfold keys at h ih
    simp only [List.map_cons, List.mem_cons, not_or] at h
    simp only [List.cons_append, set, Ne.symm h.1, if_false, ih h.2]

theorem set_new (d : Dict α) (k : String) (v : α) (h : k ∉ d.keys) : d.set k v = d ++ [(k, v)] := by
  have := set_append d [] k v h
  simpa [set] using this

/-- Updating with new, distinct keys appends. -/
theorem update_new (d e : Dict α) (h : (d ++ e).keys.Nodup) : d.update e = d ++ e := by
  induction e generalizing d with
  | nil => simp [update]
  | cons p e ih =>
    obtain ⟨k, v⟩ := p
    have hk : k ∉ d.keys := by
      unfold keys at h ⊢
      simp only [List.map_append, List.map_cons] at h
      rw [List.nodup_append] at h
      intro hm
      exact h.2.2 k hm k (List.mem_cons_self ..) rfl
    have : d.update ((k, v) :: e) = (d.set k v).update e := rfl
    rw [this, set_new d k v hk, ih]
    · simp
    · unfold keys at h ⊢
      simpa using h

end Dict

/-! ## Strings -/

/-- `s.split(c)` on characters, for a one-character delimiter. -/
def splitChars (c : Char) : List Char → List (List Char)
  | [] => [[]]
  | x :: xs =>
    if x = c then [] :: splitChars c xs
    else match splitChars c xs with
      | [] => [[x]]
      | h :: t => (x :: h) :: t

/-- `c.join(l)` on characters. -/
def joinChars (c : Char) : List (List Char) → List Char
  | [] => []
  | [l] => l
  | l :: l' :: ls => l ++ c :: joinChars c (l' :: ls)

/-- `s.split(c)` for a one-character delimiter. Simplification: longer delimiters are not modelled. -/
def pySplit (c : Char) (s : String) : List String := (splitChars c s.toList).map String.ofList

/-- `c.join(l)`. -/
def pyJoin (c : Char) (l : List String) : String := String.ofList (joinChars c (l.map String.toList))

theorem splitChars_ne_nil (c : Char) (l : List Char) : splitChars c l ≠ [] := by
  cases l with
  | nil => simp [splitChars]
  | cons x xs =>
    unfold splitChars
    split_ifs
    · simp
    · split <;> simp

theorem pySplit_ne_nil (c : Char) (s : String) : pySplit c s ≠ [] := by
  simp [pySplit, splitChars_ne_nil]

theorem splitChars_no (c : Char) {l : List Char} (h : c ∉ l) : splitChars c l = [l] := by
  induction l with
  | nil => rfl
  | cons x xs ih =>
    simp only [List.mem_cons, not_or] at h
    simp [splitChars, Ne.symm h.1, ih h.2]

theorem splitChars_append (c : Char) {l : List Char} (h : c ∉ l) (r : List Char) :
    splitChars c (l ++ c :: r) = l :: splitChars c r := by
  induction l with
  | nil => simp [splitChars]
  | cons x xs ih =>
    simp only [List.mem_cons, not_or] at h
    simp [splitChars, Ne.symm h.1, ih h.2]

theorem splitChars_join (c : Char) {ls : List (List Char)} (h : ∀ l ∈ ls, c ∉ l) (hn : ls ≠ []) :
    splitChars c (joinChars c ls) = ls := by
  induction ls with
  | nil => exact absurd rfl hn
  | cons l ls ih =>
    cases ls with
    | nil => exact splitChars_no c (h l (by simp))
    | cons l' ls =>
      unfold joinChars
      rw [splitChars_append c (h l (by simp)), ih (fun x hx => h x (List.mem_cons_of_mem _ hx)) (by simp)]

theorem joinChars_split (c : Char) (l : List Char) : joinChars c (splitChars c l) = l := by
  induction l with
  | nil => rfl
  | cons x xs ih =>
    unfold splitChars
    have hne := splitChars_ne_nil c xs
    cases hs : splitChars c xs with
    | nil => exact absurd hs hne
    | cons h t =>
      rw [hs] at ih
      split_ifs with hx
      · subst hx; simp [joinChars, ih]
      · cases t with
        | nil => simp only [joinChars] at ih ⊢; rw [ih]
        | cons _ _ => simp only [joinChars, List.cons_append] at ih ⊢; rw [ih]

theorem splitChars_parts (c : Char) (l : List Char) : ∀ p ∈ splitChars c l, c ∉ p := by
  induction l with
  | nil => simp [splitChars]
  | cons x xs ih =>
    unfold splitChars
    cases hs : splitChars c xs with
    | nil => exact absurd hs (splitChars_ne_nil c xs)
    | cons h t =>
      rw [hs] at ih
      split_ifs with hx
      · intro p hp
        rcases List.mem_cons.mp hp with rfl | hp
        · simp
        · exact ih p hp
      · intro p hp
        rcases List.mem_cons.mp hp with rfl | hp
        · simp only [List.mem_cons, not_or]
          exact ⟨Ne.symm hx, ih h (by simp)⟩
        · exact ih p (List.mem_cons_of_mem _ hp)

/-- `c.join(s.split(c)) == s`. -/
theorem pyJoin_split (c : Char) (s : String) : pyJoin c (pySplit c s) = s := by
  simp [pyJoin, pySplit, joinChars_split]

/-- `c.join(l).split(c) == l` for a non-empty list of strings without `c`. -/
theorem pySplit_join (c : Char) {l : List String} (h : ∀ s ∈ l, c ∉ s.toList) (hn : l ≠ []) :
    pySplit c (pyJoin c l) = l := by
  unfold pySplit pyJoin
  rw [String.toList_ofList, splitChars_join]
  · simp
  · intro p hp
    obtain ⟨s, hs, rfl⟩ := List.mem_map.mp hp
    exact h s hs
  · simpa using hn

theorem pySplit_injective (c : Char) {s s' : String} (h : pySplit c s = pySplit c s') : s = s' := by
  rw [← pyJoin_split c s, h, pyJoin_split]

theorem pySplit_parts (c : Char) (s : String) : ∀ p ∈ pySplit c s, c ∉ p.toList := by
  intro p hp
  obtain ⟨l, hl, rfl⟩ := List.mem_map.mp hp
  rw [String.toList_ofList]
  exact splitChars_parts c _ l hl

end Lumos
