import Verif.Tir.Spec
import Mathlib.Tactic.Ring
import Mathlib.Tactic.Linarith
import Mathlib.Tactic.FieldSimp
/-!
# C86: a tyre data file is read as it says
-/

namespace Lumos.Tir

open Lumos

/-! ## Splitting a line -/

theorem pieces_ne (l : List Char) : pieces l ≠ [] := by
  cases l with
  | nil => simp [pieces]
  | cons c l =>
    unfold pieces
    split
    · simp
    · split <;> simp

theorem pieces_none {l : List Char} (h : ∀ c ∈ l, sep c = false) : pieces l = [l] := by
  induction l with
  | nil => rfl
  | cons c l ih =>
    unfold pieces
    rw [if_neg (by simp [h c (by simp)]), ih (fun x hx => h x (by simp [hx]))]

theorem pieces_cut {a : List Char} {s : Char} {b : List Char} (h : ∀ c ∈ a, sep c = false) (hs : sep s = true) :
    pieces (a ++ s :: b) = a :: pieces b := by
  induction a with
  | nil => simp [pieces, hs]
  | cons c l ih =>
    rw [List.cons_append, pieces, if_neg (by simp [h c (by simp)]), ih (fun x hx => h x (by simp [hx]))]

/-- Every text is a first piece, and if it has a separator, the separator and the rest. -/
theorem pieces_dec (l : List Char) : (∀ c ∈ l, sep c = false) ∨ ∃ a s b, l = a ++ s :: b ∧ (∀ c ∈ a, sep c = false) ∧ sep s = true := by
  induction l with
  | nil => exact Or.inl (by simp)
  | cons c l ih =>
    by_cases hc : sep c = true
    · exact Or.inr ⟨[], c, l, rfl, by simp, hc⟩
    · have hc : sep c = false := by simpa using hc
      rcases ih with h | ⟨a, s, b, rfl, h1, h2⟩
      · left
        intro x hx
        rcases List.mem_cons.mp hx with rfl | hx
        · exact hc
        · exact h x hx
      · refine Or.inr ⟨c :: a, s, b, rfl, ?_, h2⟩
        intro x hx
        rcases List.mem_cons.mp hx with rfl | hx
        · exact hc
        · exact h1 x hx

theorem pieces_head (l : List Char) : ∃ a r, pieces l = a :: r ∧ (∀ c ∈ a, sep c = false) ∧
    ∃ rest, l = a ++ rest ∧ ∀ c ∈ rest.head?, sep c = true := by
  rcases pieces_dec l with h | ⟨a, s, b, rfl, h1, h2⟩
  · exact ⟨l, [], pieces_none h, h, [], by simp, by simp⟩
  · exact ⟨a, pieces b, pieces_cut h1 h2, h1, s :: b, rfl, by simpa using h2⟩

theorem pieces_head_eq {a rest : List Char} (h : ∀ c ∈ a, sep c = false) (hr : ∀ c ∈ rest.head?, sep c = true) :
    ∃ r, pieces (a ++ rest) = a :: r := by
  cases rest with
  | nil => exact ⟨[], by rw [List.append_nil, pieces_none h]⟩
  | cons s b => exact ⟨_, pieces_cut h (by simpa using hr)⟩

/-- What one line does. -/
theorem readLine_spec (d : Dict Num) (line : List Char) : ∃ d', readLine d line = .ok d' ∧
    ((∃ k v, Assigns line k v ∧ d' = d.set k v) ∨ ((∀ k v, ¬Assigns line k v) ∧ d' = d)) := by
  unfold readLine
  by_cases he : '=' ∈ line
  · rw [if_pos he]
    have hm : '=' ∈ line.filter (· ≠ ' ') := List.mem_filter.mpr ⟨he, by decide⟩
    rcases pieces_dec (line.filter (· ≠ ' ')) with h | ⟨a, s, b, e, h1, h2⟩
    · exact absurd (h _ hm) (by decide)
    · rw [e, pieces_cut h1 h2]
      obtain ⟨v, r, e1, h3, rest, e2, h4⟩ := pieces_head b
      rw [e1]
      have hu : ∀ k x, Assigns line k x → k = String.ofList a ∧ pyFloat v = some x := by
        rintro k x ⟨-, s', val, rest', e', g1, g2, g3, g4, g5⟩
        rw [e] at e'
        have p1 := pieces_cut (b := b) h1 h2
        rw [e', List.append_assoc, List.cons_append, pieces_cut g2 g1] at p1
        obtain ⟨r', p2⟩ := pieces_head_eq g3 g4
        rw [p2, e1] at p1
        simp only [List.cons.injEq] at p1
        obtain ⟨rfl, rfl, -⟩ := p1
        exact ⟨by simp, g5⟩
      rcases hv : pyFloat v with _ | x
      · refine ⟨d, by simp only [hv], Or.inr ⟨?_, rfl⟩⟩
        intro k x ha
        rw [hv] at hu
        exact nomatch (hu k x ha).2
      · refine ⟨_, by simp only [hv], Or.inl ⟨String.ofList a, x, ⟨he, s, v, rest, ?_, h2, by simpa using h1, h3, h4, hv⟩, rfl⟩⟩
        rw [e, e2]
        simp
  · rw [if_neg he]
    exact ⟨d, rfl, Or.inr ⟨fun k v h => he h.1, rfl⟩⟩

theorem Assigns.unique {line : List Char} {k k' : String} {v v' : Num} (h : Assigns line k v) (h' : Assigns line k' v') : k = k' ∧ v = v' := by
  obtain ⟨-, s, val, rest, e, h1, h2, h3, h4, h5⟩ := h
  obtain ⟨-, s', val', rest', e', g1, g2, g3, g4, g5⟩ := h'
  rw [e, List.append_assoc, List.append_assoc, List.cons_append, List.cons_append] at e'
  have p := congrArg pieces e'
  rw [pieces_cut h2 h1, pieces_cut g2 g1] at p
  obtain ⟨r, q⟩ := pieces_head_eq h3 h4
  obtain ⟨r', q'⟩ := pieces_head_eq g3 g4
  rw [q, q'] at p
  simp only [List.cons.injEq] at p
  obtain ⟨p1, p2, -⟩ := p
  rw [p2, g5] at h5
  exact ⟨String.toList_inj.mp p1, by simpa using h5.symm⟩

/-! ## All the lines -/

/-- The last line that assigns to `k` assigns `v`. -/
def Last (ls : List (List Char)) (k : String) (v : Num) : Prop :=
  ∃ pre line post, ls = pre ++ line :: post ∧ Assigns line k v ∧ ∀ l ∈ post, ∀ w, ¬Assigns l k w

theorem readAll_spec (ls : List (List Char)) (d : Dict Num) (hd : d.keys.Nodup) : ∃ d', readAll d ls = .ok d' ∧ d'.keys.Nodup ∧
    ∀ k v, d'.lookup k = some v ↔ Last ls k v ∨ (d.lookup k = some v ∧ ∀ l ∈ ls, ∀ w, ¬Assigns l k w) := by
  induction ls generalizing d with
  | nil =>
    refine ⟨d, rfl, hd, fun k v => ⟨fun h => Or.inr ⟨h, by simp⟩, ?_⟩⟩
    rintro (⟨pre, line, post, e, -⟩ | ⟨h, -⟩)
    · simp at e
    · exact h
  | cons l ls ih =>
    obtain ⟨d1, e1, h1⟩ := readLine_spec d l
    have hd1 : d1.keys.Nodup := by
      rcases h1 with ⟨k, v, -, rfl⟩ | ⟨-, rfl⟩
      · exact Dict.nodup_set hd k v
      · exact hd
    obtain ⟨d2, e2, hd2, h2⟩ := ih d1 hd1
    refine ⟨d2, by simp only [readAll, e1, Except.bind, e2], hd2, fun k v => ?_⟩
    rw [h2]
    constructor
    · rintro (⟨pre, line, post, rfl, a, b⟩ | ⟨a, b⟩)
      · exact Or.inl ⟨l :: pre, line, post, rfl, a, b⟩
      · rcases h1 with ⟨k', v', h1, rfl⟩ | ⟨h1, rfl⟩
        · rw [Dict.lookup_set] at a
          split at a
          · next hk =>
            subst hk
            cases a
            exact Or.inl ⟨[], l, ls, rfl, h1, b⟩
          · next hk =>
            refine Or.inr ⟨a, fun x hx w hw => ?_⟩
            rcases List.mem_cons.mp hx with rfl | hx
            · exact hk (hw.unique h1).1
            · exact b x hx w hw
        · refine Or.inr ⟨a, fun x hx w hw => ?_⟩
          rcases List.mem_cons.mp hx with rfl | hx
          · exact h1 _ _ hw
          · exact b x hx w hw
    · rintro (⟨pre, line, post, e, a, b⟩ | ⟨a, b⟩)
      · cases pre with
        | nil =>
          simp only [List.nil_append, List.cons.injEq] at e
          obtain ⟨rfl, rfl⟩ := e
          refine Or.inr ⟨?_, b⟩
          rcases h1 with ⟨k', v', h1, rfl⟩ | ⟨h1, rfl⟩
          · obtain ⟨rfl, rfl⟩ := a.unique h1
            rw [Dict.lookup_set, if_pos rfl]
          · exact absurd a (h1 k v)
        | cons x pre =>
          simp only [List.cons_append, List.cons.injEq] at e
          obtain ⟨rfl, rfl⟩ := e
          exact Or.inl ⟨pre, line, post, rfl, a, b⟩
      · refine Or.inr ⟨?_, fun x hx w => b x (by simp [hx]) w⟩
        rcases h1 with ⟨k', v', h1, rfl⟩ | ⟨h1, rfl⟩
        · rw [Dict.lookup_set, if_neg]
          · exact a
          · rintro rfl
            exact b l (by simp) _ h1
        · exact a

/-! ## The lines of a text -/

/-- The text as lines: concatenated they give the text with every end of line as a newline; a newline ends a line; every line but the last
ends with one. -/
theorem readlines_spec (l : List Char) : (readlines l).flatten = l ∧
    (∀ x ∈ readlines l, x ≠ [] ∧ ∀ a b, x = a ++ '\n' :: b → b = []) ∧
    (∀ pre x y post, readlines l = pre ++ x :: y :: post → ∃ a, x = a ++ ['\n']) := by
  induction l with
  | nil => simp [readlines]
  | cons c l ih =>
    obtain ⟨h1, h2, h3⟩ := ih
    unfold readlines
    by_cases hc : c = '\n'
    · subst hc
      rw [if_pos rfl]
      refine ⟨by simp [h1], ?_, ?_⟩
      · intro x hx
        rcases List.mem_cons.mp hx with rfl | hx
        · refine ⟨by simp, fun a b e => ?_⟩
          have := congrArg List.length e
          simp at this
          exact List.eq_nil_of_length_eq_zero (by omega)
        · exact h2 x hx
      · intro pre x y post e
        cases pre with
        | nil =>
          simp only [List.nil_append, List.cons.injEq] at e
          exact ⟨[], by simp [← e.1]⟩
        | cons z pre =>
          simp only [List.cons_append, List.cons.injEq] at e
          exact h3 pre x y post e.2
    · rw [if_neg hc]
      rcases hr : readlines l with _ | ⟨x, r⟩
      · rw [hr] at h1
        simp only [List.flatten_nil] at h1
        subst h1
        refine ⟨by simp, ?_, ?_⟩
        · intro x hx
          simp only [List.mem_cons, List.not_mem_nil, or_false] at hx
          subst hx
          refine ⟨by simp, fun a b e => ?_⟩
          have := congrArg List.length e
          simp at this
          exact List.eq_nil_of_length_eq_zero (by omega)
        · intro pre x y post e
          have := congrArg List.length e
          simp at this
          omega
      · rw [hr] at h1 h2 h3
        refine ⟨by simpa using h1, ?_, ?_⟩
        · intro y hy
          rcases List.mem_cons.mp hy with rfl | hy
          · refine ⟨by simp, fun a b e => ?_⟩
            cases a with
            | nil =>
              simp only [List.nil_append, List.cons.injEq] at e
              exact absurd e.1 hc
            | cons z a =>
              simp only [List.cons_append, List.cons.injEq] at e
              exact (h2 x (by simp)).2 a b e.2
          · exact h2 y (by simp [hy])
        · intro pre y z post e
          cases pre with
          | nil =>
            simp only [List.nil_append, List.cons.injEq] at e
            obtain ⟨rfl, rfl⟩ := e
            obtain ⟨a, ha⟩ := h3 [] x z post rfl
            exact ⟨c :: a, by simp [ha]⟩
          | cons w pre =>
            simp only [List.cons_append, List.cons.injEq] at e
            obtain ⟨rfl, rfl⟩ := e
            exact h3 (x :: pre) y z post rfl

/-! ## C86 -/

/-- **C86** (what is read). Whatever the file contains, reading it returns, without an exception, a dict without duplicates in which a parameter has
a value exactly when the last line that assigns to it assigns that value. -/
theorem C86_read (text : List Char) : ∃ d, readTirFile text = .ok d ∧ d.keys.Nodup ∧
    ∀ k v, d.lookup k = some v ↔ Last (readlines (translate text)) k v := by
  obtain ⟨d, e, h1, h2⟩ := readAll_spec (readlines (translate text)) [] (by simp [Dict.keys])
  refine ⟨d, e, h1, fun k v => ?_⟩
  rw [h2]
  simp

/-- **C86** (the lines). The lines are those of the text, whichever way their ends are written. -/
theorem C86_lines (text : List Char) : (readlines (translate text)).flatten = translate text ∧
    (∀ x ∈ readlines (translate text), x ≠ [] ∧ ∀ a b, x = a ++ '\n' :: b → b = []) ∧
    (∀ pre x y post, readlines (translate text) = pre ++ x :: y :: post → ∃ a, x = a ++ ['\n']) := readlines_spec _

/-- **C86** (the constants). The parameters of the tyre model are those of the file and four constants, which a file cannot change. -/
theorem C86_params (text : List Char) : ∃ d p, readTirFile text = .ok d ∧ createParams text = .ok p ∧ p.keys.Nodup ∧
    p.lookup "epsilonv" = some (.fin (1 / 1000000)) ∧ p.lookup "epsilonx" = some (.fin (1 / 1000)) ∧
    p.lookup "epsilonk" = some (.fin (1 / 1000000)) ∧ p.lookup "epsilony" = some (.fin (1 / 1000)) ∧
    ∀ k, k ∉ ["epsilonv", "epsilonx", "epsilonk", "epsilony"] → p.lookup k = d.lookup k := by
  obtain ⟨d, e, h1, -⟩ := C86_read text
  refine ⟨d, _, e, by simp only [createParams, e, Except.bind]; rfl, ?_⟩
  unfold Dict.update extra
  simp only [List.foldl]
  refine ⟨Dict.nodup_set (Dict.nodup_set (Dict.nodup_set (Dict.nodup_set h1 _ _) _ _) _ _) _ _, ?_, ?_, ?_, ?_, ?_⟩
  · simp [Dict.lookup_set]; norm_num
  · simp [Dict.lookup_set]; norm_num
  · simp [Dict.lookup_set]; norm_num
  · simp [Dict.lookup_set]; norm_num
  · intro k hk
    simp only [List.mem_cons, List.not_mem_nil, or_false, not_or] at hk
    simp [Dict.lookup_set, hk]

end Lumos.Tir
