import Verif.Tir.File
/-!
# C86: exactly which texts are numbers

The grammar of the documentation of `float`: white space, an optional sign, and a decimal literal, `inf`, `infinity` or `nan`; between two digits
there may be an underscore.
-/

namespace Lumos.Tir

open Lumos

/-! ## Specification -/

/-- The ASCII white space. -/
def Blank (c : Char) : Prop := c ∈ [' ', '\t', '\n', '\r', '\x0b', '\x0c', '\x1c', '\x1d', '\x1e', '\x1f']

/-- Every underscore stands between two digits. -/
def Between (u : List Char) : Prop := ∀ a b, u = a ++ '_' :: b →
  (∃ (a' : List Char) (d : Fin 10), a = a' ++ [digitChar d]) ∧ ∃ (d : Fin 10) (b' : List Char), b = digitChar d :: b'

/-- The text (without white space and underscores) spells the number. -/
inductive Spells : List Char → Num → Prop
  | lit (l : Lit) (h : l.Valid) : Spells l.text (.fin l.value)
  | inf (s : Option Bool) (w : List Char) (h : w.map Char.toLower = "inf".toList ∨ w.map Char.toLower = "infinity".toList) :
      Spells (signText s ++ w) (.inf (decide (s = some true)))
  | nan (s : Option Bool) (w : List Char) (h : w.map Char.toLower = "nan".toList) : Spells (signText s ++ w) .nan

/-- The text is a number. -/
def IsNumeral (text : List Char) (v : Num) : Prop := ∃ w u w', text = w ++ u ++ w' ∧ (∀ c ∈ w, Blank c) ∧ (∀ c ∈ w', Blank c) ∧ Between u ∧
  Spells (u.filter (· ≠ '_')) v

/-! ## Proof -/

theorem space_iff (c : Char) : space c = true ↔ Blank c := by
  unfold space Blank
  simp only [Bool.or_eq_true, decide_eq_true_eq, List.mem_cons, List.not_mem_nil, or_false]
  tauto

theorem digit_iff (c : Char) : digit c = true ↔ ∃ d : Fin 10, c = digitChar d := by
  constructor
  · intro h
    unfold digit at h
    simp only [Bool.or_eq_true, decide_eq_true_eq] at h
    rcases h with ((((((((rfl | rfl) | rfl) | rfl) | rfl) | rfl) | rfl) | rfl) | rfl) | rfl
    · exact ⟨0, by decide⟩
    · exact ⟨1, by decide⟩
    · exact ⟨2, by decide⟩
    · exact ⟨3, by decide⟩
    · exact ⟨4, by decide⟩
    · exact ⟨5, by decide⟩
    · exact ⟨6, by decide⟩
    · exact ⟨7, by decide⟩
    · exact ⟨8, by decide⟩
    · exact ⟨9, by decide⟩
  · rintro ⟨d, rfl⟩
    exact digitChar_digit d

theorem digits_iff (l : List Char) : l.all digit = true ↔ ∃ ds : List (Fin 10), l = ds.map digitChar := by
  induction l with
  | nil => simp
  | cons c l ih =>
    rw [List.all_cons, Bool.and_eq_true, ih, digit_iff]
    constructor
    · rintro ⟨⟨d, rfl⟩, ds, rfl⟩
      exact ⟨d :: ds, rfl⟩
    · rintro ⟨ds, e⟩
      cases ds with
      | nil => cases e
      | cons d ds =>
        simp only [List.map_cons, List.cons.injEq] at e
        exact ⟨⟨d, e.1⟩, ds, e.2⟩

/-- The look at the next character. -/
theorem next_iff (l : List Char) : ((match l with
    | [] => false
    | d :: _ => digit d) = true) ↔ ∃ (d : Fin 10) (b' : List Char), l = digitChar d :: b' := by
  cases l with
  | nil => simp
  | cons x l =>
    dsimp only
    rw [digit_iff]
    constructor
    · rintro ⟨d, rfl⟩; exact ⟨d, l, rfl⟩
    · rintro ⟨d, b', e⟩
      simp only [List.cons.injEq] at e
      exact ⟨d, e.1⟩

/-- The model's test of the underscores. -/
theorem underscores_iff (u : List Char) : underscores false u = true ↔ Between u := by
  suffices h : ∀ (u pre : List Char) (prev : Bool), (prev = true ↔ ∃ (a : List Char) (d : Fin 10), pre = a ++ [digitChar d]) →
      (underscores prev u = true ↔ ∀ a b, u = a ++ '_' :: b →
        (∃ (a' : List Char) (d : Fin 10), pre ++ a = a' ++ [digitChar d]) ∧ ∃ (d : Fin 10) (b' : List Char), b = digitChar d :: b') by
    have := h u [] false (by simp)
    simpa [Between] using this
  intro u
  induction u with
  | nil => simp [underscores]
  | cons c l ih =>
    intro pre prev hp
    have hp' : ∀ x : Char, (digit x = true ↔ ∃ (a : List Char) (d : Fin 10), pre ++ [x] = a ++ [digitChar d]) := by
      intro x
      rw [digit_iff]
      constructor
      · rintro ⟨d, rfl⟩; exact ⟨pre, d, rfl⟩
      · rintro ⟨a, d, e⟩
        have := List.append_inj_right' e rfl
        simp only [List.cons.injEq, and_true] at this
        exact ⟨d, this⟩
    by_cases hc : c = '_'
    · subst hc
      have hd : (false = true ↔ ∃ (a : List Char) (d : Fin 10), pre ++ ['_'] = a ++ [digitChar d]) := by
        rw [← hp' '_']; decide
      have hnext := next_iff l
      rw [underscores.eq_def]
      dsimp only
      rw [if_pos rfl, Bool.and_eq_true, Bool.and_eq_true]
      refine Iff.trans (and_congr (and_congr hp hnext) (ih _ _ hd)) ?_
      constructor
      · rintro ⟨⟨h1, h2⟩, h3⟩ a b e
        cases a with
        | nil =>
          simp only [List.nil_append, List.cons.injEq, true_and] at e
          subst e
          rw [List.append_nil]
          exact ⟨h1, h2⟩
        | cons x a =>
          simp only [List.cons_append, List.cons.injEq] at e
          obtain ⟨rfl, e⟩ := e
          have := h3 a b e
          rwa [List.append_assoc] at this
      · intro h
        have h0 := h [] l rfl
        rw [List.append_nil] at h0
        refine ⟨h0, fun a b e => ?_⟩
        have := h ('_' :: a) b (by rw [e]; rfl)
        rw [List.append_assoc]
        exact this
    · rw [underscores.eq_def]
      dsimp only
      rw [if_neg hc, ih _ _ (hp' c)]
      constructor
      · intro h a b e
        cases a with
        | nil =>
          simp only [List.nil_append, List.cons.injEq] at e
          exact absurd e.1 hc
        | cons x a =>
          simp only [List.cons_append, List.cons.injEq] at e
          obtain ⟨rfl, e⟩ := e
          have := h a b e
          rwa [List.append_assoc] at this
      · intro h a b e
        have := h (c :: a) b (by rw [e]; rfl)
        rw [List.append_assoc]
        exact this

theorem strip_split (l : List Char) : ∃ w w', l = w ++ strip l ++ w' ∧ (∀ c ∈ w, space c = true) ∧ ∀ c ∈ w', space c = true := by
  refine ⟨l.takeWhile space, ((l.dropWhile space).reverse.takeWhile space).reverse, ?_, ?_, ?_⟩
  · unfold strip
    rw [List.append_assoc, ← List.reverse_append, List.takeWhile_append_dropWhile, List.reverse_reverse,
      List.takeWhile_append_dropWhile]
  · intro c hc
    exact (List.all_eq_true.mp (List.all_takeWhile (l := l))) c hc
  · intro c hc
    rw [List.mem_reverse] at hc
    exact (List.all_eq_true.mp (List.all_takeWhile)) c hc

theorem sign_spec (t : List Char) : ∃ s : Option Bool, t = signText s ++ (sign t).2 ∧ (sign t).1 = decide (s = some true) := by
  unfold sign
  split
  · exact ⟨some false, rfl, rfl⟩
  · exact ⟨some true, rfl, rfl⟩
  · exact ⟨none, rfl, rfl⟩

theorem cut_spec (p : Char → Bool) (l : List Char) : (l = (cut p l).1 ∧ (cut p l).2 = none) ∨
    ∃ c r, p c = true ∧ (cut p l).2 = some r ∧ l = (cut p l).1 ++ c :: r := by
  induction l with
  | nil => exact Or.inl ⟨rfl, rfl⟩
  | cons c l ih =>
    rw [cut]
    split
    · rename_i h
      exact Or.inr ⟨c, l, h, rfl, rfl⟩
    · rcases ih with ⟨h1, h2⟩ | ⟨x, r, h1, h2, h3⟩
      · exact Or.inl ⟨by rw [← h1], h2⟩
      · exact Or.inr ⟨x, r, h1, h2, by rw [List.cons_append, ← h3]⟩

theorem allDigits_iff (l : List Char) (n : Nat) : allDigits l = some n ↔ ∃ ds : List (Fin 10), ds ≠ [] ∧ l = ds.map digitChar ∧ n = number ds := by
  constructor
  · intro h
    unfold allDigits at h
    split at h
    · rename_i hc
      obtain ⟨ds, rfl⟩ := (digits_iff l).mp hc.2
      refine ⟨ds, by rintro rfl; exact hc.1 rfl, rfl, ?_⟩
      rw [natOf_map] at h
      exact (Option.some.inj h).symm
    · cases h
  · rintro ⟨ds, h, rfl, rfl⟩
    exact allDigits_map h

theorem map_digits_append {a b : List Char} {ds : List (Fin 10)} (h : a ++ b = ds.map digitChar) :
    ∃ x y : List (Fin 10), a = x.map digitChar ∧ b = y.map digitChar ∧ ds = x ++ y := by
  obtain ⟨x, y, e, h1, h2⟩ := List.map_eq_append_iff.mp h.symm
  exact ⟨x, y, h1.symm, h2.symm, e⟩

theorem mantissa_iff (l : List Char) (q : ℚ) (h : mantissa l = some q) : ∃ (i : List (Fin 10)) (f : Option (List (Fin 10))),
    i ++ f.getD [] ≠ [] ∧ l = mantText i f ∧ q = (number (i ++ f.getD []) : ℚ) / 10 ^ (f.getD []).length := by
  unfold mantissa at h
  dsimp only at h
  obtain ⟨n, hn, hq⟩ := Option.map_eq_some_iff.mp h
  obtain ⟨ds, h1, h2, rfl⟩ := (allDigits_iff _ _).mp hn
  obtain ⟨x, y, ex, ey, rfl⟩ := map_digits_append h2
  rcases cut_spec (· = '.') l with ⟨c1, c2⟩ | ⟨c, r, c0, c2, c1⟩
  · refine ⟨x, none, ?_, ?_, ?_⟩
    · rw [c2] at ey
      have : y = [] := by simpa using ey.symm
      rw [this] at h1
      exact h1
    · rw [c1, ex]
      simp [mantText]
    · rw [c2] at ey hq
      have : y = [] := by simpa using ey.symm
      subst this
      rw [← hq]
      simp
  · rw [c2] at ey hq
    simp only [Option.getD_some] at ey hq
    refine ⟨x, some y, h1, ?_, ?_⟩
    · rw [c1, ex, ey, decide_eq_true_eq.mp c0]
      rfl
    · rw [← hq, ey]
      simp

theorem exponent_iff (l : List Char) (x : Int) (h : exponent l = some x) : ∃ (s : Option Bool) (ds : List (Fin 10)),
    ds ≠ [] ∧ l = signText s ++ ds.map digitChar ∧ x = (if s = some true then -1 else 1) * (number ds : Int) := by
  unfold exponent at h
  obtain ⟨n, hn, hx⟩ := Option.map_eq_some_iff.mp h
  obtain ⟨ds, h1, h2, rfl⟩ := (allDigits_iff _ _).mp hn
  obtain ⟨s, e1, e2⟩ := sign_spec l
  refine ⟨s, ds, h1, by rw [← h2]; exact e1, ?_⟩
  rw [← hx, e2]
  by_cases hs : s = some true <;> simp [hs]

theorem decimal_iff (l : List Char) (q : ℚ) (h : decimal l = some q) : ∃ (i : List (Fin 10)) (f : Option (List (Fin 10)))
    (e : Option (Bool × Option Bool × List (Fin 10))), i ++ f.getD [] ≠ [] ∧ (∀ x ∈ e, x.2.2 ≠ []) ∧ l = mantText i f ++ expText e := by
  unfold decimal at h
  dsimp only at h
  rcases cut_spec (fun c => c = 'e' || c = 'E') l with ⟨c1, c2⟩ | ⟨c, r, c0, c2, c1⟩
  · rw [c2] at h
    obtain ⟨i, f, h1, h2, _⟩ := mantissa_iff _ _ h
    refine ⟨i, f, none, h1, by simp, ?_⟩
    rw [← h2, ← c1]
    simp [expText]
  · rw [c2] at h
    dsimp only at h
    split at h
    · rename_i m x hm hx
      obtain ⟨i, f, h1, h2, _⟩ := mantissa_iff _ _ hm
      obtain ⟨s, ds, g1, g2, _⟩ := exponent_iff _ _ hx
      have hc : c = 'e' ∨ c = 'E' := by simpa using c0
      rcases hc with rfl | rfl
      · refine ⟨i, f, some (false, s, ds), h1, by simpa using g1, ?_⟩
        rw [c1, h2, g2]
        rfl
      · refine ⟨i, f, some (true, s, ds), h1, by simpa using g1, ?_⟩
        rw [c1, h2, g2]
        rfl
    · cases h

theorem spells_char {t : List Char} {v : Num} (h : Spells t v) : ∀ c ∈ t, c ≠ '_' ∧ space c = false := by
  have hs : ∀ (s : Option Bool), ∀ c ∈ signText s, c ≠ '_' ∧ space c = false := by
    intro s c hc
    rcases s with _ | _ | _ <;> simp [signText] at hc <;> subst hc <;> decide
  have hw : ∀ (w : List Char), (w.map Char.toLower = "inf".toList ∨ w.map Char.toLower = "infinity".toList ∨ w.map Char.toLower = "nan".toList) →
      ∀ c ∈ w, c ≠ '_' ∧ space c = false := by
    intro w h c hc
    have hm := List.mem_map_of_mem (f := Char.toLower) hc
    have hl : c.toLower ∈ ['i', 'n', 'f', 't', 'y', 'a'] := by
      rcases h with h | h | h <;> rw [h] at hm <;> simp at hm ⊢ <;> tauto
    refine ⟨?_, ?_⟩
    · rintro rfl
      revert hl; decide
    · by_contra hsp
      rw [Bool.not_eq_false, space_iff] at hsp
      unfold Blank at hsp
      simp only [List.mem_cons, List.not_mem_nil, or_false] at hsp
      rcases hsp with rfl | rfl | rfl | rfl | rfl | rfl | rfl | rfl | rfl | rfl <;> (revert hl; decide)
  intro c hc
  cases h with
  | lit l h => exact ⟨(lit_char hc).1, (lit_char hc).2.2.1⟩
  | inf s w h =>
    rcases List.mem_append.mp hc with hc | hc
    · exact hs s c hc
    · exact hw w (by tauto) c hc
  | nan s w h =>
    rcases List.mem_append.mp hc with hc | hc
    · exact hs s c hc
    · exact hw w (by tauto) c hc

/-- Reading a text without white space and underscores. -/
def bare (t : List Char) : Option Num :=
  let s := sign t
  let w := s.2.map Char.toLower
  if w = ['i', 'n', 'f'] ∨ w = ['i', 'n', 'f', 'i', 'n', 'i', 't', 'y'] then some (.inf s.1)
  else if w = ['n', 'a', 'n'] then some .nan
  else (decimal s.2).map fun q => .fin (if s.1 then -q else q)

theorem pyFloat_eq (text : List Char) :
    pyFloat text = if underscores false (strip text) then bare ((strip text).filter (· ≠ '_')) else none := rfl

theorem lit_filter (l : Lit) : l.text.filter (fun c => decide (c ≠ '_')) = l.text := by
  rw [List.filter_eq_self]
  intro c hc
  simpa using (lit_char hc).1

theorem bare_lit {l : Lit} (h : l.Valid) : bare l.text = some (.fin l.value) := by
  have := C86_number h [] [] (by simp) (by simp)
  rw [pyFloat_eq] at this
  have hst : strip ([] ++ l.text ++ []) = l.text :=
    strip_of (by simp) (by simp) (fun c hc => (lit_char hc).2.2.1)
  rw [hst, if_pos (underscores_of (fun c hc => (lit_char hc).1) _), lit_filter] at this
  exact this

theorem word_head {w : List Char} {x : Char} {r : List Char} (h : w.map Char.toLower = x :: r) (hx : x = 'i' ∨ x = 'n') :
    ∀ c ∈ w.head?, c ≠ '+' ∧ c ≠ '-' := by
  intro c hc
  cases w with
  | nil => cases h
  | cons y w =>
    simp only [List.head?_cons, Option.mem_def, Option.some.injEq] at hc
    subst hc
    simp only [List.map_cons, List.cons.injEq] at h
    constructor <;> rintro rfl <;> rcases hx with rfl | rfl <;> exact absurd h.1 (by decide)

theorem bare_iff (t : List Char) (v : Num) : bare t = some v ↔ Spells t v := by
  constructor
  · intro h
    unfold bare at h
    dsimp only at h
    obtain ⟨s, e1, e2⟩ := sign_spec t
    split at h
    · rename_i hw
      have := Spells.inf s (sign t).2 hw
      rw [← e1, ← e2] at this
      rwa [Option.some.inj h] at this
    · split at h
      · rename_i hw
        have := Spells.nan s (sign t).2 hw
        rw [← e1] at this
        rwa [Option.some.inj h] at this
      · obtain ⟨q, hq, hv⟩ := Option.map_eq_some_iff.mp h
        obtain ⟨i, f, e, h1, h2, h3⟩ := decimal_iff _ _ hq
        have hval : Lit.Valid ⟨s, i, f, e⟩ := ⟨h1, h2⟩
        have et : t = Lit.text ⟨s, i, f, e⟩ := by
          rw [lit_text, ← h3]
          exact e1
        have hb := bare_lit hval
        rw [← et] at hb
        have hb2 : bare t = some v := by
          rename_i g1 g2
          unfold bare
          dsimp only
          rw [if_neg g1, if_neg g2]
          exact h
        rw [hb] at hb2
        rw [← Option.some.inj hb2, et]
        exact Spells.lit _ hval
  · intro h
    cases h with
    | lit l h => exact bare_lit h
    | inf s w h =>
      have hh : ∀ c ∈ w.head?, c ≠ '+' ∧ c ≠ '-' := by
        rcases h with h | h
        · exact word_head (x := 'i') h (Or.inl rfl)
        · exact word_head (x := 'i') h (Or.inl rfl)
      unfold bare
      dsimp only
      rw [sign_text s hh]
      dsimp only
      have h' : w.map Char.toLower = ['i', 'n', 'f'] ∨ w.map Char.toLower = ['i', 'n', 'f', 'i', 'n', 'i', 't', 'y'] := h
      rw [if_pos h']
    | nan s w h =>
      have hh : ∀ c ∈ w.head?, c ≠ '+' ∧ c ≠ '-' := word_head (x := 'n') h (Or.inr rfl)
      have h' : w.map Char.toLower = ['n', 'a', 'n'] := h
      unfold bare
      dsimp only
      rw [sign_text s hh]
      dsimp only
      rw [h', if_neg (by decide), if_pos rfl]

theorem filter_spaces {u : List Char} (h : ∀ c ∈ u.filter (fun c => decide (c ≠ '_')), space c = false) : ∀ c ∈ u, space c = false := by
  intro c hc
  by_cases hu : c = '_'
  · subst hu; decide
  · exact h c (List.mem_filter.mpr ⟨hc, by simpa using hu⟩)

/-- **C86** (numbers, exactly). `float` of a text is the number `v` if and only if the text is a numeral with the value `v`: optional white space,
an optional sign, a decimal literal, `inf`, `infinity` or `nan` in upper or lower case, with underscores at most between two digits. Every other text
is not a number, and the line it stands on is ignored. -/
theorem C86_float (text : List Char) (v : Num) : pyFloat text = some v ↔ IsNumeral text v := by
  rw [pyFloat_eq]
  constructor
  · intro h
    split at h
    · rename_i hu
      obtain ⟨w, w', e, h1, h2⟩ := strip_split text
      exact ⟨w, strip text, w', e, fun c hc => (space_iff c).mp (h1 c hc), fun c hc => (space_iff c).mp (h2 c hc),
        (underscores_iff _).mp hu, (bare_iff _ _).mp h⟩
    · cases h
  · rintro ⟨w, u, w', rfl, h1, h2, h3, h4⟩
    have hst : strip (w ++ u ++ w') = u := strip_of (fun c hc => (space_iff c).mpr (h1 c hc)) (fun c hc => (space_iff c).mpr (h2 c hc))
      (filter_spaces fun c hc => (spells_char h4 c hc).2)
    rw [hst, if_pos ((underscores_iff u).mpr h3)]
    exact (bare_iff _ _).mpr h4

/-- Non-vacuity: `\t-1_000.5e-1_0 ` is a numeral, `1__0`, `_1`, `1_` and `1e` are not. -/
example : (∃ q, IsNumeral "\t-1_000.5e-1_0 ".toList (.fin q)) ∧ (∀ v, ¬IsNumeral "1__0".toList v) ∧ (∀ v, ¬IsNumeral "_1".toList v) ∧
    (∀ v, ¬IsNumeral "1_".toList v) ∧ (∀ v, ¬IsNumeral "1e".toList v) ∧ IsNumeral "-Infinity".toList (.inf true) := by
  refine ⟨?_, ?_, ?_, ?_, ?_, ?_⟩
  · obtain ⟨q, hq⟩ : ∃ q, pyFloat "\t-1_000.5e-1_0 ".toList = some (.fin q) := ⟨_, rfl⟩
    exact ⟨q, (C86_float _ _).mp hq⟩
  all_goals first
    | exact (C86_float _ _).mp (by decide +kernel)
    | (intro v h
       rw [← C86_float] at h
       have e : ∀ t : List Char, pyFloat t = none → pyFloat t ≠ some v := fun t ht hv => by rw [ht] at hv; cases hv
       exact e _ (by decide +kernel) h)

end Lumos.Tir
