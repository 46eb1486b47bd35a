import Verif.Tir.Props
/-!
# C86: what is written is read back; findings
-/

namespace Lumos.Tir

open Lumos

/-! ## Decimal literals -/

theorem digitChar_digit (d : Fin 10) : digit (digitChar d) = true := by revert d; decide

theorem digitChar_val (d : Fin 10) : (digitChar d).toNat - '0'.toNat = d.val := by revert d; decide

theorem digitChar_ne (d : Fin 10) : digitChar d ≠ '.' ∧ digitChar d ≠ 'e' ∧ digitChar d ≠ 'E' ∧ digitChar d ≠ '_' ∧ digitChar d ≠ ' ' ∧
    digitChar d ≠ '+' ∧ digitChar d ≠ '-' ∧ space (digitChar d) = false ∧ sep (digitChar d) = false ∧ digitChar d ≠ '\n' ∧ digitChar d ≠ '\r' ∧
    (digitChar d).toLower ≠ 'i' ∧ (digitChar d).toLower ≠ 'n' := by revert d; decide

theorem natOf_map (l : List (Fin 10)) : natOf (l.map digitChar) = number l := by
  suffices h : ∀ (n : Nat), List.foldl (fun n c => 10 * n + (Char.toNat c - '0'.toNat)) n (l.map digitChar) = n * 10 ^ l.length + number l by
    have := h 0
    simpa [natOf] using this
  induction l with
  | nil => intro n; simp [number]
  | cons d l ih =>
    intro n
    rw [List.map_cons, List.foldl_cons, ih, digitChar_val]
    unfold number
    simp only [List.reverse_cons, List.map_append, List.map_cons, List.map_nil, Nat.ofDigits_append, Nat.ofDigits_singleton, List.length_map,
      List.length_reverse, List.length_cons]
    ring

theorem allDigits_map {l : List (Fin 10)} (h : l ≠ []) : allDigits (l.map digitChar) = some (number l) := by
  unfold allDigits
  rw [if_pos ⟨by simpa using h, by simp [digitChar_digit]⟩, natOf_map]

theorem cut_none {p : Char → Bool} {l : List Char} (h : ∀ c ∈ l, p c = false) : cut p l = (l, none) := by
  induction l with
  | nil => rfl
  | cons c l ih =>
    rw [cut, if_neg (by simp [h c (by simp)]), ih (fun x hx => h x (by simp [hx]))]

theorem cut_some {p : Char → Bool} {l : List Char} {s : Char} {r : List Char} (h : ∀ c ∈ l, p c = false) (hs : p s = true) :
    cut p (l ++ s :: r) = (l, some r) := by
  induction l with
  | nil => simp [cut, hs]
  | cons c l ih =>
    rw [List.cons_append, cut, if_neg (by simp [h c (by simp)]), ih (fun x hx => h x (by simp [hx]))]

/-- The digits and the fraction, as text. -/
def mantText (i : List (Fin 10)) (f : Option (List (Fin 10))) : List Char := i.map digitChar ++
  (match f with
    | none => []
    | some f => '.' :: f.map digitChar)

theorem mantissa_text {i : List (Fin 10)} {f : Option (List (Fin 10))} (h : i ++ f.getD [] ≠ []) :
    mantissa (mantText i f) = some ((number (i ++ f.getD []) : ℚ) / 10 ^ (f.getD []).length) := by
  unfold mantissa mantText
  have hi : ∀ c ∈ i.map digitChar, (decide (c = '.')) = false := by
    simp only [List.mem_map, decide_eq_false_iff_not]
    rintro c ⟨d, -, rfl⟩
    exact (digitChar_ne d).1
  cases f with
  | none =>
    simp only [List.append_nil]
    rw [cut_none hi]
    simp only [Option.getD_none, List.append_nil] at h ⊢
    rw [allDigits_map h]
    rfl
  | some f =>
    rw [cut_some hi (by decide)]
    simp only [Option.getD_some] at h ⊢
    rw [← List.map_append, allDigits_map h]
    simp

/-- The exponent, as text. -/
def expText : Option (Bool × Option Bool × List (Fin 10)) → List Char
  | none => []
  | some (up, s, d) => (if up then 'E' else 'e') :: signText s ++ d.map digitChar

theorem sign_text (s : Option Bool) {l : List Char} (h : ∀ c ∈ l.head?, c ≠ '+' ∧ c ≠ '-') : sign (signText s ++ l) = (decide (s = some true), l) := by
  rcases s with _ | _ | _
  · cases l with
    | nil => rfl
    | cons c l =>
      obtain ⟨h1, h2⟩ := h c (by simp)
      simp only [signText, List.nil_append]
      unfold sign
      split
      · next e => simp only [List.cons.injEq] at e; exact absurd e.1 h1
      · next e => simp only [List.cons.injEq] at e; exact absurd e.1 h2
      · rfl
  · rfl
  · rfl

theorem exponent_text (s : Option Bool) {d : List (Fin 10)} (h : d ≠ []) :
    exponent (signText s ++ d.map digitChar) = some ((if s = some true then -1 else 1) * (number d : Int)) := by
  unfold exponent
  rw [sign_text, allDigits_map h]
  · by_cases hs : s = some true <;> simp [hs]
  · intro c hc
    cases d with
    | nil => simp at hc
    | cons x d =>
      simp only [List.map_cons, List.head?_cons, Option.mem_def, Option.some.injEq] at hc
      subst hc
      exact ⟨(digitChar_ne x).2.2.2.2.2.1, (digitChar_ne x).2.2.2.2.2.2.1⟩

theorem mantText_mem {i : List (Fin 10)} {f : Option (List (Fin 10))} {c : Char} (h : c ∈ mantText i f) : c = '.' ∨ ∃ d, c = digitChar d := by
  unfold mantText at h
  rcases List.mem_append.mp h with h | h
  · obtain ⟨d, -, rfl⟩ := List.mem_map.mp h
    exact Or.inr ⟨d, rfl⟩
  · cases f with
    | none => simp at h
    | some f =>
      rcases List.mem_cons.mp h with rfl | h
      · exact Or.inl rfl
      · obtain ⟨d, -, rfl⟩ := List.mem_map.mp h
        exact Or.inr ⟨d, rfl⟩

theorem decimal_text {i : List (Fin 10)} {f : Option (List (Fin 10))} {e : Option (Bool × Option Bool × List (Fin 10))}
    (h : i ++ f.getD [] ≠ []) (he : ∀ x ∈ e, x.2.2 ≠ []) :
    decimal (mantText i f ++ expText e) = some ((number (i ++ f.getD []) : ℚ) / 10 ^ (f.getD []).length *
      10 ^ (match e with
        | none => 0
        | some (_, s, d) => (if s = some true then -1 else 1) * (number d : Int))) := by
  have hi : ∀ c ∈ mantText i f, (decide (c = 'e') || decide (c = 'E')) = false := by
    intro c hc
    rcases mantText_mem hc with rfl | ⟨d, rfl⟩
    · decide
    · simp [(digitChar_ne d).2.1, (digitChar_ne d).2.2.1]
  unfold decimal
  rcases e with _ | ⟨up, s, d⟩
  · simp only [expText, List.append_nil]
    rw [cut_none hi]
    simp only
    rw [mantissa_text h]
    simp
  · simp only [expText]
    rw [List.cons_append, cut_some hi (by cases up <;> decide)]
    simp only
    rw [mantissa_text h, exponent_text s (he _ rfl)]

theorem lit_text (l : Lit) : l.text = signText l.sign ++ (mantText l.int l.frac ++ expText l.exp) := by
  unfold Lit.text mantText expText
  rcases l.frac with _ | f <;> rcases l.exp with _ | ⟨up, s, d⟩ <;> simp

/-- The characters of a literal. -/
theorem lit_mem {l : Lit} {c : Char} (h : c ∈ l.text) : c ∈ ['.', 'e', 'E', '+', '-'] ∨ ∃ d, c = digitChar d := by
  rw [lit_text] at h
  have hs : ∀ (s : Option Bool), c ∈ signText s → c ∈ ['.', 'e', 'E', '+', '-'] := by
    intro s hs
    rcases s with _ | _ | _ <;> simp [signText] at hs <;> subst hs <;> decide
  rcases List.mem_append.mp h with h | h
  · exact Or.inl (hs _ h)
  · rcases List.mem_append.mp h with h | h
    · rcases mantText_mem h with rfl | h
      · exact Or.inl (by decide)
      · exact Or.inr h
    · rcases he : l.exp with _ | ⟨up, s, d⟩
      · rw [he] at h; simp [expText] at h
      · rw [he] at h
        simp only [expText, List.cons_append] at h
        rcases List.mem_cons.mp h with rfl | h
        · left; cases up <;> decide
        · rcases List.mem_append.mp h with h | h
          · exact Or.inl (hs _ h)
          · obtain ⟨d, -, rfl⟩ := List.mem_map.mp h
            exact Or.inr ⟨d, rfl⟩

theorem lit_char {l : Lit} {c : Char} (h : c ∈ l.text) : c ≠ '_' ∧ c ≠ ' ' ∧ space c = false ∧ sep c = false ∧ c ≠ '\n' ∧ c ≠ '\r' := by
  rcases lit_mem h with h | ⟨d, rfl⟩
  · simp only [List.mem_cons, List.not_mem_nil, or_false] at h
    rcases h with rfl | rfl | rfl | rfl | rfl <;> decide
  · obtain ⟨-, -, -, h1, h2, -, -, h3, h4, h5, h6, -⟩ := digitChar_ne d
    exact ⟨h1, h2, h3, h4, h5, h6⟩

theorem dropWhile_space {l : List Char} (w : List Char) (hw : ∀ c ∈ w, space c = true) (hl : ∀ c ∈ l.head?, space c = false) :
    (w ++ l).dropWhile space = l := by
  induction w with
  | nil =>
    cases l with
    | nil => rfl
    | cons c l => simp [hl c (by simp)]
  | cons c w ih =>
    rw [List.cons_append, List.dropWhile_cons_of_pos (hw c (by simp))]
    exact ih (fun x hx => hw x (by simp [hx]))

theorem strip_of {l w w' : List Char} (hw : ∀ c ∈ w, space c = true) (hw' : ∀ c ∈ w', space c = true) (hl : ∀ c ∈ l, space c = false) :
    strip (w ++ l ++ w') = l := by
  unfold strip
  by_cases hn : l = []
  · subst hn
    have : (w ++ [] ++ w').dropWhile space = [] := by
      have := dropWhile_space (l := []) (w ++ w') (by
        intro c hc
        rcases List.mem_append.mp hc with h | h
        · exact hw c h
        · exact hw' c h) (by simp)
      simpa using this
    rw [this]
    rfl
  · rw [List.append_assoc, dropWhile_space w hw]
    · rw [List.reverse_append, dropWhile_space w'.reverse (by simpa using hw')]
      · simp
      · intro c hc
        exact hl c (by simpa using List.mem_of_mem_head? hc)
    · intro c hc
      cases l with
      | nil => exact absurd rfl hn
      | cons x l =>
        simp only [List.cons_append, List.head?_cons, Option.mem_def, Option.some.injEq] at hc
        exact hl c (by simp [hc])

theorem underscores_of {l : List Char} (h : ∀ c ∈ l, c ≠ '_') (b : Bool) : underscores b l = true := by
  induction l generalizing b with
  | nil => rfl
  | cons c l ih =>
    unfold underscores
    rw [if_neg (h c (by simp))]
    exact ih (fun x hx => h x (by simp [hx])) _

theorem mant_head {i : List (Fin 10)} {f : Option (List (Fin 10))} (h : i ++ f.getD [] ≠ []) :
    ∃ c r, mantText i f = c :: r ∧ (c = '.' ∨ ∃ d, c = digitChar d) := by
  cases i with
  | cons d i => exact ⟨digitChar d, _, rfl, Or.inr ⟨d, rfl⟩⟩
  | nil =>
    cases f with
    | none => simp at h
    | some f => exact ⟨'.', _, rfl, Or.inl rfl⟩

/-- **C86** (numbers). The text of a decimal literal, with any white space around it, is read as its value. -/
theorem C86_number {l : Lit} (h : l.Valid) (w w' : List Char) (hw : ∀ c ∈ w, space c = true) (hw' : ∀ c ∈ w', space c = true) :
    pyFloat (w ++ l.text ++ w') = some (.fin l.value) := by
  unfold pyFloat
  simp only
  rw [strip_of hw hw' (fun c hc => (lit_char hc).2.2.1), if_pos (underscores_of (fun c hc => (lit_char hc).1) _)]
  have hf : l.text.filter (fun c => decide (c ≠ '_')) = l.text := by
    rw [List.filter_eq_self]
    intro c hc
    simpa using (lit_char hc).1
  rw [hf, lit_text]
  obtain ⟨c, r, e, hc⟩ := mant_head h.1
  rw [sign_text]
  · have hl : c.toLower ≠ 'i' ∧ c.toLower ≠ 'n' := by
      rcases hc with rfl | ⟨d, rfl⟩
      · decide
      · exact ⟨(digitChar_ne d).2.2.2.2.2.2.2.2.2.2.2.1, (digitChar_ne d).2.2.2.2.2.2.2.2.2.2.2.2⟩
    have h1 : ¬((mantText l.int l.frac ++ expText l.exp).map Char.toLower = ['i', 'n', 'f'] ∨
        (mantText l.int l.frac ++ expText l.exp).map Char.toLower = ['i', 'n', 'f', 'i', 'n', 'i', 't', 'y']) := by
      rw [e]
      rintro (h | h)
      · simp only [List.cons_append, List.map_cons, List.cons.injEq] at h
        exact hl.1 h.1
      · simp only [List.cons_append, List.map_cons, List.cons.injEq] at h
        exact hl.1 h.1
    have h2 : ¬((mantText l.int l.frac ++ expText l.exp).map Char.toLower = ['n', 'a', 'n']) := by
      rw [e]
      intro h
      simp only [List.cons_append, List.map_cons, List.cons.injEq] at h
      exact hl.2 h.1
    rw [if_neg h1, if_neg h2, decimal_text h.1 h.2]
    simp only [Option.map_some, Option.some.injEq, Num.fin.injEq]
    unfold Lit.value
    rcases l.exp with _ | ⟨up, s, d⟩ <;> by_cases hs : l.sign = some true <;> simp [hs]
    split_ifs <;> rfl
  · intro x hx
    rw [e] at hx
    simp only [List.cons_append, List.head?_cons, Option.mem_def, Option.some.injEq] at hx
    subst hx
    rcases hc with rfl | ⟨d, rfl⟩
    · decide
    · exact ⟨(digitChar_ne d).2.2.2.2.2.1, (digitChar_ne d).2.2.2.2.2.2.1⟩

/-! ## A written file -/

theorem blanks_filter (n : Nat) : (List.replicate n ' ').filter (fun c => decide (c ≠ ' ')) = [] := by
  induction n with
  | zero => rfl
  | succ n ih => rw [List.replicate_succ, List.filter_cons]; simp

theorem filter_blank {l : List Char} (h : ∀ c ∈ l, c ≠ ' ') : l.filter (fun c => decide (c ≠ ' ')) = l := by
  rw [List.filter_eq_self]
  intro c hc
  simpa using h c hc

theorem dropWhile_nil {l : List Char} : l.dropWhile space = [] ↔ ∀ c ∈ l, space c = true := by
  induction l with
  | nil => simp
  | cons c l ih =>
    rw [List.dropWhile_cons]
    by_cases h : space c = true
    · rw [if_pos h, ih]; simp [h]
    · rw [if_neg h]; simp [h]

theorem strip_newline (l : List Char) : strip (l ++ ['\n']) = strip l := by
  unfold strip
  by_cases h : ∀ c ∈ l, space c = true
  · have e1 : (l ++ ['\n']).dropWhile space = [] := by
      have := dropWhile_space (l := []) (l ++ ['\n']) (by
        intro c hc
        rcases List.mem_append.mp hc with hc | hc
        · exact h c hc
        · simp only [List.mem_cons, List.not_mem_nil, or_false] at hc
          subst hc
          decide) (by simp)
      simpa using this
    have e2 : l.dropWhile space = [] := by simpa using dropWhile_space (l := []) l h (by simp)
    rw [e1, e2]
  · have e : (l ++ ['\n']).dropWhile space = l.dropWhile space ++ ['\n'] := by
      rw [List.dropWhile_append, if_neg]
      intro hn
      apply h
      rw [List.isEmpty_iff, dropWhile_nil] at hn
      exact hn
    rw [e, List.reverse_append, List.reverse_singleton, List.singleton_append, List.dropWhile_cons_of_pos (by decide)]

theorem pyFloat_newline (l : List Char) : pyFloat (l ++ ['\n']) = pyFloat l := by
  unfold pyFloat
  rw [strip_newline]

/-- A line of a well-formed file assigns what it says. -/
theorem item_assigns {i : Item} (h : i.Valid) (k : String) (v : Num) : Assigns (i.text ++ ['\n']) k v ↔ i.says = some (k, v) := by
  cases i with
  | entry n pad lit cm =>
    obtain ⟨a, b, c⟩ := pad
    obtain ⟨h1, h2, h3⟩ := h
    have hf : ((Item.entry n (a, b, c) lit cm).text ++ ['\n']).filter (fun c => decide (c ≠ ' ')) =
        n ++ '=' :: (lit.text ++ (commentText cm ++ ['\n']).filter (fun c => decide (c ≠ ' '))) := by
      unfold Item.text
      simp only [List.filter_append, List.filter_cons, blanks_filter, filter_blank (fun c hc => (h1.2 c hc).1),
        filter_blank (fun c hc => (lit_char hc).2.1)]
      simp
    have hmain : Assigns ((Item.entry n (a, b, c) lit cm).text ++ ['\n']) (String.ofList n) (.fin lit.value) := by
      refine ⟨by simp [Item.text], ?_⟩
      cases cm with
      | none =>
        refine ⟨'=', lit.text ++ ['\n'], [], ?_, by decide, by simpa using fun c hc => (h1.2 c hc).2, ?_, by simp, ?_⟩
        · rw [hf]
          simp [commentText]
        · intro c hc
          rcases List.mem_append.mp hc with hc | hc
          · exact (lit_char hc).2.2.2.1
          · simp only [List.mem_cons, List.not_mem_nil, or_false] at hc
            subst hc
            decide
        · exact C86_number h2 [] ['\n'] (by simp) (by simp; decide)
      | some t =>
        refine ⟨'=', lit.text, '$' :: (t ++ ['\n']).filter (fun c => decide (c ≠ ' ')), ?_, by decide, by simpa using fun c hc => (h1.2 c hc).2, ?_, by simp; decide, ?_⟩
        · rw [hf]
          simp [commentText]
        · exact fun c hc => (lit_char hc).2.2.2.1
        · simpa using C86_number h2 [] [] (by simp) (by simp)
    constructor
    · intro h
      obtain ⟨rfl, rfl⟩ := h.unique hmain
      rfl
    · intro h
      simp only [Item.says, Option.some.injEq, Prod.mk.injEq] at h
      obtain ⟨rfl, rfl⟩ := h
      exact hmain
  | word n t cm =>
    obtain ⟨h1, h2, h3, h4, h5⟩ := h
    simp only [Item.says, reduceCtorEq, iff_false]
    rintro ⟨-, s, val, rest, e, g1, g2, g3, g4, g5⟩
    have hf : ((Item.word n t cm).text ++ ['\n']).filter (fun c => decide (c ≠ ' ')) =
        n ++ '=' :: (t.filter (fun c => decide (c ≠ ' ')) ++ (commentText cm ++ ['\n']).filter (fun c => decide (c ≠ ' '))) := by
      unfold Item.text
      simp only [List.filter_append, List.filter_cons, filter_blank (fun c hc => (h1.2 c hc).1)]
      simp
    rw [hf, List.append_assoc] at e
    have p := congrArg pieces e
    rw [pieces_cut (fun c hc => (h1.2 c hc).2) (by decide), List.cons_append, pieces_cut g2 g1] at p
    obtain ⟨r, q⟩ := pieces_head_eq g3 g4
    have hts : ∀ x ∈ t.filter (fun c => decide (c ≠ ' ')), sep x = false := fun x hx => h3 x (List.mem_of_mem_filter hx)
    cases cm with
    | none =>
      have : ∃ r', pieces (t.filter (fun c => decide (c ≠ ' ')) ++ (commentText none ++ ['\n']).filter (fun c => decide (c ≠ ' '))) =
          (t.filter (fun c => decide (c ≠ ' ')) ++ ['\n']) :: r' := by
        have := pieces_head_eq (a := t.filter (fun c => decide (c ≠ ' ')) ++ ['\n']) (rest := []) (by
          intro x hx
          rcases List.mem_append.mp hx with hx | hx
          · exact hts x hx
          · simp only [List.mem_cons, List.not_mem_nil, or_false] at hx
            subst hx
            decide) (by simp)
        simpa [commentText] using this
      obtain ⟨r', q'⟩ := this
      rw [q, q'] at p
      simp only [List.cons.injEq] at p
      obtain ⟨-, p2, -⟩ := p
      rw [← p2] at g5
      rw [pyFloat_newline, h4] at g5
      cases g5
    | some tt =>
      have : ∃ r', pieces (t.filter (fun c => decide (c ≠ ' ')) ++ (commentText (some tt) ++ ['\n']).filter (fun c => decide (c ≠ ' '))) =
          (t.filter (fun c => decide (c ≠ ' '))) :: r' := by
        refine pieces_head_eq hts ?_
        simp [commentText]
        decide
      obtain ⟨r', q'⟩ := this
      rw [q, q'] at p
      simp only [List.cons.injEq] at p
      obtain ⟨-, p2, -⟩ := p
      rw [← p2, h4] at g5
      cases g5
  | other t =>
    obtain ⟨h1, h2⟩ := h
    simp only [Item.says, reduceCtorEq, iff_false]
    rintro ⟨he, -⟩
    simp [Item.text, h2] at he

theorem translate_plain {l r : List Char} (h : OneLine l) : translate (l ++ r) = l ++ translate r := by
  induction l with
  | nil => rfl
  | cons c l ih =>
    have hc := (h c (by simp)).2
    rw [List.cons_append, translate.eq_4 _ _ (fun a b => absurd b hc) (fun a => absurd a hc), ih (fun x hx => h x (by simp [hx])), List.cons_append]

theorem translate_eol (e : Eol) {r : List Char} (hr : e = .cr → ∀ c ∈ r.head?, c ≠ '\n') : translate (e.text ++ r) = '\n' :: translate r := by
  cases e with
  | lf => simp only [Eol.text, List.singleton_append]; rw [translate.eq_4 _ _ (by simp) (by simp)]
  | crlf => simp only [Eol.text, List.cons_append, List.nil_append]; rw [translate]
  | cr =>
    simp only [Eol.text, List.singleton_append]
    cases r with
    | nil => rfl
    | cons c r =>
      rw [translate.eq_3]
      rintro l e
      simp only [List.cons.injEq] at e
      exact hr rfl c (by simp) e.1

theorem readlines_line {l r : List Char} (h : OneLine l) : readlines (l ++ '\n' :: r) = (l ++ ['\n']) :: readlines r := by
  induction l with
  | nil => simp [readlines]
  | cons c l ih =>
    rw [List.cons_append, readlines, if_neg (h c (by simp)).1, ih (fun x hx => h x (by simp [hx]))]
    rfl

theorem readlines_one {l : List Char} (h : OneLine l) (hn : l ≠ []) : readlines l = [l] := by
  induction l with
  | nil => exact absurd rfl hn
  | cons c l ih =>
    rw [readlines, if_neg (h c (by simp)).1]
    cases l with
    | nil => rfl
    | cons d l => rw [ih (fun x hx => h x (by simp [hx])) (by simp)]

theorem item_oneLine {i : Item} (h : i.Valid) : OneLine i.text := by
  have hb : ∀ n, OneLine (List.replicate n ' ') := by
    intro n c hc
    rw [List.eq_of_mem_replicate hc]
    decide
  have hcm : ∀ cm : Option (List Char), (∀ t ∈ cm, OneLine t) → OneLine (commentText cm) := by
    intro cm hcm
    cases cm with
    | none => intro c hc; simp [commentText] at hc
    | some t =>
      intro c hc
      rcases List.mem_cons.mp hc with rfl | hc
      · decide
      · exact hcm t rfl c hc
  have ha : ∀ {a b : List Char}, OneLine a → OneLine b → OneLine (a ++ b) := by
    intro a b h1 h2 c hc
    rcases List.mem_append.mp hc with hc | hc
    · exact h1 c hc
    · exact h2 c hc
  have he : ∀ {a : List Char}, OneLine a → OneLine ('=' :: a) := by
    intro a h1 c hc
    rcases List.mem_cons.mp hc with rfl | hc
    · decide
    · exact h1 c hc
  cases i with
  | entry n pad lit cm =>
    obtain ⟨a, b, c⟩ := pad
    exact ha (ha h.1.1 (hb _)) (he (ha (ha (ha (hb _) (fun c hc => (lit_char hc).2.2.2.2)) (hb _)) (hcm _ h.2.2)))
  | word n t cm => exact ha h.1.1 (he (ha h.2.1 (hcm _ h.2.2.2.2)))
  | other t => exact h.1

theorem file_head {items : List Item} (h : ∀ i ∈ items, i.Valid) : ∀ c ∈ (fileText .cr items).head?, c ≠ '\n' := by
  cases items with
  | nil => simp [fileText]
  | cons i l =>
    intro c hc
    unfold fileText at hc
    rw [List.map_cons, List.flatten_cons] at hc
    rcases ht : i.text with _ | ⟨x, t⟩
    · rw [ht] at hc
      simp only [Eol.text, List.nil_append, List.cons_append, List.head?_cons, Option.mem_def, Option.some.injEq] at hc
      subst hc
      decide
    · rw [ht] at hc
      simp only [List.cons_append, List.head?_cons, Option.mem_def, Option.some.injEq] at hc
      subst hc
      exact (item_oneLine (h i (by simp)) x (by rw [ht]; simp)).1

theorem file_lines (e : Eol) {items : List Item} (h : ∀ i ∈ items, i.Valid) :
    readlines (translate (fileText e items)) = items.map fun i => i.text ++ ['\n'] := by
  induction items with
  | nil => rfl
  | cons i l ih =>
    have hl : ∀ i ∈ l, i.Valid := fun x hx => h x (by simp [hx])
    have e1 : fileText e (i :: l) = i.text ++ (e.text ++ fileText e l) := by
      unfold fileText
      rw [List.map_cons, List.flatten_cons, List.append_assoc]
    rw [e1, translate_plain (item_oneLine (h i (by simp))), translate_eol e (fun he => he ▸ file_head hl), readlines_line (item_oneLine (h i (by simp))), ih hl]
    rfl

/-- **C86** (what is written is read back). From a file written as entries `NAME = number $ comment` (any blanks around the equals sign and the number,
any comment, equals signs and dollars included), entries whose value is not a number, and lines without equals sign, with any of the three line ends:
every parameter gets the number of the last entry with its name, and nothing else is read. -/
theorem C86_written (e : Eol) (items : List Item) (h : ∀ i ∈ items, i.Valid) : ∃ d, readTirFile (fileText e items) = .ok d ∧ d.keys.Nodup ∧
    ∀ k v, d.lookup k = some v ↔ ∃ pre i post, items = pre ++ i :: post ∧ i.says = some (k, v) ∧ ∀ j ∈ post, ∀ w, j.says ≠ some (k, w) := by
  obtain ⟨d, e1, h1, h2⟩ := C86_read (fileText e items)
  refine ⟨d, e1, h1, fun k v => ?_⟩
  rw [h2, file_lines e h]
  constructor
  · rintro ⟨pre, line, post, e2, a, b⟩
    obtain ⟨p1, p2, rfl, rfl, e3⟩ := List.map_eq_append_iff.mp e2
    obtain ⟨i, p3, rfl, rfl, rfl⟩ := List.map_eq_cons_iff.mp e3
    refine ⟨p1, i, p3, rfl, (item_assigns (h i (by simp)) k v).mp a, fun j hj w hw => ?_⟩
    exact b _ (List.mem_map.mpr ⟨j, hj, rfl⟩) w ((item_assigns (h j (by simp [hj])) k w).mpr hw)
  · rintro ⟨pre, i, post, rfl, a, b⟩
    refine ⟨pre.map fun i => i.text ++ ['\n'], i.text ++ ['\n'], post.map fun i => i.text ++ ['\n'], by simp, (item_assigns (h i (by simp)) k v).mpr a, ?_⟩
    intro l hl w hw
    obtain ⟨j, hj, rfl⟩ := List.mem_map.mp hl
    exact b j hj w ((item_assigns (h j (by simp [hj])) k w).mp hw)

/-- **C86** (commented out). A line that begins with a dollar sign, after any blanks, sets no parameter with a name. -/
theorem C86_commented {line r : List Char} {n : Nat} (h : line = List.replicate n ' ' ++ '$' :: r) {k : String} {v : Num} (ha : Assigns line k v) : k = "" := by
  obtain ⟨-, s, val, rest, e, g1, g2, -⟩ := ha
  rw [h, List.filter_append, blanks_filter, List.filter_cons, if_pos (by decide)] at e
  rcases hk : k.toList with _ | ⟨c, t⟩
  · exact String.toList_inj.mp (by simpa using hk)
  · rw [hk] at e g2
    simp only [List.nil_append, List.cons_append, List.cons.injEq] at e
    have := g2 c (by simp)
    rw [← e.1] at this
    exact absurd this (by decide)

/-- **C86** (an uncommented note is a value, finding). Without an equals sign before the comment, a number in the comment becomes the value: the line
`NAME $ 3 = the old value` sets `NAME` to 3. -/
theorem C86_note_read : ∃ d, readTirFile "PCX1 $ 3 = the old value\n".toList = .ok d ∧ d.lookup "PCX1" = some (.fin 3) := ⟨_, rfl, by decide +kernel⟩

/-- **C86** (tabs, finding). Blanks are removed, tabs are not: with a tab before the equals sign, the parameter is not found under its name, whatever
its value. -/
theorem C86_tab (n : List Char) (hn : IsName n) (l : Lit) (hl : l.Valid) : ∃ d, readTirFile (n ++ '\t' :: '=' :: l.text) = .ok d ∧
    d.lookup (String.ofList n) = none ∧ d.lookup (String.ofList (n ++ ['\t'])) = some (.fin l.value) := by
  have h' : (Item.entry (n ++ ['\t']) (0, 0, 0) l none).Valid := by
    refine ⟨⟨?_, ?_⟩, hl, by simp⟩
    · intro c hc
      rcases List.mem_append.mp hc with hc | hc
      · exact hn.1 c hc
      · simp only [List.mem_cons, List.not_mem_nil, or_false] at hc
        subst hc
        decide
    · intro c hc
      rcases List.mem_append.mp hc with hc | hc
      · exact hn.2 c hc
      · simp only [List.mem_cons, List.not_mem_nil, or_false] at hc
        subst hc
        decide
  have hv : ∀ v, Assigns (n ++ '\t' :: '=' :: l.text) (String.ofList (n ++ ['\t'])) v ↔ v = .fin l.value := by
    have hm : Assigns (n ++ '\t' :: '=' :: l.text) (String.ofList (n ++ ['\t'])) (.fin l.value) := by
      refine ⟨by simp, '=', l.text, [], ?_, by decide, by simpa using fun c hc => (h'.1.2 c (by simpa using hc)).2, fun c hc => (lit_char hc).2.2.2.1, by simp,
        by simpa using C86_number hl [] [] (by simp) (by simp)⟩
      rw [filter_blank]
      · simp
      · intro c hc
        simp only [List.mem_append, List.mem_cons] at hc
        rcases hc with hc | rfl | rfl | hc
        · exact (hn.2 c hc).1
        · decide
        · decide
        · exact (lit_char hc).2.1
    intro v
    exact ⟨fun h => (h.unique hm).2, fun h => h ▸ hm⟩
  have ho : OneLine (n ++ '\t' :: '=' :: l.text) := by
    intro c hc
    simp only [List.mem_append, List.mem_cons] at hc
    rcases hc with hc | rfl | rfl | hc
    · exact hn.1 c hc
    · decide
    · decide
    · exact (lit_char hc).2.2.2.2
  have hlines : readlines (translate (n ++ '\t' :: '=' :: l.text)) = [n ++ '\t' :: '=' :: l.text] := by
    have := translate_plain (r := []) ho
    simp only [List.append_nil, translate] at this
    rw [this]
    exact readlines_one ho (by simp)
  obtain ⟨d, e, -, h⟩ := C86_read (n ++ '\t' :: '=' :: l.text)
  refine ⟨d, e, ?_, ?_⟩
  · rcases hd : d.lookup (String.ofList n) with _ | v
    · rfl
    · obtain ⟨pre, line, post, e1, a, -⟩ := (h _ v).mp hd
      rw [hlines] at e1
      have hm : line ∈ [n ++ '\t' :: '=' :: l.text] := by rw [e1]; simp
      simp only [List.mem_cons, List.not_mem_nil, or_false] at hm
      subst hm
      have := (a.unique ((hv _).mpr rfl)).1
      have := congrArg (fun s => s.toList.length) this
      simp at this
  · rw [h, hlines]
    exact ⟨[], _, [], rfl, (hv _).mpr rfl, by simp⟩

/-- **C86** (blanks inside a number, finding). Blanks are removed everywhere, so two numbers on a line become one. -/
theorem C86_joined : ∃ d, readTirFile "LMUY = 1 2 $ left, right\n".toList = .ok d ∧ d.lookup "LMUY" = some (.fin 12) := ⟨_, rfl, by decide +kernel⟩

/-- **C86** (another comment sign, finding). A value followed by any other comment is dropped without an error. -/
theorem C86_dropped : readTirFile "LMUY = 1.2 ! friction\n".toList = .ok [] := by decide +kernel

/-- **C86** (not a number, finding). The text `nan` is taken for a value. -/
theorem C86_nan : ∃ d, readTirFile "LMUY = nan\n".toList = .ok d ∧ d.lookup "LMUY" = some .nan := ⟨_, rfl, by decide +kernel⟩

/-- The assumptions of `C86_written` are met by a file with a header, a text value, and a repeated parameter. -/
example : ∃ items : List Item, items.length = 4 ∧ (∀ i ∈ items, i.Valid) ∧
    fileText .lf items = "[MODEL]\nUNITS='m'\nLMUY   = 1.1e0 $a = b\nLMUY = -.5\n".toList := by
  refine ⟨[.other "[MODEL]".toList, .word "UNITS".toList "'m'".toList none, .entry "LMUY".toList (3, 1, 1) ⟨none, [1], some [1], some (false, none, [0])⟩ (some "a = b".toList),
    .entry "LMUY".toList (1, 1, 0) ⟨some true, [], some [5], none⟩ none], rfl, ?_, by decide +kernel⟩
  simp only [List.mem_cons, List.not_mem_nil, or_false, forall_eq_or_imp, forall_eq, Item.Valid, IsName, OneLine, Lit.Valid, Option.mem_def, Option.some.injEq, reduceCtorEq]
  refine ⟨by decide, ⟨by decide, by decide, by decide, by decide +kernel, by simp⟩, ⟨by decide, by simp, ?_⟩, ⟨by decide, by simp, by simp⟩⟩
  rintro t rfl
  decide

end Lumos.Tir
