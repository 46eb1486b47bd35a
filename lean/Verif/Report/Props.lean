import Verif.Report.Model
import Verif.Tir.Float
/-!
# C110: what `solve` tells IPOPT and what it reports
-/

namespace Lumos.Report

open Lumos NLP Tir

/-! ## Specification -/

/-- A decimal number with digits on both sides of the point, and nothing else. -/
def PlainDec (l : Lit) : Prop := l.sign = none ∧ l.int ≠ [] ∧ (∃ f, l.frac = some f ∧ f ≠ []) ∧ l.exp = none

/-- The line says that the quantity with this label is `v`: the label, after anything without a `T`, then `=` and a number, with any blanks, and then no further
digit. -/
def Says (label line : List Char) (v : ℚ) : Prop := ∃ pre w w' lit post, line = pre ++ label ++ w ++ '=' :: w' ++ Lit.text lit ++ post ∧ 'T' ∉ pre
  ∧ (∀ c ∈ w, space c = true) ∧ (∀ c ∈ w', space c = true) ∧ PlainDec lit ∧ (∀ c ∈ post.head?, digit c = false) ∧ v = Lit.value lit

/-- The text of a file. -/
def textOf (lines : List (List Char)) : List Char := (lines.map fun l => l ++ ['\n']).flatten

/-! ## The times -/

theorem after_self (p l : List Char) : after p (p ++ l) = some l := by
  induction p with
  | nil => simp [after]
  | cons c p ih => simp [after, ih]

theorem after_some {p l r : List Char} (h : after p l = some r) : l = p ++ r := by
  induction p generalizing l with
  | nil => simp only [after] at h; cases h; rfl
  | cons c p ih =>
    cases l with
    | nil => simp [after] at h
    | cons d l =>
      simp only [after] at h
      split_ifs at h with e
      rw [ih h, e, List.cons_append]

theorem digit_digitChar (d : Fin 10) : digit (digitChar d) = true := by revert d; decide

theorem takeWhile_digits {ds r : List Char} (hd : ∀ c ∈ ds, digit c = true) (hr : ∀ c ∈ r.head?, digit c = false) :
    (ds ++ r).takeWhile digit = ds ∧ (ds ++ r).dropWhile digit = r := by
  induction ds with
  | nil =>
    cases r with
    | nil => exact ⟨rfl, rfl⟩
    | cons c r =>
      have := hr c rfl
      simp [this]
  | cons c ds ih =>
    obtain ⟨a, b⟩ := ih (fun x hx => hd x (List.mem_cons_of_mem _ hx))
    have := hd c (List.mem_cons_self ..)
    simp [this, a, b]

theorem decimalAt_lit {l : Lit} (h : PlainDec l) {post : List Char} (hp : ∀ c ∈ post.head?, digit c = false) : decimalAt (l.text ++ post) = some l.text := by
  obtain ⟨h1, h2, ⟨f, h3, h4⟩, h5⟩ := h
  have e : l.text = l.int.map digitChar ++ '.' :: f.map digitChar := by
    unfold Lit.text
    rw [h1, h3, h5]
    simp [signText]
  have hd : ∀ (ds : List (Fin 10)), ∀ c ∈ ds.map digitChar, digit c = true := by
    intro ds c hc
    obtain ⟨d, -, rfl⟩ := List.mem_map.mp hc
    exact digit_digitChar d
  obtain ⟨a1, a2⟩ := takeWhile_digits (r := '.' :: (f.map digitChar ++ post)) (hd l.int) (by intro c hc; simp at hc; subst hc; decide)
  obtain ⟨b1, -⟩ := takeWhile_digits (r := post) (hd f) hp
  have e2 : l.text ++ post = l.int.map digitChar ++ '.' :: (f.map digitChar ++ post) := by rw [e]; simp
  unfold decimalAt
  rw [e2, a1, a2]
  simp only [b1]
  rw [if_pos ⟨by decide, by simpa using h2, by simpa using h4⟩, e]

/-- Digits, any character but a newline, digits: `\d+.\d+`. -/
def Decimalish (a : List Char) (c : Char) (b : List Char) : Prop :=
  a ≠ [] ∧ (∀ x ∈ a, digit x = true) ∧ c ≠ '\n' ∧ b ≠ [] ∧ ∀ x ∈ b, digit x = true

theorem prefix_takeWhile {m l : List Char} (h : m <+: l) (hm : ∀ x ∈ m, digit x = true) : m <+: l.takeWhile digit := by
  obtain ⟨t, rfl⟩ := h
  rw [List.takeWhile_append_of_pos hm]
  exact List.prefix_append ..

/-- What the group of the pattern catches, of all the texts at that place that fit: the one with the longest first run of digits and, among those, the longest
second. There is none only if no text fits. So `12.5` is caught whole, and of `123` all three digits are, although there is no point. -/
theorem C110_number (l : List Char) :
    (∀ m, decimalAt l = some m → ∃ a c b, m = a ++ c :: b ∧ m <+: l ∧ Decimalish a c b ∧
      ∀ a' c' b', a' ++ c' :: b' <+: l → Decimalish a' c' b' → a'.length < a.length ∨ a' = a ∧ b' <+: b)
    ∧ (decimalAt l = none → ∀ a c b, a ++ c :: b <+: l → ¬Decimalish a c b) := by
  have hl : l.takeWhile digit ++ l.dropWhile digit = l := List.takeWhile_append_dropWhile
  set d := l.takeWhile digit with hd
  have hdig : ∀ x ∈ d, digit x = true := fun x hx => List.all_eq_true.mp List.all_takeWhile x hx
  -- every text that fits either begins with all the digits or is within them
  have key : ∀ a c b, a ++ c :: b <+: l → Decimalish a c b →
      (a = d ∧ ∃ r, l.dropWhile digit = c :: r ∧ b <+: r.takeWhile digit) ∨ a ++ c :: b <+: d := by
    rintro a c b hp ⟨-, ha, -, -, hb⟩
    have hpa : a <+: d := prefix_takeWhile ((List.prefix_append a _).trans hp) ha
    obtain ⟨t, ht⟩ := hpa
    cases t with
    | nil =>
      left
      rw [List.append_nil] at ht
      subst ht
      rw [← hl] at hp
      have h1 : c :: b <+: l.dropWhile digit := (List.prefix_append_right_inj _).mp hp
      obtain ⟨t, ht⟩ := h1
      refine ⟨rfl, b ++ t, ht.symm, prefix_takeWhile (List.prefix_append ..) hb⟩
    | cons x t =>
      right
      have hx : c = x := by
        rw [← hl, ← ht, List.append_assoc] at hp
        have h1 := (List.prefix_append_right_inj _).mp hp
        rw [List.cons_append] at h1
        exact (List.cons_prefix_cons.mp h1).1
      refine prefix_takeWhile hp ?_
      intro y hy
      rcases List.mem_append.mp hy with hy | hy
      · exact ha y hy
      · rcases List.mem_cons.mp hy with rfl | hy
        · refine hdig _ (ht ▸ ?_)
          rw [hx]; simp
        · exact hb y hy
  -- texts within the digits leave two of them to the end
  have inner : ∀ a c b, a ++ c :: b <+: d → Decimalish a c b → a.length + 1 + b.length ≤ d.length ∧ 1 ≤ a.length ∧ 1 ≤ b.length := by
    rintro a c b h ⟨ha, -, -, hb, -⟩
    have := h.length_le
    have := List.length_pos_iff.mpr ha
    have := List.length_pos_iff.mpr hb
    simp at *
    omega
  by_cases hlong : ∃ c r, l.dropWhile digit = c :: r ∧ c ≠ '\n' ∧ d ≠ [] ∧ r.takeWhile digit ≠ []
  · obtain ⟨c, r, hr, hc, hd0, hb0⟩ := hlong
    have e : decimalAt l = some (d ++ c :: r.takeWhile digit) := by
      unfold decimalAt
      simp only [← hd, hr]
      rw [if_pos ⟨hc, hd0, hb0⟩]
    refine ⟨fun m hm => ?_, fun hn => by rw [e] at hn; cases hn⟩
    rw [e] at hm
    cases hm
    refine ⟨d, c, r.takeWhile digit, rfl, ?_, ⟨hd0, hdig, hc, hb0, fun x hx => List.all_eq_true.mp List.all_takeWhile x hx⟩, ?_⟩
    · rw [← hl, hr]
      exact (List.prefix_append_right_inj _).mpr (List.cons_prefix_cons.mpr ⟨rfl, List.takeWhile_prefix _⟩)
    · intro a' c' b' hp hD
      rcases key a' c' b' hp hD with ⟨rfl, r', hr', hb'⟩ | h
      · rw [hr] at hr'
        cases hr'
        exact .inr ⟨rfl, hb'⟩
      · have := inner _ _ _ h hD
        left; omega
  · have nolong : ∀ a c b, a ++ c :: b <+: l → Decimalish a c b → a ++ c :: b <+: d := by
      intro a c b hp hD
      rcases key a c b hp hD with ⟨rfl, r', hr', hb'⟩ | h
      · exfalso
        refine hlong ⟨c, r', hr', hD.2.2.1, hD.1, ?_⟩
        intro h0
        rw [h0] at hb'
        exact hD.2.2.2.1 (List.prefix_nil.mp hb')
      · exact h
    have e : decimalAt l = if 3 ≤ d.length then some d else none := by
      unfold decimalAt
      simp only [← hd]
      split
      · rename_i m hm
        exfalso
        split at hm
        · rename_i c r hr
          split_ifs at hm with h
          exact hlong ⟨c, r, hr, h⟩
        · cases hm
      · rfl
    rw [e]
    split_ifs with h3
    · refine ⟨fun m hm => ?_, fun hn => by cases hn⟩
      cases hm
      obtain ⟨a, x, y, hxy⟩ : ∃ a x y, d = a ++ x :: [y] := by
        rcases List.eq_nil_or_concat d with h | ⟨d1, y, h⟩
        · rw [h] at h3; simp at h3
        rcases List.eq_nil_or_concat d1 with h' | ⟨d2, x, h'⟩
        · rw [h, h'] at h3; simp at h3
        exact ⟨d2, x, y, by rw [h, h']; simp⟩
      have hlen : d.length = a.length + 2 := by rw [hxy]; simp
      refine ⟨a, x, [y], hxy, ?_, ⟨?_, ?_, ?_, by simp, ?_⟩, ?_⟩
      · rw [← hl]; exact List.prefix_append ..
      · rintro rfl; simp at hlen; omega
      · intro z hz; exact hdig z (by rw [hxy]; simp [hz])
      · rintro rfl
        have := hdig '\n' (by rw [hxy]; simp)
        revert this; decide
      · intro z hz; exact hdig z (by rw [hxy]; simp at hz; simp [hz])
      · intro a' c' b' hp hD
        have h := nolong _ _ _ hp hD
        have := inner _ _ _ h hD
        by_cases hlt : a'.length < a.length
        · exact .inl hlt
        right
        have hl2 : a'.length = a.length := by omega
        rw [hxy] at h
        obtain ⟨t, ht⟩ := h
        rw [List.append_assoc] at ht
        obtain ⟨h1, h2⟩ := List.append_inj ht hl2
        refine ⟨h1, t, ?_⟩
        rw [List.cons_append] at h2
        exact (List.cons.inj h2).2
    · refine ⟨fun m hm => (by cases hm), fun _ a c b hp hD => ?_⟩
      have := inner _ _ _ (nolong _ _ _ hp hD) hD
      omega

example : decimalAt "12.5 s".toList = some "12.5".toList ∧ decimalAt "123 s".toList = some "123".toList ∧ decimalAt "12 s".toList = none := by decide

theorem lit_head {l : Lit} (h : PlainDec l) (post : List Char) : ∀ c ∈ (l.text ++ post).head?, space c = false := by
  intro c hc
  obtain ⟨h1, h2, -, -⟩ := h
  cases hi : l.int with
  | nil => exact absurd hi h2
  | cons d ds =>
    unfold Lit.text at hc
    rw [h1, hi] at hc
    simp only [signText, List.nil_append, List.map_cons, List.cons_append, List.head?_cons, Option.mem_def, Option.some.injEq] at hc
    subst hc
    exact (digitChar_ne d).2.2.2.2.2.2.2.1

theorem matchAt_says {label w w' post : List Char} {l : Lit} (hw : ∀ c ∈ w, space c = true) (hw' : ∀ c ∈ w', space c = true) (h : PlainDec l)
    (hp : ∀ c ∈ post.head?, digit c = false) : matchAt label (label ++ (w ++ '=' :: (w' ++ (l.text ++ post)))) = some l.text := by
  unfold matchAt
  rw [after_self]
  simp only
  rw [dropWhile_space w hw (by intro c hc; simp at hc; subst hc; decide)]
  simp only [if_true]
  rw [dropWhile_space w' hw' (lit_head h post), decimalAt_lit h hp]

theorem matchAt_head {label l : List Char} {c d : Char} (h : label.head? = some c) (hd : d ≠ c) : matchAt label (d :: l) = none := by
  cases label with
  | nil => cases h
  | cons x label =>
    cases h
    simp [matchAt, after, Ne.symm hd]

theorem firstMatch_says {label line : List Char} {v : ℚ} (hT : label.head? = some 'T') (h : Says label line v) :
    ∃ m, firstMatch label line = some m ∧ pyFloat m = some (.fin v) := by
  obtain ⟨pre, w, w', l, post, rfl, h1, h2, h3, h4, h5, rfl⟩ := h
  refine ⟨l.text, ?_, ?_⟩
  · have e : pre ++ label ++ w ++ '=' :: w' ++ l.text ++ post = pre ++ (label ++ (w ++ '=' :: (w' ++ (l.text ++ post)))) := by simp
    rw [e]
    clear e
    induction pre with
    | nil =>
      have := matchAt_says (label := label) h2 h3 h4 h5
      cases label with
      | nil => cases hT
      | cons x label =>
        simp only [List.nil_append, List.cons_append] at this ⊢
        rw [firstMatch, this]
    | cons c pre ih =>
      have hc : c ≠ 'T' := fun e => h1 (e ▸ List.mem_cons_self ..)
      rw [List.cons_append, firstMatch, matchAt_head hT hc]
      exact ih (fun hx => h1 (List.mem_cons_of_mem _ hx))
  · have hv : l.Valid := by
      refine ⟨?_, by rw [h4.2.2.2]; simp⟩
      obtain ⟨-, hi, -, -⟩ := h4
      intro e
      exact hi (List.append_eq_nil_iff.mp e).1
    simpa using C86_number hv [] [] (by simp) (by simp)

theorem firstMatch_silent {label line : List Char} (h : ¬label <:+: line) : firstMatch label line = none := by
  have key : ∀ l, ¬label <+: l → matchAt label l = none := by
    intro l hl
    unfold matchAt
    cases ha : after label l with
    | none => rfl
    | some r => exact absurd ⟨r, (after_some ha).symm⟩ hl
  induction line with
  | nil => exact key [] fun hp => h hp.isInfix
  | cons c l ih =>
    rw [firstMatch, key _ fun hp => h hp.isInfix]
    exact ih fun hp => h (hp.trans (List.suffix_cons c l).isInfix)

theorem infix_newline {label l : List Char} (hn : '\n' ∉ label) (h : label <:+: l ++ ['\n']) : label <:+: l := by
  obtain ⟨s, t, e⟩ := h
  rcases List.eq_nil_or_concat t with rfl | ⟨t', c, rfl⟩
  · rcases List.eq_nil_or_concat label with rfl | ⟨p, c, rfl⟩
    · exact ⟨[], l, by simp⟩
    · exfalso
      have e : (s ++ p) ++ [c] = l ++ ['\n'] := by rw [← e]; simp
      have := (List.append_inj' e rfl).2
      cases this
      simp at hn
  · have e : (s ++ label ++ t') ++ [c] = l ++ ['\n'] := by rw [← e]; simp
    exact ⟨s, t', (List.append_inj' e rfl).1⟩

theorem says_newline {label l : List Char} {v : ℚ} (h : Says label l v) : Says label (l ++ ['\n']) v := by
  obtain ⟨pre, w, w', lit, post, rfl, h1, h2, h3, h4, h5, h6⟩ := h
  refine ⟨pre, w, w', lit, post ++ ['\n'], by simp, h1, h2, h3, h4, ?_, h6⟩
  intro c hc
  cases post with
  | nil => simp at hc; subst hc; decide
  | cons d post => exact h5 c (by simpa using hc)

theorem readlines_textOf {lines : List (List Char)} (h : ∀ l ∈ lines, OneLine l) : readlines (translate (textOf lines)) = lines.map fun l => l ++ ['\n'] := by
  induction lines with
  | nil => rfl
  | cons l ls ih =>
    have e : textOf (l :: ls) = l ++ (Eol.text .lf ++ textOf ls) := by simp [textOf, Eol.text]
    have hl := h l (List.mem_cons_self ..)
    rw [e, translate_plain hl, translate_eol .lf (by simp), readlines_line hl, ih fun x hx => h x (List.mem_cons_of_mem _ hx)]
    rfl

theorem timeIn_silent {label : List Char} (t : Option Num) {lines : List (List Char)} (h : ∀ l ∈ lines, ¬label <:+: l) : timeIn label t lines = .ok t := by
  induction lines with
  | nil => rfl
  | cons l ls ih =>
    rw [timeIn, firstMatch_silent (h l (List.mem_cons_self ..))]
    exact ih fun m hm => h m (List.mem_cons_of_mem _ hm)

theorem timeIn_last {label : List Char} (hT : label.head? = some 'T') (t : Option Num) {before after : List (List Char)} {l : List Char} {v : ℚ}
    (hb : ∀ m ∈ before, ¬label <:+: m ∨ ∃ u, Says label m u) (hl : Says label l v) (ha : ∀ m ∈ after, ¬label <:+: m) :
    timeIn label t (before ++ l :: after) = .ok (some (.fin v)) := by
  induction before generalizing t with
  | nil =>
    obtain ⟨m, h1, h2⟩ := firstMatch_says hT hl
    rw [List.nil_append, timeIn, h1]
    simp only [h2]
    exact timeIn_silent _ ha
  | cons b before ih =>
    have ih := fun t => ih t fun m hm => hb m (List.mem_cons_of_mem _ hm)
    rw [List.cons_append, timeIn]
    rcases hb b (List.mem_cons_self ..) with hs | ⟨u, hu⟩
    · rw [firstMatch_silent hs]
      exact ih t
    · obtain ⟨m, h1, h2⟩ := firstMatch_says hT hu
      rw [h1]
      simp only [h2]
      exact ih _

/-- **C110** (times). Let every line of IPOPT's output file either say what the time with the label is or not contain the label. Then the time read from the file is
that of the last line that says it, and there is none if no line has the label. -/
theorem C110_times {label : String} (hlabel : label = nlpLabel ∨ label = ipoptLabel) {lines : List (List Char)} (hn : ∀ l ∈ lines, OneLine l) :
    (∀ before l after v, lines = before ++ l :: after → Says label.toList l v → (∀ m ∈ before, ¬label.toList <:+: m ∨ ∃ u, Says label.toList m u) →
      (∀ m ∈ after, ¬label.toList <:+: m) → timeIn label.toList none (readlines (translate (textOf lines))) = .ok (some (.fin v)))
    ∧ ((∀ m ∈ lines, ¬label.toList <:+: m) → timeIn label.toList none (readlines (translate (textOf lines))) = .ok none) := by
  have hT : label.toList.head? = some 'T' := by rcases hlabel with rfl | rfl <;> decide +kernel
  have hN : '\n' ∉ label.toList := by rcases hlabel with rfl | rfl <;> decide +kernel
  rw [readlines_textOf hn]
  refine ⟨?_, fun h => ?_⟩
  · rintro before l after v rfl hl hb ha
    rw [List.map_append, List.map_cons]
    refine timeIn_last hT none ?_ (says_newline hl) ?_
    · intro m hm
      obtain ⟨m', hm', rfl⟩ := List.mem_map.mp hm
      rcases hb m' hm' with hx | ⟨u, hx⟩
      · exact .inl fun hy => hx (infix_newline hN hy)
      · exact .inr ⟨u, says_newline hx⟩
    · intro m hm
      obtain ⟨m', hm', rfl⟩ := List.mem_map.mp hm
      exact fun hy => ha m' hm' (infix_newline hN hy)
  · refine timeIn_silent _ fun m hm => ?_
    obtain ⟨m', hm', rfl⟩ := List.mem_map.mp hm
    exact fun hy => h m' hm' (infix_newline hN hy)

/-! ## The options -/

theorem update_lookup {α : Type} (u : Dict α) (d : Dict α) (n : String) (hu : u.keys.Nodup) :
    (d.update u).lookup n = match u.lookup n with | some v => some v | none => d.lookup n := by
  induction u generalizing d with
  | nil => rfl
  | cons p u ih =>
    obtain ⟨k, v⟩ := p
    have hu' : k ∉ Dict.keys u ∧ (Dict.keys u).Nodup := List.nodup_cons.mp hu
    show ((d.set k v).update u).lookup n = _
    rw [ih _ hu'.2, Dict.lookup_cons, Dict.lookup_set]
    by_cases e : n = k
    · subst e
      have : u.lookup n = none := (Dict.lookup_none _ _).mpr hu'.1
      rw [this]
      simp
    · simp [e]

theorem update_nodup {α : Type} (u d : Dict α) (h : d.keys.Nodup) : (d.update u).keys.Nodup := by
  induction u generalizing d with
  | nil => exact h
  | cons p u ih => exact ih _ (Dict.nodup_set h p.1 p.2)

/-- **C110** (options). On macOS and Linux, each option has the value that the user gave for it; otherwise the documented default, with the linear solver ma27 if
the HSL library of the system lies in the directory `hsl`; there are no other options. -/
theorem C110_options (approx : String) (M : Machine) {user : Dict Opt} (hu : user.keys.Nodup) {lib : String}
    (hs : M.system = "Darwin" ∧ lib = "hsl/libcoinhsl.dylib" ∨ M.system = "Linux" ∧ lib = "hsl/libcoinhsl.so") :
    ∃ d, options approx M user = .ok d ∧ d.keys.Nodup ∧ (∀ n v, user.lookup n = some v → d.lookup n = some v)
      ∧ ∀ n, user.lookup n = none → d.lookup n =
        if n = "mu_strategy" then some (.str "adaptive") else if n = "tol" then some (.float (1 / 1000))
        else if n = "linear_solver" then some (.str (if (M.files lib).isSome then "ma27" else "mumps"))
        else if n = "print_level" then some (.int 4) else if n = "nlp_scaling_method" then some (.str "user-scaling")
        else if n = "max_iter" then some (.int 100) else if n = "print_timing_statistics" then some (.str "yes")
        else if n = "hessian_approximation" then some (.str approx)
        else if n = "fixed_variable_treatment" then some (.str "make_parameter_nodual")
        else if n = "output_file" then some (.str "ipopt.out")
        else if n = "hsllib" ∧ (M.files lib).isSome then some (.str lib) else none := by
  have hl : hslPath M.system = some lib := by rcases hs with ⟨h, rfl⟩ | ⟨h, rfl⟩ <;> rw [h] <;> decide
  unfold options defaultOptions
  simp only [hl]
  refine ⟨_, rfl, update_nodup _ _ ?_, fun n v h => by rw [update_lookup _ _ _ hu, h], fun n h => ?_⟩
  · split_ifs
    · exact update_nodup _ _ (by simp [Dict.keys])
    · simp [Dict.keys]
  · rw [update_lookup _ _ _ hu, h]
    by_cases hf : (M.files lib).isSome = true
    · simp only [hf, if_true, and_true]
      rw [update_lookup _ _ _ (by simp [Dict.keys])]
      simp only [Dict.lookup_cons, List.lookup_nil]
      by_cases e : n = "hsllib"
      · subst e; simp
      · by_cases e' : n = "linear_solver"
        · subst e'; simp
        · simp [e, e']
    · simp only [hf, Bool.false_eq_true, if_false, and_false, Dict.lookup_cons, List.lookup_nil]

theorem addOptions_ok (I : Ipopt) (d : Dict Opt) : (addOptions I d = .ok () ↔ ∀ p ∈ d, I.accepts p.1 p.2 = true)
    ∧ (addOptions I d = .ok () ∨ addOptions I d = .error .typeError) := by
  induction d with
  | nil => simp [addOptions]
  | cons p d ih =>
    obtain ⟨n, v⟩ := p
    rw [addOptions]
    by_cases h : I.accepts n v = true
    · rw [if_pos h]
      refine ⟨?_, ih.2⟩
      rw [ih.1]
      simp [h]
    · rw [if_neg h]
      refine ⟨?_, .inr rfl⟩
      simp [h]

/-! ## A call of `solve` -/

/-- The constant objective is added without an exception. -/
theorem start_eq {n : Nat} {D : List ℝ → Prop} {p : Prob} (hp : Reachable n p D) :
    (if p.objs.isEmpty then p.addObjective "const_obj" (constObj p.numDec) else (p, none) : Prob × Option PyErr) = (solvedProb p, none)
      ∧ (solvedProb p).numDec = n ∧ (solvedProb p).numCon = p.numCon ∧ (solvedProb p).scales = p.scales := by
  have hI := hp.inv
  unfold solvedProb
  by_cases he : p.objs.isEmpty = true
  · have ho : p.objs = [] := by simpa using he
    have hgood := constObj_good (D := D) n
    obtain ⟨a1, a2⟩ := hgood.setInput hI.scales
    have e : (constObj n).setInputScales p.scales = (((constObj n).setInputScales p.scales).1, none) := by rw [← a1]
    have e2 : p.addObjective "const_obj" (constObj p.numDec)
        = ({ p with objs := p.objs ++ [("const_obj", ((constObj n).setInputScales p.scales).1)] }, none) := by
      unfold Prob.addObjective
      rw [if_neg (by simp [hasKey, ho]), hI.dec, e]
    rw [if_pos he, if_pos he, e2]
    exact ⟨rfl, hI.dec, rfl, rfl⟩
  · rw [if_neg he, if_neg he]
    exact ⟨rfl, hI.dec, rfl, rfl⟩

theorem intermediates_eq (k : Option Nat) (is : List Nat) : intermediates k is = match is.getLast? with | some i => some i | none => k := by
  induction is generalizing k with
  | nil => rfl
  | cons i is ih =>
    rw [intermediates, ih, List.getLast?_cons]
    cases is.getLast? <;> rfl

/-- **C110** (a call of `solve`). When IPOPT accepts the options, it is run once, with these options and what C17 says; then the machine has the files that IPOPT left,
and the result is that of C17 together with IPOPT's status, the number of the last iteration that IPOPT reported in this call (if it reported none: in an earlier
call) and the times; after status -13 it is a RuntimeError. -/
theorem C110_solve (I : Ipopt) {n : Nat} {D : List ℝ → Prop} {o : Object} (hp : Reachable n o.prob D) (M : Machine) (c : Call) {d : Dict Opt}
    (hd : options o.approx M c.user = .ok d) (ha : ∀ p ∈ d, I.accepts p.1 p.2 = true) :
    ∃ r k, r = I.run d (solvedProb o.prob)
          ⟨n, o.prob.numCon, scaleBounds c.lb o.prob.scales, scaleBounds c.ub o.prob.scales, vdiv (c.guess.getD c.dflt) o.prob.scales⟩ M
      ∧ (k = match r.iters.getLast? with | some i => some i | none => o.numIter)
      ∧ (solve I o M c).1 = ⟨solvedProb o.prob, k, o.approx⟩
      ∧ (solve I o M c).2.1 = ⟨M.system, r.files⟩
      ∧ (solve I o M c).2.2 = (do
          let (x, s) ← (o.prob.solve c.lb c.ub c.guess c.dflt fun q i => ((I.run d q i M).x, (I.run d q i M).status)).2
          let t ← times d r.files
          return (x, ⟨s, k, t.1, t.2⟩)) := by
  obtain ⟨input, e1, e2⟩ := solve_eq hp c.lb c.ub c.guess c.dflt fun q i => ((I.run d q i M).x, (I.run d q i M).status)
  obtain ⟨q1, q2, q3, q4⟩ := start_eq hp
  refine ⟨_, _, rfl, rfl, ?_⟩
  have h2 : (do let d ← options o.approx M c.user; addOptions I d; return d : Py (Dict Opt)) = .ok d := by
    rw [hd]
    have := (addOptions_ok I d).1.mpr ha
    simp only [bind, Except.bind, this]
    rfl
  rw [e2, e1]
  unfold solve
  rw [q1]
  simp only [h2, q2, q3, q4, intermediates_eq]
  generalize I.run d (solvedProb o.prob) _ M = r
  by_cases hs : r.status = -13
  · rw [if_pos hs]
    refine ⟨rfl, rfl, ?_⟩
    rw [if_pos hs]
    rfl
  · rw [if_neg hs]
    refine ⟨rfl, rfl, ?_⟩
    rw [if_neg hs]
    simp only [bind, Except.bind]
    cases times d r.files with
    | error e => rfl
    | ok t => rfl

/-- **C110** (nothing is run). If the options cannot be made or one is refused, IPOPT is not run: the exception (NameError, TypeError) is raised, and only the
constant objective, for a problem without objectives, is left behind. -/
theorem C110_refused (I : Ipopt) {n : Nat} {D : List ℝ → Prop} {o : Object} (hp : Reachable n o.prob D) (M : Machine) (c : Call) :
    (∀ e, options o.approx M c.user = .error e → solve I o M c = ({ o with prob := solvedProb o.prob }, M, .error e))
    ∧ ∀ d, options o.approx M c.user = .ok d → (∃ p ∈ d, I.accepts p.1 p.2 = false) →
      solve I o M c = ({ o with prob := solvedProb o.prob }, M, .error .typeError) := by
  obtain ⟨q1, -⟩ := start_eq hp
  unfold solve
  rw [q1]
  refine ⟨fun e he => ?_, fun d hd ⟨p, hm, hf⟩ => ?_⟩
  · simp only [he, bind, Except.bind]
  · have : addOptions I d = .error .typeError := by
      rcases (addOptions_ok I d).2 with h | h
      · have := (addOptions_ok I d).1.mp h p hm
        rw [hf] at this
        cases this
      · exact h
    simp only [hd, this, bind, Except.bind]

/-- **C110** (finding: Windows). The name of the system is misspelt in the code: on Windows (as on every system but macOS and Linux) no problem can be solved, whatever the
options are; every call raises UnboundLocalError before IPOPT is run. -/
theorem C110_windows (I : Ipopt) {n : Nat} {D : List ℝ → Prop} {o : Object} (hp : Reachable n o.prob D) {M : Machine}
    (hs : M.system ≠ "Darwin" ∧ M.system ≠ "Linux" ∧ M.system ≠ "Widows") (c : Call) :
    solve I o M c = ({ o with prob := solvedProb o.prob }, M, .error .nameError) := by
  refine (C110_refused I hp M c).1 _ ?_
  unfold options defaultOptions hslPath
  rw [if_neg hs.1, if_neg hs.2.1, if_neg hs.2.2]
  rfl

/-! ## The times in the report -/

/-- **C110** (no times). No file is read, and no times are reported, if the user turns the statistics off, lowers the print level below 4 or sets no output file. -/
theorem C110_no_times {d : Dict Opt} (files : String → Option (List Char)) {s : String} {l : Int} (h1 : d.lookup "print_timing_statistics" = some (.str s))
    (h2 : d.lookup "print_level" = some (.int l)) (h : s ≠ "yes" ∨ l < 4 ∨ d.lookup "output_file" = some (.str "")) : times d files = .ok (none, none) := by
  have : timesFile d = .ok none := by
    unfold timesFile
    simp only [Dict.get, h1, h2, bind, Except.bind]
    by_cases hs : s = "yes"
    · subst hs
      simp only [if_true]
      by_cases hl : l < 4
      · have : ¬(4 : ℚ) ≤ (l : ℚ) := by
          rw [not_le]
          exact_mod_cast hl
        rw [if_neg this]
        rfl
      · have ho : d.lookup "output_file" = some (.str "") := by
          rcases h with h | h | h
          · exact absurd rfl h
          · exact absurd h hl
          · exact h
        rw [ho]
        split_ifs <;> rfl
    · rw [if_neg (by simpa using hs)]
      rfl
  unfold times
  simp only [this, bind, Except.bind]
  rfl

/-- **C110** (times in the report). With the statistics on, a print level of at least 4 and an output file, the times are those in the file (`C110_times`);
if the file is missing the call raises FileNotFoundError. -/
theorem C110_reads {d : Dict Opt} (files : String → Option (List Char)) {f : String} {l : Int} (h1 : d.lookup "print_timing_statistics" = some (.str "yes"))
    (h2 : d.lookup "print_level" = some (.int l)) (hl : 4 ≤ l) (h3 : d.lookup "output_file" = some (.str f)) (hf : f ≠ "") :
    (files f = none → times d files = .error .fileNotFoundError)
    ∧ ∀ text a b, files f = some text → timeIn nlpLabel.toList none (readlines (translate text)) = .ok a →
        timeIn ipoptLabel.toList none (readlines (translate text)) = .ok b → times d files = .ok (a, b) := by
  have : timesFile d = .ok (some f) := by
    unfold timesFile
    simp only [Dict.get, h1, h2, h3, bind, Except.bind, if_true]
    have : (4 : ℚ) ≤ (l : ℚ) := by exact_mod_cast hl
    rw [if_pos this, if_neg hf]
    rfl
  unfold times
  simp only [this, bind, Except.bind]
  refine ⟨fun h => by rw [h], fun text a b h ha hb => ?_⟩
  rw [h]
  simp only [ha, hb]
  rfl

/-- **C110** (finding: a solution is lost). If the output file is not where the options say, the solution that IPOPT has found is not returned. -/
theorem C110_lost (I : Ipopt) {n : Nat} {D : List ℝ → Prop} {o : Object} (hp : Reachable n o.prob D) (M : Machine) (c : Call) {d : Dict Opt}
    (hd : options o.approx M c.user = .ok d) (ha : ∀ p ∈ d, I.accepts p.1 p.2 = true) {f : String} {l : Int}
    (h1 : d.lookup "print_timing_statistics" = some (.str "yes"))
    (h2 : d.lookup "print_level" = some (.int l)) (hl : 4 ≤ l) (h3 : d.lookup "output_file" = some (.str f)) (hf : f ≠ "")
    (hmiss : ∀ q i, (I.run d q i M).files f = none) (hok : ∀ q i, (I.run d q i M).status ≠ -13) :
    (solve I o M c).2.2 = .error .fileNotFoundError := by
  obtain ⟨r, k, hr, -, -, -, e⟩ := C110_solve I hp M c hd ha
  obtain ⟨input, e1, e2⟩ := solve_eq hp c.lb c.ub c.guess c.dflt fun q i => ((I.run d q i M).x, (I.run d q i M).status)
  have ht : times d r.files = .error .fileNotFoundError := (C110_reads r.files h1 h2 hl h3 hf).1 (by rw [hr]; exact hmiss _ _)
  rw [e, e2]
  simp only [if_neg (hok _ _), bind, Except.bind, ht]

/-- **C110** (finding: an old number of iterations). If IPOPT stops before its first iteration, `num_iter` is that of an earlier call: of two calls the second then
reports the last iteration of the first. -/
theorem C110_old_iterations (I : Ipopt) {n : Nat} {D : List ℝ → Prop} {o : Object} (hp : Reachable n o.prob D) (M : Machine) (c : Call) {d : Dict Opt}
    (hd : options o.approx M c.user = .ok d) (ha : ∀ p ∈ d, I.accepts p.1 p.2 = true) (hn : ∀ q i, (I.run d q i M).iters = []) :
    (solve I o M c).1.numIter = o.numIter ∧ ∀ x info, (solve I o M c).2.2 = .ok (x, info) → info.numIter = o.numIter := by
  obtain ⟨r, k, hr, hk, e1, -, e⟩ := C110_solve I hp M c hd ha
  have : r.iters = [] := by rw [hr]; exact hn _ _
  rw [this] at hk
  have hk : k = o.numIter := hk
  refine ⟨by rw [e1]; exact hk, fun x info h => ?_⟩
  rw [e] at h
  simp only [bind, Except.bind] at h
  split at h
  · cases h
  · split at h
    · cases h
    · cases h
      exact hk

/-! ## Examples -/

/-- Lines as IPOPT prints them. -/
def exLines : List (List Char) := ["Number of Iterations....: 7".toList, "Total seconds in IPOPT (w/o function evaluations)    =      0.125".toList,
  "Total seconds in NLP function evaluations            =     12.500".toList, "EXIT: Optimal Solution Found.".toList]

theorem exLines_says : Says nlpLabel.toList "Total seconds in NLP function evaluations            =     12.500".toList (25 / 2)
    ∧ Says ipoptLabel.toList "Total seconds in IPOPT (w/o function evaluations)    =      0.125".toList (1 / 8) := by
  refine ⟨⟨[], List.replicate 11 ' ', List.replicate 5 ' ', ⟨none, [1, 2], some [5, 0, 0], none⟩, [], by decide +kernel, by simp,
      by decide, by decide, ⟨rfl, by simp, ⟨_, rfl, by simp⟩, rfl⟩, by simp, ?_⟩,
    ⟨[], List.replicate 3 ' ', List.replicate 6 ' ', ⟨none, [0], some [1, 2, 5], none⟩, [], by decide +kernel, by simp,
      by decide, by decide, ⟨rfl, by simp, ⟨_, rfl, by simp⟩, rfl⟩, by simp, ?_⟩⟩
  · simp [Lit.value, number, Nat.ofDigits]; norm_num
  · simp [Lit.value, number, Nat.ofDigits]; norm_num

theorem exLines_times : timeIn nlpLabel.toList none (readlines (translate (textOf exLines))) = .ok (some (.fin (25 / 2)))
    ∧ timeIn ipoptLabel.toList none (readlines (translate (textOf exLines))) = .ok (some (.fin (1 / 8))) := by
  have ho : ∀ l ∈ exLines, OneLine l := by
    unfold OneLine
    decide +kernel
  refine ⟨(C110_times (.inl rfl) ho).1 [exLines.getD 0 [], exLines.getD 1 []] _ [exLines.getD 3 []] _ rfl exLines_says.1 ?_ ?_,
    (C110_times (.inr rfl) ho).1 [exLines.getD 0 []] _ [exLines.getD 2 [], exLines.getD 3 []] _ rfl exLines_says.2 ?_ ?_⟩
  · have : ∀ m ∈ [exLines.getD 0 [], exLines.getD 1 []], ¬nlpLabel.toList <:+: m := by decide +kernel
    exact fun m hm => .inl (this m hm)
  · decide +kernel
  · have : ∀ m ∈ [exLines.getD 0 []], ¬ipoptLabel.toList <:+: m := by decide +kernel
    exact fun m hm => .inl (this m hm)
  · decide +kernel

/-- An IPOPT that accepts every option, reports 8 iterations (0 to 7) and returns the starting point. -/
noncomputable def exIpopt : Ipopt := ⟨fun _ _ => true, fun _ _ i _ => ⟨i.x0, 0, List.range 8, fun _ => some (textOf exLines)⟩⟩

/-- A call on Linux with a larger number of iterations. -/
example (n : Nat) (x0 : List ℝ) : ∃ x, (solve exIpopt ⟨Prob.init n, none, "exact"⟩ ⟨"Linux", fun _ => none⟩ ⟨[], [], some x0, [], [("max_iter", .int 500)]⟩).2.2
    = .ok (x, ⟨0, some 7, some (.fin (25 / 2)), some (.fin (1 / 8))⟩) := by
  obtain ⟨d, hd, -, h1, h2⟩ := C110_options "exact" ⟨"Linux", fun _ => none⟩ (user := [("max_iter", .int 500)]) (by simp [Dict.keys])
    (lib := "hsl/libcoinhsl.so") (.inr ⟨rfl, rfl⟩)
  have hp : Reachable n (Prob.init n) (fun _ => True) := ⟨[], trivial, rfl⟩
  obtain ⟨r, k, hr, hk, -, -, e⟩ := C110_solve exIpopt (o := ⟨Prob.init n, none, "exact"⟩) hp ⟨"Linux", fun _ => none⟩
    ⟨[], [], some x0, [], [("max_iter", .int 500)]⟩ hd (fun _ _ => rfl)
  obtain ⟨input, e1, e2⟩ := solve_eq hp [] [] (some x0) [] fun q i => ((exIpopt.run d q i ⟨"Linux", fun _ => none⟩).x, (exIpopt.run d q i ⟨"Linux", fun _ => none⟩).status)
  have ht : times d r.files = .ok (some (.fin (25 / 2)), some (.fin (1 / 8))) := by
    refine (C110_reads r.files (f := "ipopt.out") (l := 4) ?_ ?_ (by decide) ?_ (by decide)).2 (textOf exLines) _ _ ?_ exLines_times.1 exLines_times.2
    · rw [h2 _ (by decide)]; decide
    · rw [h2 _ (by decide)]; decide
    · rw [h2 _ (by decide)]; decide
    · rw [hr]; rfl
  have hk : k = some 7 := by
    rw [hk, hr]
    rfl
  refine ⟨vmul input.x0 (Prob.init n).scales, ?_⟩
  rw [e]
  simp only
  rw [e2, hk, ht]
  rw [if_neg (by show ¬(0 : Int) = -13; decide)]
  rfl

/-- On Windows the same call fails. -/
example (n : Nat) (c : Call) : (solve exIpopt ⟨Prob.init n, none, "exact"⟩ ⟨"Windows", fun _ => none⟩ c).2.2 = .error .nameError := by
  have hp : Reachable n (Prob.init n) (fun _ => True) := ⟨[], trivial, rfl⟩
  rw [C110_windows exIpopt (o := ⟨Prob.init n, none, "exact"⟩) hp (by decide) c]

end Lumos.Report
