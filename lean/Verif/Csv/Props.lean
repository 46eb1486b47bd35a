import Verif.Csv.Model
import Verif.Tir.File
/-!
# C107: reading a track file
-/

namespace Lumos.Csv

open Lumos Tir Track

/-! ## Specification: a file written line by line -/

/-- A field of a row: nothing, or a decimal with blanks around it. -/
inductive Field where
  | empty
  | number (before : Nat) (lit : Lit) (after : Nat)

/-- The text of a field. -/
def Field.text : Field → List Char
  | .empty => []
  | .number a l b => List.replicate a ' ' ++ l.text ++ List.replicate b ' '

/-- What a field says; an empty one says nothing. -/
def Field.says : Field → Num
  | .empty => .nan
  | .number _ l _ => .fin l.value

/-- A field is written properly. -/
def Field.Valid : Field → Prop
  | .empty => True
  | .number _ l _ => l.Valid

/-- A line of the file after the header: blanks, or the fields of a row. -/
inductive Line where
  | blanks (l : List Char)
  | row (fields : List Field)

/-- Texts joined by a separator. -/
def join (d : List Char) : List (List Char) → List Char
  | [] => []
  | [a] => a
  | a :: b :: l => a ++ d ++ join d (b :: l)

/-- The text of a line. -/
def Line.text : Line → List Char
  | .blanks l => l
  | .row r => join [','] (r.map Field.text)

/-- A track file: blank lines, the names of the columns, lines. The last line has no end; a file that ends in a line end has an empty last line. -/
structure File where
  eol : Eol
  before : List (List Char)
  header : List (List Char)
  lines : List Line

namespace File

/-- The rows of the file. -/
def rows (F : File) : List (List Field) := F.lines.filterMap fun
  | .blanks _ => none
  | .row r => some r

/-- The text of the file. -/
def text (F : File) : List Char := join F.eol.text (F.before ++ join [','] F.header :: F.lines.map Line.text)

/-- Blanks only. -/
def Blanks (l : List Char) : Prop := ∀ c ∈ l, c = ' ' ∨ c = '\t'

/-- The file is written properly: blank lines have blanks only, the names are of one line and have no commas, there is at least one name with a visible
character, rows are not empty and their numbers are decimals. -/
structure Valid (F : File) : Prop where
  before : ∀ l ∈ F.before, Blanks l
  names : ∀ n ∈ F.header, OneLine n ∧ ',' ∉ n
  visible : ∃ n ∈ F.header, ¬ Blanks n
  blanks : ∀ l, Line.blanks l ∈ F.lines → Blanks l
  rows : ∀ r ∈ F.rows, r ≠ [] ∧ r ≠ [.empty] ∧ ∀ f ∈ r, f.Valid

/-- The name is that of column `j` and of no column before. -/
def Names (F : File) (j : Nat) (name : String) : Prop := F.header[j]? = some name.toList ∧ ∀ i, i < j → F.header[i]? ≠ some name.toList

end File

/-! ## Texts and lines -/

theorem chop_ne (d : Char) (l : List Char) : chop d l ≠ [] := by
  cases l with
  | nil => simp [chop]
  | cons c l =>
    simp only [chop]
    split_ifs
    · simp
    · split <;> simp

theorem chop_plain {d : Char} {a : List Char} (h : d ∉ a) : chop d a = [a] := by
  induction a with
  | nil => rfl
  | cons c a ih =>
    simp only [List.mem_cons, not_or] at h
    rw [chop, if_neg (fun e => h.1 e.symm), ih h.2]

theorem chop_append {d : Char} {a : List Char} (h : d ∉ a) (b : List Char) : chop d (a ++ d :: b) = a :: chop d b := by
  induction a with
  | nil => simp [chop]
  | cons c a ih =>
    simp only [List.mem_cons, not_or] at h
    rw [List.cons_append, chop, if_neg (fun e => h.1 e.symm), ih h.2]

theorem chop_join {d : Char} : ∀ {l : List (List Char)}, l ≠ [] → (∀ a ∈ l, d ∉ a) → chop d (join [d] l) = l
  | [], h, _ => absurd rfl h
  | [a], _, h => chop_plain (h a (by simp))
  | a :: b :: l, _, h => by
    rw [join, List.append_assoc, List.singleton_append, chop_append (h a (by simp)), chop_join (by simp) (fun x hx => h x (List.mem_cons_of_mem _ hx))]

theorem translate_join (e : Eol) : ∀ {l : List (List Char)}, (∀ a ∈ l, OneLine a) → translate (join e.text l) = join ['\n'] l
  | [], _ => rfl
  | [a], h => by
    have := translate_plain (r := []) (h a (by simp))
    simpa [translate, join] using this
  | a :: b :: l, h => by
    rw [join, List.append_assoc, translate_plain (h a (by simp)), translate_eol e, translate_join e (fun x hx => h x (List.mem_cons_of_mem _ hx)), join,
      List.append_assoc, List.singleton_append]
    rintro rfl c hc
    have hb := h b (by simp)
    cases b with
    | nil =>
      cases l with
      | nil => simp [join] at hc
      | cons b' l =>
        simp [join, Eol.text] at hc
        subst hc
        decide
    | cons x b =>
      have : c = x := by
        cases l <;> simp [join] at hc <;> exact hc.symm
      subst this
      exact (hb c (by simp)).1

theorem blank_iff (l : List Char) : blank l = true ↔ File.Blanks l := by
  simp [blank, File.Blanks]

theorem blanks_oneLine {l : List Char} (h : File.Blanks l) : OneLine l := by
  intro c hc
  rcases h c hc with rfl | rfl <;> decide

theorem mem_join {d : List Char} {c : Char} : ∀ {l : List (List Char)}, c ∈ join d l → c ∈ d ∨ ∃ a ∈ l, c ∈ a
  | [], h => by simp [join] at h
  | [a], h => Or.inr ⟨a, by simp, h⟩
  | a :: b :: l, h => by
    rw [join, List.mem_append, List.mem_append] at h
    rcases h with (h | h) | h
    · exact Or.inr ⟨a, by simp, h⟩
    · exact Or.inl h
    · rcases mem_join h with h | ⟨x, hx, hc⟩
      · exact Or.inl h
      · exact Or.inr ⟨x, List.mem_cons_of_mem _ hx, hc⟩

theorem join_mem {d : List Char} {c : Char} : ∀ {l : List (List Char)} {a : List Char}, a ∈ l → c ∈ a → c ∈ join d l
  | [], _, h, _ => by simp at h
  | [x], a, h, hc => by
    rw [List.mem_singleton] at h
    subst h
    exact hc
  | x :: b :: l, a, h, hc => by
    rw [join]
    rcases List.mem_cons.mp h with rfl | h
    · simp [hc]
    · simp [join_mem (d := d) h hc]

theorem join_sep {d : Char} (a b : List Char) (l : List (List Char)) : d ∈ join [d] (a :: b :: l) := by simp [join]

theorem field_mem {f : Field} {c : Char} (h : c ∈ f.text) : c = ' ' ∨ ∃ l, f = .number (match f with | .number a _ _ => a | _ => 0) l
    (match f with | .number _ _ b => b | _ => 0) ∧ c ∈ l.text := by
  cases f with
  | empty => simp [Field.text] at h
  | number a l b =>
    simp only [Field.text, List.mem_append, List.mem_replicate] at h
    rcases h with (h | h) | h
    · exact Or.inl h.2
    · exact Or.inr ⟨l, rfl, h⟩
    · exact Or.inl h.2

theorem lit_no_comma {l : Lit} : ',' ∉ l.text := by
  intro h
  rcases lit_mem h with h | ⟨d, h⟩
  · revert h; decide
  · revert h; revert d; decide

theorem field_plain (f : Field) : OneLine f.text ∧ ',' ∉ f.text := by
  constructor
  · intro c hc
    rcases field_mem hc with rfl | ⟨l, -, h⟩
    · decide
    · exact ⟨(lit_char h).2.2.2.2.1, (lit_char h).2.2.2.2.2⟩
  · intro hc
    rcases field_mem hc with h | ⟨l, -, h⟩
    · revert h; decide
    · exact lit_no_comma h

theorem lit_ne {l : Lit} (h : l.Valid) : l.text ≠ [] := by
  intro e
  rw [lit_text] at e
  simp only [List.append_eq_nil_iff] at e
  obtain ⟨-, h1, -⟩ := e
  have := h.1
  cases hf : l.frac with
  | none => rw [hf] at h1 this; simp [mantText] at h1; simp [h1] at this
  | some f => rw [hf] at h1; simp [mantText] at h1

/-- The text of a row is not blank. -/
theorem row_visible {r : List Field} (h : r ≠ [] ∧ r ≠ [.empty] ∧ ∀ f ∈ r, f.Valid) : ¬ File.Blanks (join [','] (r.map Field.text)) := by
  obtain ⟨h1, h2, h3⟩ := h
  intro hb
  match r, h1, h2, h3 with
  | [], h1, _, _ => exact h1 rfl
  | [.empty], _, h2, _ => exact h2 rfl
  | [.number a l b], _, _, h3 =>
    have hv : l.Valid := h3 (.number a l b) (by simp)
    obtain ⟨c, hc⟩ := List.exists_mem_of_ne_nil _ (lit_ne hv)
    have := hb c (by simp [join, Field.text, hc])
    have hs := (lit_char hc).2.2.1
    rcases this with rfl | rfl <;> revert hs <;> decide
  | f :: f' :: r, _, _, _ =>
    have := hb ',' (join_sep _ _ _)
    revert this
    decide

theorem line_oneLine {F : File} (hF : F.Valid) {l : Line} (h : l ∈ F.lines) : OneLine l.text := by
  cases l with
  | blanks l => exact blanks_oneLine (hF.blanks l h)
  | row r =>
    intro c hc
    rcases mem_join hc with h | ⟨a, ha, hc⟩
    · rw [List.mem_singleton] at h
      subst h
      decide
    · obtain ⟨f, -, rfl⟩ := List.mem_map.mp ha
      exact (field_plain f).1 c hc

/-- The records of a file. -/
theorem records_file {F : File} (hF : F.Valid) : records F.text = F.header :: F.rows.map fun r => r.map Field.text := by
  have hne : F.header ≠ [] := by
    obtain ⟨n, hn, -⟩ := hF.visible
    exact List.ne_nil_of_mem hn
  have hh : OneLine (join [','] F.header) := by
    intro c hc
    rcases mem_join hc with h | ⟨a, ha, hc⟩
    · rw [List.mem_singleton] at h
      subst h
      decide
    · exact (hF.names a ha).1 c hc
  have all : ∀ a ∈ F.before ++ join [','] F.header :: F.lines.map Line.text, OneLine a := by
    intro a ha
    rw [List.mem_append, List.mem_cons, List.mem_map] at ha
    rcases ha with ha | rfl | ⟨l, hl, rfl⟩
    · exact blanks_oneLine (hF.before a ha)
    · exact hh
    · exact line_oneLine hF hl
  unfold records File.text
  rw [translate_join _ all, chop_join (by simp) (fun a ha hc => (all a ha _ hc).1 rfl), List.filter_append, List.filter_cons]
  have e1 : F.before.filter (fun l => !blank l) = [] := by
    rw [List.filter_eq_nil_iff]
    intro a ha
    simp [(blank_iff a).mpr (hF.before a ha)]
  have e2 : blank (join [','] F.header) = false := by
    rw [← Bool.not_eq_true, blank_iff]
    obtain ⟨n, hn, hv⟩ := hF.visible
    exact fun hb => hv fun c hc => hb c (join_mem hn hc)
  rw [e1, e2, List.nil_append, Bool.not_false, if_pos rfl, List.map_cons, chop_join hne (fun a ha => (hF.names a ha).2)]
  congr 1
  have hb := hF.blanks
  have hr := hF.rows
  unfold File.rows at hr ⊢
  generalize F.lines = ls at hb hr ⊢
  induction ls with
  | nil => rfl
  | cons l ls ih =>
    have ih := ih (fun l hl => hb l (List.mem_cons_of_mem _ hl)) (fun r hr' => hr r (by
      rw [List.mem_filterMap] at hr' ⊢
      obtain ⟨x, hx, e⟩ := hr'
      exact ⟨x, List.mem_cons_of_mem _ hx, e⟩))
    cases l with
    | blanks l =>
      have : blank l = true := (blank_iff l).mpr (hb l (by simp))
      simpa [Line.text, this] using ih
    | row r =>
      have hr' := hr r (by simp)
      have : blank (join [','] (r.map Field.text)) = false := by
        rw [← Bool.not_eq_true, blank_iff]
        exact row_visible hr'
      have hc : chop ',' (join [','] (r.map Field.text)) = r.map Field.text := chop_join (by simpa using hr'.1) (by
        intro a ha
        obtain ⟨f, -, rfl⟩ := List.mem_map.mp ha
        exact (field_plain f).2)
      simpa [Line.text, this, hc] using ih

/-! ## Cells -/

theorem lit_present {l : Lit} (h : l.Valid) (a b : Nat) : String.ofList (List.replicate a ' ' ++ l.text ++ List.replicate b ' ') ∉ missing := by
  intro hm
  have key : ∀ s ∈ missing, s.toList = [] ∨ ∃ c ∈ s.toList, c ∈ ['#', 'N', 'n'] := by decide
  rcases key _ hm with h1 | ⟨c, h1, h2⟩
  · rw [String.toList_ofList] at h1
    simp only [List.append_eq_nil_iff] at h1
    exact lit_ne h h1.1.2
  · rw [String.toList_ofList] at h1
    have hc : c = ' ' ∨ c ∈ l.text := by
      simp only [List.mem_append, List.mem_replicate] at h1
      tauto
    rcases hc with rfl | hc
    · revert h2; decide
    · rcases lit_mem hc with h3 | ⟨d, rfl⟩
      · simp only [List.mem_cons, List.not_mem_nil, or_false] at h2 h3
        rcases h2 with rfl | rfl | rfl <;> revert h3 <;> decide
      · clear h1 hc
        revert h2; revert d; decide

/-- A field is read as what it says. -/
theorem cell_field {f : Field} (h : f.Valid) : cell f.text = .num f.says := by
  cases f with
  | empty => rfl
  | number a l b =>
    have hs : strip (List.replicate a ' ' ++ l.text ++ List.replicate b ' ') = l.text :=
      strip_of (fun c hc => by rw [List.mem_replicate] at hc; rw [hc.2]; decide) (fun c hc => by rw [List.mem_replicate] at hc; rw [hc.2]; decide)
        (fun c hc => (lit_char hc).2.2.1)
    unfold cell
    rw [Field.text, if_neg (lit_present h a b), hs, bare_lit h]
    rfl

/-! ## Tables -/

theorem idxOf_names {F : File} {j : Nat} {name : String} (h : F.Names j name) : name.toList ∈ F.header ∧ F.header.idxOf name.toList = j := by
  obtain ⟨h1, h2⟩ := h
  have hm := List.mem_of_getElem? h1
  refine ⟨hm, ?_⟩
  have hl := List.idxOf_lt_length_of_mem hm
  have e : F.header[F.header.idxOf name.toList]? = some name.toList := by
    rw [List.getElem?_eq_getElem hl, List.getElem_idxOf hl]
  rcases Nat.lt_trichotomy (F.header.idxOf name.toList) j with h | h | h
  · exact absurd e (h2 _ h)
  · exact h
  · obtain ⟨hj, hj'⟩ := List.getElem?_eq_some_iff.mp h1
    have := List.not_of_lt_findIdx (p := (· == name.toList)) (xs := F.header) (i := j) h
    simp [hj'] at this

/-- The number of fields of the first row. -/
def File.first (F : File) : Nat := (F.rows.headD []).length

/-- **C107** (tables of any shape). A file in which no row has more fields than the header and the first row is read. When the first row has `k` more fields
than the header, the column of name `j` is the field `j + k` of each row, otherwise field `j`; a field that is empty or not there is NaN. -/
theorem C107_ragged {F : File} (hF : F.Valid) (hw : ∀ r ∈ F.rows, r.length ≤ max F.header.length F.first) :
    ∃ f, readCsv F.text = .ok f ∧ ∀ j name, F.Names j name →
      f.column name = .ok (F.rows.map fun r => .num ((r[j + (F.first - F.header.length)]?.map Field.says).getD .nan)) := by
  unfold readCsv
  rw [records_file hF]
  have e0 : ((F.rows.map fun r => r.map Field.text).headD []).length = F.first := by
    unfold File.first
    cases F.rows <;> simp
  have e1 : ((F.rows.map fun r => r.map Field.text).any fun r => decide (max F.header.length F.first < r.length)) = false := by
    rw [List.any_eq_false]
    intro r hr
    obtain ⟨r', hr', rfl⟩ := List.mem_map.mp hr
    have := hw r' hr'
    rw [decide_eq_true_eq, List.length_map]
    omega
  simp only [e0]
  rw [e1, if_neg (by simp)]
  refine ⟨_, rfl, fun j name hn => ?_⟩
  obtain ⟨hm, hi⟩ := idxOf_names hn
  have hj : j < F.header.length := (List.getElem?_eq_some_iff.mp hn.1).1
  unfold Frame.column
  simp only
  rw [if_pos hm, hi, List.map_map, List.map_map]
  congr 1
  apply List.map_congr_left
  intro r hr
  have hv := (hF.rows r hr).2.2
  have hl := hw r hr
  simp only [Function.comp_apply, List.length_map]
  rw [List.getD_eq_getElem?_getD, List.getElem?_map, List.getElem?_drop]
  have ek : max F.header.length F.first - F.header.length + j = j + (F.first - F.header.length) := by omega
  rw [ek]
  by_cases hlt : j + (F.first - F.header.length) < r.length
  · rw [List.getElem?_append_left (by simpa using hlt), List.getElem?_map, List.getElem?_eq_getElem hlt]
    simp only [Option.map_some, Option.getD_some]
    exact cell_field (hv _ (List.getElem_mem hlt))
  · rw [List.getElem?_append_right (by simpa using Nat.le_of_not_lt hlt), List.getElem?_eq_none (Nat.le_of_not_lt hlt), List.getElem?_replicate_of_lt
      (by simp; omega)]
    rfl

/-- **C107** (tables). A file in which every row has a field for every name is read, and the column of a name has what the rows say under that name. -/
theorem C107_read {F : File} (hF : F.Valid) (hw : ∀ r ∈ F.rows, r.length = F.header.length) :
    ∃ f, readCsv F.text = .ok f ∧ ∀ j name, F.Names j name → f.column name = .ok (F.rows.map fun r => .num ((r[j]?.map Field.says).getD .nan)) := by
  obtain ⟨f, h1, h2⟩ := C107_ragged hF (fun r hr => by rw [hw r hr]; exact le_max_left _ _)
  refine ⟨f, h1, fun j name hn => ?_⟩
  have e : F.first - F.header.length = 0 := by
    unfold File.first
    cases hr : F.rows with
    | nil => simp
    | cons r l =>
      have := hw r (by rw [hr]; simp)
      simp [this]
  have := h2 j name hn
  rwa [e] at this

/-- **C107** (a row too long). A row with more fields than the header and the first row is a `ValueError`. -/
theorem C107_too_long {F : File} (hF : F.Valid) {r : List Field} (hr : r ∈ F.rows) (hl : max F.header.length F.first < r.length) :
    readCsv F.text = .error .valueError ∧ fromTumText F.text = .error .valueError := by
  have h : readCsv F.text = .error .valueError := by
    unfold readCsv
    rw [records_file hF]
    have e0 : ((F.rows.map fun r => r.map Field.text).headD []).length = F.first := by
      unfold File.first
      cases F.rows <;> simp
    simp only [e0]
    rw [if_pos]
    rw [List.any_eq_true]
    exact ⟨_, List.mem_map_of_mem hr, by simpa using hl⟩
  exact ⟨h, by unfold fromTumText; rw [h]; rfl⟩

/-- **C107** (nothing in the file). -/
theorem C107_empty {text : List Char} (h : ∀ l ∈ chop '\n' (translate text), File.Blanks l) : fromTumText text = .error .valueError := by
  have e : records text = [] := by
    unfold records
    rw [List.filter_eq_nil_iff.mpr]
    · rfl
    · intro l hl
      simp [(blank_iff l).mpr (h l hl)]
  unfold fromTumText readCsv
  rw [e]
  rfl

/-- **C107** (a name that is not there). Whatever the file, when it can be read at all and its header lacks one of the four names, it is a `KeyError`; so a track
has all four. -/
theorem C107_missing {text : List Char} {f : Frame} (h : readCsv text = .ok f) {name : String}
    (hn : name ∈ ["# x_m", "y_m", "w_tr_left_m", "w_tr_right_m"]) (hm : name.toList ∉ f.header) : fromTumText text = .error .keyError := by
  have no : ∀ m, m.toList ∉ f.header → f.column m = .error .keyError := fun m h => if_neg h
  have col : ∀ m, f.column m = .error .keyError ∨ ∃ l, f.column m = .ok l := by
    intro m
    by_cases h : m.toList ∈ f.header
    · exact Or.inr ⟨_, if_pos h⟩
    · exact Or.inl (no m h)
  unfold fromTumText
  rw [h]
  show (f.column "# x_m").bind _ = _
  simp only [List.mem_cons, List.not_mem_nil, or_false] at hn
  rcases col "# x_m" with e1 | ⟨x, e1⟩
  · rw [e1]; rfl
  rw [e1]
  show (f.column "y_m").bind _ = _
  rcases col "y_m" with e2 | ⟨y, e2⟩
  · rw [e2]; rfl
  rw [e2]
  show (f.column "w_tr_left_m").bind _ = _
  rcases col "w_tr_left_m" with e3 | ⟨l, e3⟩
  · rw [e3]; rfl
  rw [e3]
  show (f.column "w_tr_right_m").bind _ = _
  rcases col "w_tr_right_m" with e4 | ⟨r, e4⟩
  · rw [e4]; rfl
  exfalso
  have := no name hm
  rcases hn with rfl | rfl | rfl | rfl
  · rw [e1] at this; cases this
  · rw [e2] at this; cases this
  · rw [e3] at this; cases this
  · rw [e4] at this; cases this

/-! ## Tracks -/

/-- The values under column `j`, as numbers. -/
def File.values (F : File) (j : Nat) : Option (List ℚ) := F.rows.mapM fun (r : List Field) => match r[j]? with
  | some (.number _ l _) => some l.value
  | _ => none

theorem numbers_values (F : File) (j : Nat) :
    numbers (F.rows.map fun r => .num ((r[j]?.map Field.says).getD .nan)) = F.values j := by
  unfold numbers File.values
  rw [List.mapM_map]
  congr 1
  funext r
  simp only [Function.comp_apply]
  cases h : r[j]? with
  | none => rfl
  | some x => cases x <;> rfl

/-- **C107** (the track of a file). A file that has the four names, in any order and among any others, and a number under each of them in every row, gives the
track through these points with these widths: nothing else in the file matters. -/
theorem C107_track {F : File} (hF : F.Valid) (hw : ∀ r ∈ F.rows, r.length = F.header.length) {jx jy jl jr : Nat}
    (nx : F.Names jx "# x_m") (ny : F.Names jy "y_m") (nl : F.Names jl "w_tr_left_m") (nr : F.Names jr "w_tr_right_m")
    {x y left right : List ℚ} (hx : F.values jx = some x) (hy : F.values jy = some y) (hl : F.values jl = some left) (hr : F.values jr = some right) :
    fromTumText F.text = (RaceTrack.fromCartesian (reals x) (reals y) (some (reals left)) (some (reals right))).map some := by
  obtain ⟨f, h1, h2⟩ := C107_read hF hw
  unfold fromTumText
  rw [h1]
  show (f.column "# x_m").bind _ = _
  rw [h2 _ _ nx]
  show (f.column "y_m").bind _ = _
  rw [h2 _ _ ny]
  show (f.column "w_tr_left_m").bind _ = _
  rw [h2 _ _ nl]
  show (f.column "w_tr_right_m").bind _ = _
  rw [h2 _ _ nr]
  show (match numbers _, numbers _, numbers _, numbers _ with
    | some x, some y, some left, some right => _
    | _, _, _, _ => _) = _
  rw [numbers_values, numbers_values, numbers_values, numbers_values, hx, hy, hl, hr]
  simp only
  cases RaceTrack.fromCartesian (reals x) (reals y) (some (reals left)) (some (reals right)) <;> rfl

theorem values_length {F : File} {j : Nat} {x : List ℚ} (h : F.values j = some x) : x.length = F.rows.length := by
  unfold File.values at h
  generalize F.rows = rs at h
  induction rs generalizing x with
  | nil => simp at h; simp [← h]
  | cons r rs ih =>
    rw [List.mapM_cons] at h
    simp only [Option.pure_def, Option.bind_eq_bind, Option.bind_eq_some_iff, Option.some.injEq] at h
    obtain ⟨a, -, l, hl, rfl⟩ := h
    simp [ih hl]

/-- The rows of a track file as the lap time simulation takes them. -/
noncomputable def File.points (F : File) (x y left right : List ℚ) : List LapSim.Row :=
  (List.range F.rows.length).map fun i => ⟨(x.getD i 0 : ℚ), (y.getD i 0 : ℚ), (left.getD i 0 : ℚ), (right.getD i 0 : ℚ)⟩

theorem reals_range {x : List ℚ} {n : Nat} (h : x.length = n) : (List.range n).map (fun i => ((x.getD i 0 : ℚ) : ℝ)) = reals x := by
  subst h
  unfold reals
  apply List.ext_getElem
  · simp
  · intro i h1 h2
    simp at h2
    simp [h2]

/-- **C107** (the lap time simulation). Such a file is to a lap time simulation what its rows are. -/
theorem C107_rows {F : File} (hF : F.Valid) (hw : ∀ r ∈ F.rows, r.length = F.header.length) {jx jy jl jr : Nat}
    (nx : F.Names jx "# x_m") (ny : F.Names jy "y_m") (nl : F.Names jl "w_tr_left_m") (nr : F.Names jr "w_tr_right_m")
    {x y left right : List ℚ} (hx : F.values jx = some x) (hy : F.values jy = some y) (hl : F.values jl = some left) (hr : F.values jr = some right) :
    fromTumText F.text = (LapSim.fromTumCsv (.ok (F.points x y left right))).map some := by
  rw [C107_track hF hw nx ny nl nr hx hy hl hr]
  unfold LapSim.fromTumCsv File.points
  show _ = Except.map some (RaceTrack.fromCartesian _ _ _ _)
  rw [List.map_map, List.map_map, List.map_map, List.map_map, ← reals_range (values_length hx), ← reals_range (values_length hy),
    ← reals_range (values_length hl), ← reals_range (values_length hr)]
  rfl

/-- **C107** (order and company of the columns). Two files with the same values under the four names give the same track, whatever else they have: other columns,
another order, other line ends, blank lines, blanks around numbers, other spellings of the same numbers. -/
theorem C107_same {F G : File} (hF : F.Valid) (hG : G.Valid) (hwF : ∀ r ∈ F.rows, r.length = F.header.length) (hwG : ∀ r ∈ G.rows, r.length = G.header.length)
    (h : ∀ name ∈ ["# x_m", "y_m", "w_tr_left_m", "w_tr_right_m"], ∃ j k v, F.Names j name ∧ G.Names k name ∧ F.values j = some v ∧ G.values k = some v) :
    fromTumText F.text = fromTumText G.text := by
  obtain ⟨jx, kx, x, fx, gx, vx, wx⟩ := h "# x_m" (by simp)
  obtain ⟨jy, ky, y, fy, gy, vy, wy⟩ := h "y_m" (by simp)
  obtain ⟨jl, kl, l, fl, gl, vl, wl⟩ := h "w_tr_left_m" (by simp)
  obtain ⟨jr, kr, r, fr, gr, vr, wr⟩ := h "w_tr_right_m" (by simp)
  rw [C107_track hF hwF fx fy fl fr vx vy vl vr, C107_track hG hwG gx gy gl gr wx wy wl wr]

/-- **C107** (a comma at the end of every row). A file with the names of the TUM data base, whose rows end in a comma, is read with its columns shifted: as `x` the
second column, as `y` the width on the right, as the width on the right that on the left, and nothing (NaN) as the width on the left. There is no error. -/
theorem C107_trailing_comma {F : File} (hF : F.Valid) (hh : F.header = ["# x_m".toList, "y_m".toList, "w_tr_right_m".toList, "w_tr_left_m".toList])
    (hr : ∀ r ∈ F.rows, ∃ a b c d, r = [a, b, c, d, .empty]) (hne : F.rows ≠ []) :
    ∃ f, readCsv F.text = .ok f ∧
      f.column "# x_m" = .ok (F.rows.map fun r => .num ((r[1]?.map Field.says).getD .nan)) ∧
      f.column "y_m" = .ok (F.rows.map fun r => .num ((r[2]?.map Field.says).getD .nan)) ∧
      f.column "w_tr_right_m" = .ok (F.rows.map fun r => .num ((r[3]?.map Field.says).getD .nan)) ∧
      f.column "w_tr_left_m" = .ok (F.rows.map fun _ => .num .nan) := by
  have h5 : ∀ r ∈ F.rows, r.length = 5 := by
    intro r h
    obtain ⟨a, b, c, d, rfl⟩ := hr r h
    rfl
  have hf : F.first = 5 := by
    unfold File.first
    cases hc : F.rows with
    | nil => exact absurd hc hne
    | cons r l => exact h5 r (by rw [hc]; simp)
  have hl : F.header.length = 4 := by rw [hh]; rfl
  obtain ⟨f, h1, h2⟩ := C107_ragged hF (fun r h => by rw [h5 r h, hf]; exact le_max_right _ _)
  rw [hf, hl] at h2
  have nm : ∀ j name, (["# x_m", "y_m", "w_tr_right_m", "w_tr_left_m"] : List String)[j]? = some name → F.Names j name := by
    intro j name h
    unfold File.Names
    rw [hh]
    match j, h with
    | 0, h => cases h; decide
    | 1, h => cases h; decide
    | 2, h => cases h; decide
    | 3, h => cases h; decide
  refine ⟨f, h1, h2 0 _ (nm 0 _ rfl), h2 1 _ (nm 1 _ rfl), h2 2 _ (nm 2 _ rfl), ?_⟩
  rw [h2 3 _ (nm 3 _ rfl)]
  congr 1
  apply List.map_congr_left
  intro r h
  obtain ⟨a, b, c, d, rfl⟩ := hr r h
  rfl

/-! ## Not vacuous -/

/-- A small file: the decimal with integer part `i`, fraction `f`. -/
def sample (neg : Bool) (i f : Fin 10) : Field := .number 0 ⟨if neg then some true else none, [i], some [f], none⟩ 0

/-- Two files: one as in the data base, one with a further column, other line ends, blank lines and another order. -/
def fileA : File := ⟨.lf, [], ["# x_m".toList, "y_m".toList, "w_tr_right_m".toList, "w_tr_left_m".toList],
  [.row [sample false 0 0, sample false 0 5, sample false 2 0, sample false 3 0], .row [sample true 1 0, sample false 4 0, sample false 2 5, sample false 3 5],
   .blanks []]⟩

def fileB : File := ⟨.crlf, [[' ']], ["w_tr_left_m".toList, "banking".toList, "y_m".toList, "# x_m".toList, "w_tr_right_m".toList],
  [.row [sample false 3 0, .empty, sample false 0 5, sample false 0 0, sample false 2 0], .blanks ['\t'],
   .row [sample false 3 5, sample false 7 0, sample false 4 0, sample true 1 0, sample false 2 5]]⟩

theorem sample_valid (b : Bool) (i f : Fin 10) : (sample b i f).Valid := by simp [sample, Field.Valid, Lit.Valid]

theorem fileA_valid : fileA.Valid where
  before := by simp [fileA]
  names := by
    have : ∀ n ∈ fileA.header, (∀ c ∈ n, c ≠ '\n' ∧ c ≠ '\r') ∧ ',' ∉ n := by decide
    exact this
  visible := ⟨_, List.mem_cons_self, fun h => by have := h '#' (by decide); revert this; decide⟩
  blanks := by
    intro l hl
    simp [fileA] at hl
    subst hl
    simp [File.Blanks]
  rows := by
    intro r hr
    simp [fileA, File.rows] at hr
    rcases hr with rfl | rfl <;> simp [sample_valid]

theorem fileB_valid : fileB.Valid where
  before := by simp [fileB, File.Blanks]
  names := by
    have : ∀ n ∈ fileB.header, (∀ c ∈ n, c ≠ '\n' ∧ c ≠ '\r') ∧ ',' ∉ n := by decide
    exact this
  visible := ⟨_, List.mem_cons_self, fun h => by have := h 'w' (by decide); revert this; decide⟩
  blanks := by
    intro l hl
    simp [fileB] at hl
    subst hl
    simp [File.Blanks]
  rows := by
    intro r hr
    simp [fileB, File.rows] at hr
    rcases hr with rfl | rfl <;> simp [sample_valid] <;> simp [Field.Valid]

example : fromTumText fileA.text = fromTumText fileB.text ∧ ∃ t, fromTumText fileA.text = .ok (some t) := by
  have wA : ∀ r ∈ fileA.rows, r.length = fileA.header.length := by
    intro r hr
    simp [fileA, File.rows] at hr
    rcases hr with rfl | rfl <;> rfl
  have wB : ∀ r ∈ fileB.rows, r.length = fileB.header.length := by
    intro r hr
    simp [fileB, File.rows] at hr
    rcases hr with rfl | rfl <;> rfl
  refine ⟨C107_same fileA_valid fileB_valid wA wB ?_, ?_⟩
  · intro name hn
    simp only [List.mem_cons, List.not_mem_nil, or_false] at hn
    rcases hn with rfl | rfl | rfl | rfl
    · exact ⟨0, 3, _, by unfold File.Names; decide, by unfold File.Names; decide, rfl, rfl⟩
    · exact ⟨1, 2, _, by unfold File.Names; decide, by unfold File.Names; decide, rfl, rfl⟩
    · exact ⟨3, 0, _, by unfold File.Names; decide, by unfold File.Names; decide, rfl, rfl⟩
    · exact ⟨2, 4, _, by unfold File.Names; decide, by unfold File.Names; decide, rfl, rfl⟩
  · rw [C107_track (jx := 0) (jy := 1) (jl := 3) (jr := 2) fileA_valid wA (by unfold File.Names; decide) (by unfold File.Names; decide)
      (by unfold File.Names; decide) (by unfold File.Names; decide) rfl rfl rfl rfl]
    exact ⟨_, rfl⟩

end Lumos.Csv
