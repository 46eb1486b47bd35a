import Verif.LogDir.Model
import Verif.Log.Findings
import Mathlib.Data.List.Lex
import Mathlib.Tactic.IntervalCases

/-!
# C116: the directories that problems log to
-/

namespace Lumos.Log.Dir

open Lumos Lumos.Log

/-! ## Specification -/

/-- A moment of the years 1000 to 9999. -/
structure Moment.Real (t : Moment) : Prop where
  year : 1000 ≤ t.year ∧ t.year < 10000
  month : 1 ≤ t.month ∧ t.month ≤ 12
  day : 1 ≤ t.day ∧ t.day ≤ 31
  hour : t.hour < 24
  minute : t.minute < 60
  second : t.second < 60

/-- The order of time. -/
def Moment.Before (t t' : Moment) : Prop :=
  t.year < t'.year ∨ t.year = t'.year ∧ (t.month < t'.month ∨ t.month = t'.month ∧ (t.day < t'.day ∨ t.day = t'.day ∧
    (t.hour < t'.hour ∨ t.hour = t'.hour ∧ (t.minute < t'.minute ∨ t.minute = t'.minute ∧ t.second < t'.second))))

/-- The number that a text of decimal digits stands for. -/
def number (l : List Char) : Nat := l.foldl (fun a c => 10 * a + (c.toNat - '0'.toNat)) 0

/-! ## Proofs -/

theorem pad_length (w : Nat) : ∀ n, (pad w n).length = w := by
  induction w with
  | zero => intro n; rfl
  | succ w ih => intro n; simp [pad, ih]

theorem digit_value : ∀ d < 10, (Nat.digitChar d).toNat - '0'.toNat = d := by decide

theorem digit_lt : ∀ b < 10, ∀ a < b, Nat.digitChar a < Nat.digitChar b := by decide

theorem digit_isDigit : ∀ d < 10, (Nat.digitChar d).isDigit = true := by decide

theorem pad_digits (w : Nat) : ∀ n, ∀ c ∈ pad w n, c.isDigit = true := by
  induction w with
  | zero => intro n c h; simp [pad] at h
  | succ w ih =>
    intro n c h
    rcases List.mem_append.mp h with h | h
    · exact ih _ c h
    · rw [List.mem_singleton] at h
      exact h ▸ digit_isDigit _ (Nat.mod_lt _ (by decide))

theorem pad_number (w : Nat) : ∀ n, n < 10 ^ w → number (pad w n) = n := by
  induction w with
  | zero => intro n h; simp at h; simp [pad, number, h]
  | succ w ih =>
    intro n h
    have h' := ih (n / 10) (by rw [pow_succ] at h; omega)
    rw [number] at h'
    rw [pad, number, List.foldl_append, h']
    simp only [List.foldl_cons, List.foldl_nil, digit_value _ (Nat.mod_lt n (by decide : 0 < 10))]
    omega

theorem lex_append {a b : List Char} (h : List.Lex (· < ·) a b) : a.length = b.length → ∀ x y, List.Lex (· < ·) (a ++ x) (b ++ y) := by
  induction h with
  | nil => intro h; simp at h
  | cons h ih => intro hl x y; exact .cons (ih (by simpa using hl) x y)
  | rel h => intro _ x y; exact .rel h

theorem lex_left {x y : List Char} (a : List Char) (h : List.Lex (· < ·) x y) : List.Lex (· < ·) (a ++ x) (a ++ y) := by
  induction a with
  | nil => exact h
  | cons c a ih => exact .cons ih

theorem pad_lt (w : Nat) : ∀ n m, n < m → m < 10 ^ w → List.Lex (· < ·) (pad w n) (pad w m) := by
  induction w with
  | zero => intro n m h1 h2; simp at h2; omega
  | succ w ih =>
    intro n m h1 h2
    rw [pad, pad]
    by_cases h : n / 10 < m / 10
    · exact lex_append (ih _ _ h (by rw [pow_succ] at h2; omega)) (by simp [pad_length]) _ _
    · have e : n / 10 = m / 10 := by omega
      rw [e]
      exact lex_left _ (.rel (digit_lt _ (Nat.mod_lt _ (by decide)) _ (by omega)))

theorem field_lt {w n m : Nat} (hm : m < 10 ^ w) {x y : List Char} (h : n < m ∨ n = m ∧ List.Lex (· < ·) x y) :
    List.Lex (· < ·) (pad w n ++ x) (pad w m ++ y) := by
  rcases h with h | ⟨rfl, h⟩
  · exact lex_append (pad_lt w n m h hm) (by simp [pad_length]) _ _
  · exact lex_left _ h

theorem stamp_lt {t t' : Moment} (ht : t'.Real) (h : t.Before t') : List.Lex (· < ·) (stamp t) (stamp t') := by
  have h1 := ht.year; have h2 := ht.month; have h3 := ht.day; have h4 := ht.hour; have h5 := ht.minute; have h6 := ht.second
  simp only [stamp, List.append_assoc]
  refine field_lt (by omega) (h.imp_right fun ⟨e, h⟩ => ⟨e, ?_⟩)
  refine field_lt (by omega) (h.imp_right fun ⟨e, h⟩ => ⟨e, ?_⟩)
  refine field_lt (by omega) (h.imp_right fun ⟨e, h⟩ => ⟨e, ?_⟩)
  refine lex_left ['-'] ?_
  refine field_lt (by omega) (h.imp_right fun ⟨e, h⟩ => ⟨e, ?_⟩)
  refine field_lt (by omega) (h.imp_right fun ⟨e, h⟩ => ⟨e, ?_⟩)
  exact pad_lt 2 _ _ h (by omega)

theorem stamp_length (t : Moment) : (stamp t).length = 15 := by simp [stamp, pad_length]

theorem subdir_chars (t : Moment) (a : String) : (subdirName t a).toList = stamp t ++ '_' :: a.toList := by
  simp [subdirName]

theorem before_or (t t' : Moment) : t = t' ∨ t.Before t' ∨ t'.Before t := by
  rcases t with ⟨a, b, c, d, e, f⟩
  rcases t' with ⟨a', b', c', d', e', f'⟩
  simp only [Moment.Before, Moment.mk.injEq]
  omega

/-- **C116 (the name).** The directory's name shows the moment of construction, in fields of four and two digits, and then the name
of the simulation. -/
theorem C116_name {t : Moment} (ht : t.Real) (a : String) :
    ∃ y mo d h mi s : List Char, (subdirName t a).toList = y ++ mo ++ d ++ ['-'] ++ h ++ mi ++ s ++ ['_'] ++ a.toList
      ∧ y.length = 4 ∧ (∀ f ∈ [mo, d, h, mi, s], f.length = 2) ∧ (∀ f ∈ [y, mo, d, h, mi, s], ∀ c ∈ f, c.isDigit = true)
      ∧ number y = t.year ∧ number mo = t.month ∧ number d = t.day ∧ number h = t.hour ∧ number mi = t.minute
      ∧ number s = t.second := by
  have h1 := ht.year; have h2 := ht.month; have h3 := ht.day; have h4 := ht.hour; have h5 := ht.minute; have h6 := ht.second
  refine ⟨pad 4 t.year, pad 2 t.month, pad 2 t.day, pad 2 t.hour, pad 2 t.minute, pad 2 t.second, ?_, pad_length _ _, ?_, ?_,
    pad_number 4 _ (by omega), pad_number 2 _ (by omega), pad_number 2 _ (by omega), pad_number 2 _ (by omega),
    pad_number 2 _ (by omega), pad_number 2 _ (by omega)⟩
  · rw [subdir_chars, stamp]; simp
  · simp [pad_length]
  · intro f hf c hc
    simp only [List.mem_cons, List.not_mem_nil, or_false] at hf
    rcases hf with rfl | rfl | rfl | rfl | rfl | rfl <;> exact pad_digits _ _ c hc

/-- **C116 (sorting).** Sorting the directories by name sorts them by the time of construction, whatever the simulations are called. -/
theorem C116_order {t t' : Moment} (ht' : t'.Real) (h : t.Before t') (a a' : String) : subdirName t a < subdirName t' a' := by
  rw [String.lt_iff, subdir_chars, subdir_chars]
  exact lex_append (stamp_lt ht' h) (by simp [stamp_length]) _ _

theorem join_inj {r a b : String} (h : join r a = join r b) : a = b := by
  unfold join at h
  split_ifs at h <;> exact String.toList_inj.mp (by simpa using congrArg String.toList h)

/-- **C116 (distinct directories).** Two problems that log below the same directory share their own if and only if they are
constructed in the same second, for simulations of the same name. -/
theorem C116_distinct {c c' : Config} (hc : c.resultsDir = c'.resultsDir) {t t' : Moment} (ht : t.Real) (ht' : t'.Real) :
    loggingDir c t = loggingDir c' t' ↔ t = t' ∧ c.simName = c'.simName := by
  constructor
  · intro h
    rw [loggingDir, loggingDir, hc] at h
    have h1 := join_inj h
    have e : t = t' := by
      rcases before_or t t' with e | h2 | h2
      · exact e
      · have h3 := C116_order ht' h2 c.simName c'.simName
        rw [h1] at h3
        exact absurd h3 (String.lt_irrefl _)
      · have h3 := C116_order ht h2 c'.simName c.simName
        rw [h1] at h3
        exact absurd h3 (String.lt_irrefl _)
    subst e
    refine ⟨rfl, ?_⟩
    have h2 := congrArg String.toList h1
    rw [subdir_chars, subdir_chars] at h2
    have h3 := List.append_cancel_left h2
    simp only [List.cons.injEq, true_and] at h3
    exact String.toList_inj.mp h3
  · rintro ⟨rfl, e⟩
    rw [loggingDir, loggingDir, hc, e]

theorem lookup_mkdir (disk : Disk) (d e : String) :
    (mkdir disk d).lookup e = if e = d then some ((disk.lookup d).getD []) else disk.lookup e := by
  unfold mkdir
  by_cases h : (disk.lookup d).isSome
  · rw [if_pos h]
    obtain ⟨f, hf⟩ := Option.isSome_iff_exists.mp h
    split_ifs with he
    · subst he; rw [hf]; rfl
    · rfl
  · rw [if_neg h]
    have hn : disk.lookup d = none := Option.not_isSome_iff_eq_none.mp h
    have key : ∀ (l : Disk), (l ++ [(d, ([] : FS))]).lookup e = (l.lookup e).or (if e = d then some [] else none) := by
      intro l
      induction l with
      | nil =>
        by_cases he : e = d
        · simp [List.lookup, he]
        · have : (e == d) = false := by simpa using he
          simp [List.lookup, he, this]
      | cons p l ih =>
        rw [List.cons_append, List.lookup_cons, List.lookup_cons, ih]
        split <;> rfl
    rw [key]
    split_ifs with he
    · subst he; rw [hn]; rfl
    · simp

/-- **C116 (construction).** Constructing a problem leaves every directory with its files. It starts to log into its own: an empty one
if there was none of that name, and otherwise what another problem has left there. -/
theorem C116_construct (disk : Disk) (c : Config) (now : Moment) :
    (∀ d, d ≠ loggingDir c now → (startLogging disk c now).1.lookup d = disk.lookup d) ∧
    (startLogging disk c now).1.lookup (loggingDir c now) = some ((disk.lookup (loggingDir c now)).getD []) ∧
    (startLogging disk c now).2 = init ((disk.lookup (loggingDir c now)).getD []) := by
  refine ⟨fun d hd => ?_, ?_, ?_⟩
  · simp only [startLogging]; rw [lookup_mkdir, if_neg hd]
  · simp only [startLogging]; rw [lookup_mkdir, if_pos rfl]
  · simp only [startLogging]; rw [lookup_mkdir, if_pos rfl]; rfl

/-- **C116 (finding: same second, one after the other).** A problem that is constructed in the same second and with the same names as
one that has been solved takes over its directory, and its own solve replaces the first one's results, iterations and metrics. -/
theorem C116_replaced {E E' : Env} {n n' : Nat} (hE : E.every = some n) (hE' : E'.every = some n')
    {es es' : List Event} {its its' : List (Metrics × List ℝ)} {x x' : List ℝ} (hr : Run es its (some x)) (hr' : Run es' its' (some x'))
    {K K' : Nat} (hK : its.length = K + 1) (hK' : its'.length = K' + 1) (hT : Tables E es) (hT' : Tables E' es')
    (c : Config) (now : Moment) (disk : Disk) (hd : disk.lookup (loggingDir c now) = none) :
    ∃ s, solve E (startLogging disk c now).2 es = .ok s ∧
      ∀ disk', disk'.lookup (loggingDir c now) = some s.files →
        ∃ s' T', solve E' (startLogging disk' c now).2 es' = .ok s' ∧ E'.df x' (some K') = .ok (T' K') ∧
          Filed n' K' T' (its'.map Prod.fst) s.files s'.files := by
  obtain ⟨s, T, h1, _, _, _, _, hF⟩ := C71_solve hE (init []) List.nodup_nil (by simp [init]) (by simp [init]) hr hK hT
  refine ⟨s, ?_, fun disk' hd' => ?_⟩
  · rw [(C116_construct disk c now).2.2, hd]
    exact h1
  · obtain ⟨s', T', h1', _, h3', _, _, hF'⟩ := C71_solve hE' (init s.files) hF.sane (by simp [init]) hF.iters hr' hK' hT'
    refine ⟨s', T', ?_, h3', ?_⟩
    · rw [(C116_construct disk' c now).2.2, hd']
      exact h1'
    · simpa [init] using hF'

/-- **C116 (finding: same second, at the same time).** If the second is solved while the first is still running, the end of its solve removes
the first one's iterations from the directory; if the first has just logged its last iteration, its solve then ends with
FileNotFoundError instead of a result. -/
theorem C116_removed {E : Env} {n : Nat} (hE : E.every = some n) (hn : 0 < n) {s : St} {k : Nat} (hk : s.numIter = some k) (hkn : k % n = 0)
    (hdf : ∃ t, E.df s.last (some k) = .ok t) {files : FS} (hf : ∀ name : FName, name.isIter = true → files.lookup name = none) :
    logFinal E { s with files := files } = .error .fileNotFoundError := by
  obtain ⟨t, ht⟩ := hdf
  have h : remove (write files .results (.table t)) (.iter k) = .error .fileNotFoundError := by
    rw [remove, if_neg]
    rw [mem_names_iff, not_not, lookup_write_ne _ _ _ _ (by simp)]
    exact hf _ rfl
  unfold logFinal writeTable
  rw [hE]
  simp only [hk, ht, bind, Except.bind, pure, Except.pure, if_pos hn, dropLast, if_pos hkn, h]

/-- Two problems of one second. -/
def noon : Moment := ⟨2021, 10, 5, 12, 0, 9⟩

theorem noon_real : noon.Real := by constructor <;> decide

example : loggingDir ⟨"lap", "results"⟩ noon = "results/20211005-120009_lap" ∧ loggingDir ⟨"lap", "out/"⟩ noon = "out/20211005-120009_lap" := by
  decide +kernel

example : noon.Before ⟨2021, 10, 5, 12, 0, 10⟩ ∧ subdirName noon "z" < subdirName ⟨2021, 10, 5, 12, 0, 10⟩ "a" :=
  ⟨by simp [Moment.Before, noon], C116_order (by constructor <;> decide) (by simp [Moment.Before, noon]) _ _⟩

/-- The hypotheses of `C116_replaced` are met. -/
example : ∃ s, solve (toy 2) (startLogging [] ⟨"lap", "results"⟩ noon).2 toyEvents = .ok s ∧
    ∀ disk', disk'.lookup (loggingDir ⟨"lap", "results"⟩ noon) = some s.files →
      ∃ s' T', solve (toy 1) (startLogging disk' ⟨"lap", "results"⟩ noon).2 toyEvents = .ok s' ∧ (toy 1).df [3] (some 2) = .ok (T' 2) ∧
        Filed 1 2 T' [⟨0, 0, []⟩, ⟨0, 1, []⟩, ⟨1, 2, []⟩] s.files s'.files :=
  C116_replaced (E := toy 2) (E' := toy 1) rfl rfl toy_run toy_run rfl rfl (toy_tables 2 _) (toy_tables 1 _) _ noon [] rfl

/-- The hypotheses of `C116_removed` are met: the first problem has logged iteration 2, the second has removed it. -/
example : logFinal (toy 2) ⟨some 2, [3], [], []⟩ = .error .fileNotFoundError :=
  C116_removed (E := toy 2) (n := 2) rfl (by decide) (s := ⟨some 2, [3], [], [(.iter 2, .table [])]⟩) rfl rfl ⟨_, rfl⟩ (files := [])
    (by simp)

end Lumos.Log.Dir
