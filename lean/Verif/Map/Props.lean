import Verif.Map.Model
import Verif.Config.Props
import Verif.Ocp.StageModel
/-!
# The batched maps: `lmap` applies the function to every row (C79)
-/

namespace Lumos.Map

open Lumos

variable {P : Type}

/-! ## Specification -/

/-- Argument `i` is mapped. -/
def Axes.Mapped (axes : Axes) (i : Nat) : Prop :=
  match axes with
  | .one a => a ≠ none
  | .each l => ∃ x, l[i]? = some (some x)

/-- A list of axes has one for each argument. -/
def Axes.Fits (axes : Axes) (n : Nat) : Prop := ∀ l, axes = .each l → l.length = n

/-- The arguments of sample `s`: the mapped ones contribute their row `s`, the others are passed as they are. -/
def IsRow (axes : Axes) (args : List (Arg P)) (s : Nat) (row : List (Arg P)) : Prop :=
  row.length = args.length ∧ ∀ (i : Nat) (x : Arg P), args[i]? = some x →
    (¬ axes.Mapped i → row[i]? = some x) ∧
    (axes.Mapped i → ∃ l b, x = .arr (.rows l) ∧ l[s]? = some b ∧ row[i]? = some (.arr b))

/-- The batch size: the number of rows of the first argument that is not `None`. -/
def IsBatch (args : List (Arg P)) (n : Nat) : Prop :=
  ∃ (i : Nat) (l : List Arr), args[i]? = some (.arr (.rows l)) ∧ l.length = n ∧ ∀ j < i, args[j]? = some .none

/-- All arrays of a list have the same shape. -/
def SameShape (l : List Arr) : Prop := ∀ a ∈ l, ∀ b ∈ l, a.shape = b.shape

/-- Component `i` of an output. -/
def Out.At (o : Out) (i : Nat) (b : Arr) : Prop :=
  (∃ cls l, o = .tup cls l ∧ l[i]? = some b) ∨ ∃ l, o = .arr (.rows l) ∧ l[i]? = some b

/-! ## Lemmas -/

theorem mapM_iff {α β : Type} {f : α → Py β} {l : List α} {r : List β} :
    l.mapM f = .ok r ↔ r.length = l.length ∧ ∀ (i : Nat) (a : α), l[i]? = some a → ∃ b, r[i]? = some b ∧ f a = .ok b := by
  constructor
  · intro h
    have hf := Config.mapM_inv h
    refine ⟨hf.length_eq.symm, fun i a ha => ?_⟩
    obtain ⟨hi, rfl⟩ := List.getElem?_eq_some_iff.mp ha
    have hi' : i < r.length := hf.length_eq ▸ hi
    exact ⟨r[i], List.getElem?_eq_getElem hi', hf.get hi hi'⟩
  · rintro ⟨hl, h⟩
    refine Config.mapM_of (List.forall₂_iff_get.mpr ⟨hl.symm, fun i h1 h2 => ?_⟩)
    obtain ⟨b, hb, he⟩ := h i l[i] (List.getElem?_eq_getElem h1)
    rw [List.getElem?_eq_getElem h2] at hb
    cases hb
    exact he

/-- The first failure decides. -/
theorem mapM_error {α β : Type} {f : α → Py β} {l : List α} {e : PyErr} {k : Nat} {a : α} (ha : l[k]? = some a) (he : f a = .error e)
    (hb : ∀ i < k, ∀ b : α, l[i]? = some b → ∃ c, f b = .ok c) : l.mapM f = .error e := by
  induction l generalizing k with
  | nil => simp at ha
  | cons x l ih =>
    rw [List.mapM_cons]
    cases k with
    | zero =>
      simp only [List.getElem?_cons_zero, Option.some.injEq] at ha
      subst ha
      rw [he]
      rfl
    | succ k =>
      obtain ⟨c, hc⟩ := hb 0 (Nat.succ_pos k) x rfl
      rw [hc, show l.mapM f = .error e from ih (k := k) (by simpa using ha) fun i hi b hb' => hb (i + 1) (by omega) b (by simpa using hb')]
      rfl

theorem fullAxes_iff {axes : Axes} {n : Nat} {full : List (Option Int)} (h : fullAxes axes n = .ok full) :
    full.length = n ∧ axes.Fits n ∧ ∀ i < n, ∃ o, full[i]? = some o ∧ (o ≠ none ↔ axes.Mapped i) := by
  cases axes with
  | one a =>
    cases h
    refine ⟨List.length_replicate, (fun _ hl => nomatch hl), fun i hi => ⟨a, ?_, Iff.rfl⟩⟩
    rw [List.getElem?_replicate, if_pos hi]
  | each l =>
    simp only [fullAxes] at h
    by_cases hl : l.length = n
    · rw [if_pos hl] at h
      cases h
      refine ⟨hl, fun l' hl' => by cases hl'; exact hl, fun i hi => ⟨full[i], List.getElem?_eq_getElem (hl ▸ hi), ?_⟩⟩
      show _ ↔ ∃ x, full[i]? = some (some x)
      rw [List.getElem?_eq_getElem (hl ▸ hi)]
      cases full[i] <;> simp
    · rw [if_neg hl] at h
      cases h

theorem fullAxes_fits {axes : Axes} {n : Nat} (h : axes.Fits n) : ∃ full, fullAxes axes n = .ok full := by
  cases axes with
  | one a => exact ⟨_, rfl⟩
  | each l => exact ⟨l, if_pos (h l rfl)⟩

theorem batchSize_iff {args : List (Arg P)} {n : Nat} : batchSize args = .ok n ↔ IsBatch args n := by
  induction args with
  | nil => exact ⟨(fun h => nomatch h), by rintro ⟨i, l, h, -⟩; simp at h⟩
  | cons a args ih =>
    cases a with
    | none =>
      show batchSize args = .ok n ↔ _
      rw [ih]
      constructor
      · rintro ⟨i, l, h1, h2, h3⟩
        refine ⟨i + 1, l, by simpa using h1, h2, fun j hj => ?_⟩
        cases j with
        | zero => rfl
        | succ j => simpa using h3 j (by omega)
      · rintro ⟨i, l, h1, h2, h3⟩
        cases i with
        | zero => simp at h1
        | succ i => exact ⟨i, l, by simpa using h1, h2, fun j hj => by simpa using h3 (j + 1) (by omega)⟩
    | obj p =>
      refine ⟨(fun h => nomatch h), ?_⟩
      rintro ⟨i, l, h1, h2, h3⟩
      cases i with
      | zero => simp at h1
      | succ i => simpa using h3 0 (Nat.succ_pos i)
    | arr a =>
      cases a with
      | num x =>
        refine ⟨(fun h => nomatch h), ?_⟩
        rintro ⟨i, l, h1, h2, h3⟩
        cases i with
        | zero => simp at h1
        | succ i => simpa using h3 0 (Nat.succ_pos i)
      | rows l =>
        constructor
        · intro h
          cases h
          exact ⟨0, l, rfl, rfl, fun j hj => absurd hj (Nat.not_lt_zero j)⟩
        · rintro ⟨i, l', h1, h2, h3⟩
          cases i with
          | zero =>
            simp only [List.getElem?_cons_zero, Option.some.injEq, Arg.arr.injEq, Arr.rows.injEq] at h1
            subst h1
            exact congrArg Except.ok h2
          | succ i => simpa using h3 0 (Nat.succ_pos i)

theorem sample_iff {axes : Axes} {args row : List (Arg P)} {full : List (Option Int)} {s : Nat} (h : fullAxes axes args.length = .ok full) :
    (args.zip full).mapM (sampleArg s) = .ok row ↔ IsRow axes args s row := by
  obtain ⟨hl, -, hm⟩ := fullAxes_iff h
  have key : ∀ i x, args[i]? = some x → ∃ o, full[i]? = some o ∧ (o ≠ none ↔ axes.Mapped i) ∧ (args.zip full)[i]? = some (x, o) := by
    intro i x hx
    obtain ⟨hi, rfl⟩ := List.getElem?_eq_some_iff.mp hx
    obtain ⟨o, ho, hm⟩ := hm i hi
    exact ⟨o, ho, hm, by rw [List.getElem?_zip_eq_some]; exact ⟨hx, ho⟩⟩
  rw [mapM_iff, List.length_zip, hl, Nat.min_self]
  refine and_congr Iff.rfl ⟨fun H i x hx => ?_, fun H i p hp => ?_⟩
  · obtain ⟨o, ho, hmap, hz⟩ := key i x hx
    obtain ⟨b, hb, he⟩ := H i _ hz
    cases o with
    | none =>
      cases he
      exact ⟨fun _ => hb, fun hc => absurd (hmap.mpr hc) (by simp)⟩
    | some y =>
      refine ⟨fun hc => absurd (hmap.mp (by simp)) hc, fun _ => ?_⟩
      simp only [sampleArg, Arg.item] at he
      split at he <;> try (cases he)
      split at he
      · cases he
        exact ⟨_, _, rfl, ‹_›, hb⟩
      · cases he
  · obtain ⟨x, o⟩ := p
    obtain ⟨hx, ho⟩ := List.getElem?_zip_eq_some.mp hp
    obtain ⟨o', ho', hmap, -⟩ := key i x hx
    rw [ho] at ho'
    cases ho'
    cases o with
    | none => exact ⟨x, (H i x hx).1 fun hc => hmap.mpr hc rfl, rfl⟩
    | some y =>
      obtain ⟨l, b, rfl, h2, h3⟩ := (H i x hx).2 (hmap.mp (by simp))
      refine ⟨_, h3, ?_⟩
      simp [sampleArg, Arg.item, h2]

theorem stack_iff {l : List Arr} {a : Arr} : stack l = .ok a ↔ l ≠ [] ∧ a = .rows l ∧ SameShape l := by
  cases l with
  | nil => simp [stack]
  | cons b l =>
    have hs : (∀ c ∈ l, c.shape = b.shape) ↔ SameShape (b :: l) := by
      constructor
      · intro h x hx y hy
        have e : ∀ z ∈ b :: l, z.shape = b.shape := by
          intro z hz
          rcases List.mem_cons.mp hz with rfl | hz
          · rfl
          · exact h z hz
        rw [e x hx, e y hy]
      · exact fun h c hc => h c (List.mem_cons_of_mem _ hc) b List.mem_cons_self
    simp only [stack]
    by_cases h : ∀ c ∈ l, c.shape = b.shape
    · rw [if_pos h]
      simp only [Except.ok.injEq, ne_eq, reduceCtorEq, not_false_eq_true, true_and, hs.mp h, and_true]
      exact eq_comm
    · rw [if_neg h]
      simp only [reduceCtorEq, false_iff]
      exact fun hc => h (hs.mpr hc.2.2)

theorem item_iff {o : Out} {i : Nat} {b : Arr} : o.item i = .ok b ↔ o.At i b := by
  unfold Out.item Out.At
  cases o with
  | tup cls l =>
    cases h : l[i]? <;> simp [h, eq_comm]
  | arr a =>
    cases a with
    | num x => simp
    | rows l => cases h : l[i]? <;> simp [h, eq_comm]

/-- The outputs of the samples, in order. -/
def Outputs (fn : List (Arg P) → Py Out) (axes : Axes) (args : List (Arg P)) (outs : List Out) : Prop :=
  IsBatch args outs.length ∧ ∀ s o, outs[s]? = some o → ∃ row, IsRow axes args s row ∧ fn row = .ok o

/-- `lmap` up to the assembly of the outputs. -/
theorem outputs_iff {fn : List (Arg P) → Py Out} {axes : Axes} {args : List (Arg P)} {full : List (Option Int)}
    (h : fullAxes axes args.length = .ok full) {outs : List Out} :
    (∃ batch, batchSize args = .ok batch ∧ ((List.range batch).mapM fun idx => do
      let sample ← (args.zip full).mapM (sampleArg idx)
      fn sample) = .ok outs) ↔ Outputs fn axes args outs := by
  constructor
  · rintro ⟨batch, h1, h2⟩
    obtain ⟨hl, h2⟩ := mapM_iff.mp h2
    rw [List.length_range] at hl
    refine ⟨batchSize_iff.mp (hl ▸ h1), fun s o ho => ?_⟩
    obtain ⟨hs, -⟩ := List.getElem?_eq_some_iff.mp ho
    obtain ⟨b, hb, he⟩ := h2 s s (List.getElem?_range (hl ▸ hs))
    rw [ho] at hb
    cases hb
    obtain ⟨row, hr, hf⟩ := Config.bind_ok he
    exact ⟨row, (sample_iff h).mp hr, hf⟩
  · rintro ⟨h1, h2⟩
    refine ⟨outs.length, batchSize_iff.mpr h1, mapM_iff.mpr ⟨by simp, fun i a ha => ?_⟩⟩
    obtain ⟨hi, rfl⟩ := List.getElem?_eq_some_iff.mp ha
    simp only [List.length_range] at hi
    obtain ⟨row, hr, hf⟩ := h2 i outs[i] (List.getElem?_eq_getElem hi)
    refine ⟨outs[i], List.getElem?_eq_getElem hi, ?_⟩
    simp only [List.getElem_range, (sample_iff h).mpr hr, bind, Except.bind, hf]

/-- The assembly of the outputs. -/
def assemble (outs : List Out) : Py Out :=
  match outs with
  | [] => .error .indexError
  | .tup cls l :: rest => do
    let parts ← (List.range l.length).mapM fun i => do
      let column ← (.tup cls l :: rest).mapM fun o => o.item i
      stack column
    return .tup cls parts
  | .arr a :: rest => do
    let column ← (.arr a :: rest).mapM Out.array
    let r ← stack column
    return .arr r

theorem lmap_ok_iff {fn : List (Arg P) → Py Out} {axes : Axes} {args : List (Arg P)} {r : Out} :
    lmap fn axes args = .ok r ↔ axes.Fits args.length ∧ ∃ outs, Outputs fn axes args outs ∧ assemble outs = .ok r := by
  constructor
  · intro h
    obtain ⟨full, h1, h⟩ := Config.bind_ok h
    obtain ⟨batch, h2, h⟩ := Config.bind_ok h
    obtain ⟨outs, h3, h⟩ := Config.bind_ok h
    exact ⟨(fullAxes_iff h1).2.1, outs, (outputs_iff h1).mp ⟨batch, h2, h3⟩, h⟩
  · rintro ⟨h, outs, ho, ha⟩
    obtain ⟨full, h1⟩ := fullAxes_fits h
    obtain ⟨batch, h2, h3⟩ := (outputs_iff h1).mpr ho
    unfold lmap
    rw [h1, show (Except.ok full : Py _) >>= _ = _ from rfl]
    simp only [bind, Except.bind] at h3 ⊢
    rw [h2]
    simp only
    rw [h3]
    exact ha

theorem array_iff {o : Out} {a : Arr} : o.array = .ok a ↔ o = .arr a := by
  cases o <;> simp [Out.array]

/-- **C79.** The mapped function returns an array exactly if the list of axes fits, some argument has rows and every sample's call returns
an array of one common shape; row `s` of the result is then the function's value at the `s`-th rows of the mapped arguments. -/
theorem C79_lmap_array (fn : List (Arg P) → Py Out) (axes : Axes) (args : List (Arg P)) (a : Arr) :
    lmap fn axes args = .ok (.arr a) ↔ axes.Fits args.length ∧ ∃ rows, rows ≠ [] ∧ a = .rows rows ∧ SameShape rows ∧
      IsBatch args rows.length ∧ ∀ s b, rows[s]? = some b → ∃ row, IsRow axes args s row ∧ fn row = .ok (.arr b) := by
  rw [lmap_ok_iff]
  refine and_congr Iff.rfl ⟨?_, ?_⟩
  · rintro ⟨outs, ⟨h1, h2⟩, h3⟩
    unfold assemble at h3
    split at h3
    · cases h3
    · obtain ⟨_, _, h⟩ := Config.bind_ok h3
      cases h
    · obtain ⟨col, hc, h3⟩ := Config.bind_ok h3
      obtain ⟨r, hr, h3⟩ := Config.bind_ok h3
      cases h3
      obtain ⟨hne, rfl, hs⟩ := stack_iff.mp hr
      obtain ⟨hl, hc⟩ := mapM_iff.mp hc
      refine ⟨col, hne, rfl, hs, by rw [hl]; exact h1, fun s b hb => ?_⟩
      obtain ⟨hs', -⟩ := List.getElem?_eq_some_iff.mp hb
      obtain ⟨b', hb', he⟩ := hc s _ (List.getElem?_eq_getElem (hl ▸ hs'))
      rw [hb] at hb'
      cases hb'
      have := h2 s _ (List.getElem?_eq_getElem (hl ▸ hs'))
      rwa [array_iff.mp he] at this
  · rintro ⟨rows, hne, rfl, hs, hb, hr⟩
    refine ⟨rows.map .arr, ⟨by simpa using hb, fun s o ho => ?_⟩, ?_⟩
    · rw [List.getElem?_map, Option.map_eq_some_iff] at ho
      obtain ⟨b, hb, rfl⟩ := ho
      exact hr s b hb
    · cases rows with
      | nil => exact absurd rfl hne
      | cons b l =>
        have e : ((.arr b :: l.map .arr : List Out)).mapM Out.array = .ok (b :: l) := by
          rw [mapM_iff]
          refine ⟨by simp, fun i o ho => ?_⟩
          rw [← List.map_cons, List.getElem?_map, Option.map_eq_some_iff] at ho
          obtain ⟨c, hc, rfl⟩ := ho
          exact ⟨c, hc, rfl⟩
        simp only [assemble, List.map_cons, bind, Except.bind]
        rw [e]
        simp only
        rw [stack_iff.mpr ⟨by simp, rfl, hs⟩]
        rfl

/-- **C79.** For a function that returns tuples (or named tuples): the result has the class and the number of elements of the first
sample's, and row `s` of element `i` is element `i` of sample `s`. -/
theorem C79_lmap_tuple (fn : List (Arg P) → Py Out) (axes : Axes) (args : List (Arg P)) (cls : String) (parts : List Arr) :
    lmap fn axes args = .ok (.tup cls parts) ↔ axes.Fits args.length ∧ ∃ outs, Outputs fn axes args outs ∧
      (∃ l, outs[0]? = some (.tup cls l) ∧ l.length = parts.length) ∧
      ∀ (i : Nat) (p : Arr), parts[i]? = some p → ∃ col, p = .rows col ∧ col.length = outs.length ∧ SameShape col ∧
        ∀ (s : Nat) (o : Out), outs[s]? = some o → ∃ b, col[s]? = some b ∧ o.At i b := by
  rw [lmap_ok_iff]
  refine and_congr Iff.rfl (exists_congr fun outs => and_congr Iff.rfl ?_)
  cases outs with
  | nil => simp [assemble]
  | cons o rest =>
    cases o with
    | arr a =>
      constructor
      · intro h
        obtain ⟨_, _, h⟩ := Config.bind_ok h
        obtain ⟨_, _, h⟩ := Config.bind_ok h
        cases h
      · rintro ⟨⟨l, h, -⟩, -⟩
        simp at h
    | tup cls' l =>
      have col_iff : ∀ i p, ((do
          let column ← (.tup cls' l :: rest).mapM fun o => o.item i
          stack column) = Except.ok p) ↔ ∃ col, p = .rows col ∧ col.length = (.tup cls' l :: rest : List Out).length ∧ SameShape col ∧
          ∀ (s : Nat) (o : Out), (.tup cls' l :: rest : List Out)[s]? = some o → ∃ b, col[s]? = some b ∧ o.At i b := by
        intro i p
        constructor
        · intro h
          obtain ⟨col, hc, h⟩ := Config.bind_ok h
          obtain ⟨-, rfl, hs⟩ := stack_iff.mp h
          obtain ⟨hl, hc⟩ := mapM_iff.mp hc
          refine ⟨col, rfl, hl, hs, fun s o ho => ?_⟩
          obtain ⟨b, hb, he⟩ := hc s o ho
          exact ⟨b, hb, item_iff.mp he⟩
        · rintro ⟨col, rfl, hl, hs, hc⟩
          have : (.tup cls' l :: rest : List Out).mapM (fun o => o.item i) = .ok col :=
            mapM_iff.mpr ⟨hl, fun s o ho => by
              obtain ⟨b, hb, ha⟩ := hc s o ho
              exact ⟨b, hb, item_iff.mpr ha⟩⟩
          rw [this]
          exact stack_iff.mpr ⟨(by rintro rfl; simp at hl), rfl, hs⟩
      constructor
      · intro h
        obtain ⟨parts', hp, h⟩ := Config.bind_ok h
        cases h
        obtain ⟨hl, hp⟩ := mapM_iff.mp hp
        rw [List.length_range] at hl
        refine ⟨⟨l, rfl, hl.symm⟩, fun i p hi => ?_⟩
        obtain ⟨hi', -⟩ := List.getElem?_eq_some_iff.mp hi
        obtain ⟨b, hb, he⟩ := hp i i (List.getElem?_range (hl ▸ hi'))
        rw [hi] at hb
        cases hb
        exact (col_iff i p).mp he
      · rintro ⟨⟨l', h1, h2⟩, h3⟩
        simp only [List.getElem?_cons_zero, Option.some.injEq, Out.tup.injEq] at h1
        obtain ⟨rfl, rfl⟩ := h1
        have : ((List.range l.length).mapM fun i => do
            let column ← (.tup cls' l :: rest).mapM fun o => o.item i
            stack column) = Except.ok parts := by
          refine mapM_iff.mpr ⟨by simp [h2], fun i a ha => ?_⟩
          obtain ⟨hi, rfl⟩ := List.getElem?_eq_some_iff.mp ha
          simp only [List.length_range] at hi
          have hp := List.getElem?_eq_getElem (h2 ▸ hi : i < parts.length)
          exact ⟨_, hp, by simpa using (col_iff i _).mpr (h3 i _ hp)⟩
        simp only [assemble]
        rw [this]
        rfl

/-- **C79.** The first sample whose call raises decides what the mapped function raises, and an empty batch raises IndexError. -/
theorem C79_lmap_raises (fn : List (Arg P) → Py Out) (axes : Axes) (args : List (Arg P)) (n : Nat) (hf : axes.Fits args.length)
    (hb : IsBatch args n) :
    (∀ s row e, s < n → IsRow axes args s row → fn row = .error e → (∀ t < s, ∃ r o, IsRow axes args t r ∧ fn r = .ok o) →
      lmap fn axes args = .error e) ∧
    (n = 0 → lmap fn axes args = .error .indexError) := by
  obtain ⟨full, h1⟩ := fullAxes_fits hf
  have h2 := batchSize_iff.mpr hb
  constructor
  · intro s row e hs hr he hlt
    unfold lmap
    rw [h1, h2]
    simp only [bind, Except.bind]
    rw [mapM_error (k := s) (a := s) (e := e) (List.getElem?_range hs)]
    · rw [(sample_iff h1).mpr hr]
      exact he
    · intro i hi b hb
      obtain ⟨r, o, hr, ho⟩ := hlt i hi
      rw [List.getElem?_range (by omega)] at hb
      cases hb
      exact ⟨o, by rw [(sample_iff h1).mpr hr]; exact ho⟩
  · rintro rfl
    unfold lmap
    rw [h1, h2]
    rfl

end Lumos.Map
