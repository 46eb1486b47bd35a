import Verif.Cas.MixModel
import Verif.Cas.Num
/-!
# C102: numpy arrays and casadi matrices together

A function of the casadi backend given numpy arrays only is numpy's function; given casadi matrices, or both, it returns a casadi matrix that
shows numpy's result.
-/

namespace Lumos.Cas

open Lumos Lumos.Cas.Np

/-! ### The specification -/

/-- There is a casadi matrix in the value: it is one, or it is a list or tuple with such a value among its elements. -/
inductive Contains : Obj → Prop where
  | here (x : Mx) : Contains (.cas x)
  | inside {o : Obj} {l : List Obj} : o ∈ l → Contains o → Contains (.seq l)

/-- The value stands for a numpy array: it is that array, or a casadi matrix that shows it. -/
def Means (a : Nd) : Obj → Prop
  | .np b => b = a
  | .cas x => Shows a x
  | _ => False

/-- The value is a numpy array. -/
def Plain : Obj → Prop
  | .np _ => True
  | _ => False

/-- A function of the backend does what numpy's does (`g` is numpy's result): whenever numpy has a result, so has the function; it stands for
numpy's result, and it is a numpy array exactly if `p` holds. -/
def Agrees (g : Py Nd) (r : Py Obj) (p : Prop) : Prop := ∀ y, g = .ok y → ∃ o, r = .ok o ∧ Means y o ∧ (Plain o ↔ p)

/-! ### Detection -/

mutual
theorem contains_of_isCasadi : ∀ o : Obj, isCasadi o = true → Contains o
  | .cas x, _ => .here x
  | .np _, h => by simp [isCasadi] at h
  | .thing, h => by simp [isCasadi] at h
  | .seq l, h => by
    obtain ⟨o, ho, hc⟩ := contains_of_any l (by simpa [isCasadi] using h)
    exact .inside ho hc

theorem contains_of_any : ∀ l : List Obj, isCasadiAny l = true → ∃ o ∈ l, Contains o
  | [], h => by simp [isCasadiAny] at h
  | o :: l, h => by
    rw [isCasadiAny] at h
    by_cases hc : isCasadi o = true
    · exact ⟨o, by simp, contains_of_isCasadi o hc⟩
    · rw [if_neg hc] at h
      obtain ⟨p, hp, hq⟩ := contains_of_any l h
      exact ⟨p, by simp [hp], hq⟩
end

theorem any_of_mem {o : Obj} (h : isCasadi o = true) : ∀ {l : List Obj}, o ∈ l → isCasadiAny l = true
  | p :: l, hm => by
    rw [isCasadiAny]
    by_cases hp : isCasadi p = true
    · rw [if_pos hp]
    · rw [if_neg hp]
      rcases List.mem_cons.1 hm with rfl | hm
      · exact absurd h hp
      · exact any_of_mem h hm

theorem isCasadi_of_contains {o : Obj} (h : Contains o) : isCasadi o = true := by
  induction h with
  | here x => simp [isCasadi]
  | inside hm _ ih => rw [isCasadi]; exact any_of_mem ih hm

/-- **C102 (detection).** `is_casadi_type` says true exactly if there is a casadi matrix in the value, at any depth of lists and tuples; without
`recursive`, exactly if the value itself is a casadi matrix. -/
theorem C102_detects (o : Obj) :
    (isCasadiType o = true ↔ Contains o) ∧ (isCasadiType o false = true ↔ ∃ x, o = .cas x) := by
  refine ⟨⟨fun h => contains_of_isCasadi o (by simpa [isCasadiType] using h), fun h => by simpa [isCasadiType] using isCasadi_of_contains h⟩, ?_⟩
  cases o <;> simp [isCasadiType]

/-! ### Two arguments -/

theorem toMx_means {a : Nd} {o : Obj} (h : Means a o) : ∃ x, toMx o = .ok x ∧ Shows a x := by
  cases o with
  | cas x => exact ⟨x, rfl, h⟩
  | np b =>
    cases h
    cases a with
    | num a => exact ⟨_, rfl, rfl, rfl, rfl⟩
    | vec n f => exact ⟨_, rfl, rfl, rfl, fun i _ => rfl⟩
    | mat r c f => exact ⟨_, rfl, rfl, rfl, fun i _ j _ => rfl⟩
  | seq l => exact h.elim
  | thing => exact h.elim

theorem plain_or {a : Nd} {o : Obj} (h : Means a o) : (o = .np a ∧ Plain o ∧ isCasadi o = false) ∨ (¬ Plain o ∧ isCasadi o = true) := by
  cases o with
  | cas x => exact .inr ⟨id, by simp [isCasadi]⟩
  | np b => cases h; exact .inl ⟨rfl, trivial, by simp [isCasadi]⟩
  | seq l => exact h.elim
  | thing => exact h.elim

theorem pick2_agrees {np : Nd → Nd → Py Nd} {cas : Mx → Mx → Py Mx} {a b : Nd} {x y : Obj} (hx : Means a x) (hy : Means b y)
    (hs : ∀ u v, Shows a u → Shows b v → Same (np a b) (cas u v)) : Agrees (np a b) (pick2 np cas x y) (Plain x ∧ Plain y) := by
  intro z hz
  have main : ¬ (Plain x ∧ Plain y) → isCasadiType (.seq [x, y]) = true → ∃ o, pick2 np cas x y = .ok o ∧ Means z o ∧ (Plain o ↔ Plain x ∧ Plain y) := by
    intro hp hc
    obtain ⟨u, hu, su⟩ := toMx_means hx
    obtain ⟨v, hv, sv⟩ := toMx_means hy
    obtain ⟨w, hw, sw⟩ := hs u v su sv z hz
    refine ⟨.cas w, ?_, sw, ⟨fun h => h.elim, fun h => (hp h).elim⟩⟩
    rw [pick2, hc, hu, hv]
    change casOut (cas u v) = _
    rw [hw]
    rfl
  rcases plain_or hx with ⟨ex, px, cx⟩ | ⟨px, cx⟩
  · rcases plain_or hy with ⟨ey, py, cy⟩ | ⟨py, cy⟩
    · subst ex
      subst ey
      refine ⟨.np z, ?_, rfl, ⟨fun _ => ⟨px, py⟩, fun _ => trivial⟩⟩
      change npOut (np a b) = _
      rw [hz]
      rfl
    · exact main (fun h => py h.2) (by simp [isCasadiType, isCasadi, isCasadiAny, cy])
  · exact main (fun h => px h.1) (by simp [isCasadiType, isCasadi, isCasadiAny, cx])

/-- numpy's `logical_and` of two arrays of one shape, or an array and a number: 1 where both are true, 0 elsewhere. -/
noncomputable def npAnd : Nd → Nd → Py Nd := Np.zip fun a b => if a ≠ 0 ∧ b ≠ 0 then 1 else 0

/-- numpy's `logical_or`. -/
noncomputable def npOr : Nd → Nd → Py Nd := Np.zip fun a b => if a ≠ 0 ∨ b ≠ 0 then 1 else 0

theorem npAnd_eq : npAnd = Np.zip andR := by
  unfold npAnd
  congr 1
  funext a b
  by_cases h : a ≠ 0 ∧ b ≠ 0 <;> simp [andR, truth]

theorem npOr_eq : npOr = Np.zip orR := by
  unfold npOr
  congr 1
  funext a b
  by_cases h : a ≠ 0 ∨ b ≠ 0 <;> simp [orR, truth]

/-- **C102 (two arguments).** `logical_and`, `logical_or`, `dot` and `linalg.inner` of vectors and `cross`, given two arguments each of which is a
numpy array or a casadi matrix that shows one: whenever numpy has a result, the function returns it as a numpy array if both arguments are numpy
arrays, and as a casadi matrix that shows it otherwise. -/
theorem C102_two {a b : Nd} {x y : Obj} (hx : Means a x) (hy : Means b y) :
    Agrees (npAnd a b) (logicalAnd x y) (Plain x ∧ Plain y) ∧
    Agrees (npOr a b) (logicalOr x y) (Plain x ∧ Plain y) ∧
    (isVec a = true → Agrees (Np.dot a b) (mixDot x y) (Plain x ∧ Plain y) ∧ Agrees (Np.dot a b) (mixInner x y) (Plain x ∧ Plain y)) ∧
    Agrees (Np.cross a b) (mixCross x y) (Plain x ∧ Plain y) := by
  refine ⟨?_, ?_, fun hv => ⟨?_, ?_⟩, ?_⟩
  · rw [npAnd_eq]; exact pick2_agrees hx hy fun u v su sv => C90_elementwise su sv _
  · rw [npOr_eq]; exact pick2_agrees hx hy fun u v su sv => C90_elementwise su sv _
  · exact pick2_agrees hx hy fun u v su sv => ((C90_products su sv).1 hv).1
  · exact pick2_agrees hx hy fun u v su sv => ((C90_products su sv).1 hv).2
  · exact pick2_agrees hx hy fun u v su sv => (C90_products su sv).2.2

/-! ### One argument -/

/-- Every entry is 0 or 1: a truth value. -/
def Truths : Nd → Prop
  | .num a => a = 0 ∨ a = 1
  | .vec n f => ∀ i < n, f i = 0 ∨ f i = 1
  | .mat r c f => ∀ i < r, ∀ j < c, f i j = 0 ∨ f i j = 1

theorem truth_eq {p q : Prop} (h : p ↔ q) : truth p = truth q := by
  rw [propext h]

theorem one_iff {a : ℝ} (h : a = 0 ∨ a = 1) : a ≠ 0 ↔ a = 1 := by
  rcases h with rfl | rfl <;> norm_num

theorem every_shows {a : Nd} {x : Mx} (h : Shows a x) (ht : Truths a) :
    (everyEntry a ↔ ∀ i < x.rows, ∀ j < x.cols, x.at' i j = 1) ∧ (someEntry a ↔ ∃ i < x.rows, ∃ j < x.cols, x.at' i j = 1) := by
  cases a with
  | num a =>
    obtain ⟨h1, h2, h3⟩ := h
    have := one_iff ht
    simp [everyEntry, someEntry, h1, h2, h3, this]
  | vec n f =>
    obtain ⟨h1, h2, h3⟩ := h
    simp only [everyEntry, someEntry, h1, h2, Nat.lt_one_iff, forall_eq, exists_eq_left]
    exact ⟨forall₂_congr fun i hi => by rw [h3 i hi]; exact one_iff (ht i hi),
      exists_congr fun i => and_congr_right fun hi => by rw [h3 i hi]; exact one_iff (ht i hi)⟩
  | mat r c f =>
    obtain ⟨h1, h2, h3⟩ := h
    simp only [everyEntry, someEntry, h1, h2]
    exact ⟨forall₂_congr fun i hi => forall₂_congr fun j hj => by rw [h3 i hi j hj]; exact one_iff (ht i hi j hj),
      exists_congr fun i => and_congr_right fun hi => exists_congr fun j => and_congr_right fun hj => by
        rw [h3 i hi j hj]; exact one_iff (ht i hi j hj)⟩

theorem pick1_agrees {np : Nd → Nd} {cas : Mx → Mx} {a : Nd} {x : Obj} (hx : Means a x) (hs : ∀ u, Shows a u → Shows (np a) (cas u)) :
    Agrees (.ok (np a)) (pick1 np cas x) (Plain x) := by
  intro z hz
  cases hz
  cases x with
  | cas u => exact ⟨.cas (cas u), rfl, hs u hx, ⟨fun h => h.elim, fun h => h.elim⟩⟩
  | np b => cases hx; exact ⟨.np (np a), rfl, rfl, ⟨fun _ => trivial, fun _ => trivial⟩⟩
  | seq l => exact hx.elim
  | thing => exact hx.elim

/-- **C102 (one argument).** `logical_not` of an array, and `all` and `any` of an array of truth values, return what numpy returns: as a numpy
array for a numpy array and as a casadi matrix that shows it for a casadi matrix. -/
theorem C102_one {a : Nd} {x : Obj} (hx : Means a x) :
    Agrees (.ok (Np.map (fun t => if t = 0 then 1 else 0) a)) (logicalNot x) (Plain x) ∧
    (Truths a → Agrees (.ok (.num (truth (everyEntry a)))) (all x) (Plain x) ∧ Agrees (.ok (.num (truth (someEntry a)))) (any x) (Plain x)) := by
  have e : (fun t : ℝ => if t = 0 then (1 : ℝ) else 0) = notR := by
    funext t
    by_cases h : t = 0 <;> simp [notR, truth]
  rw [e]
  refine ⟨pick1_agrees hx fun u su => shows_map su _, fun ht => ⟨?_, ?_⟩⟩
  · exact pick1_agrees (np := fun a => .num (truth (everyEntry a))) (cas := logicAll) hx fun u su => ⟨rfl, rfl, (truth_eq (every_shows su ht).1).symm⟩
  · exact pick1_agrees (np := fun a => .num (truth (someEntry a))) (cas := logicAny) hx fun u su => ⟨rfl, rfl, (truth_eq (every_shows su ht).2).symm⟩

/-- The laws of logic, on numbers: De Morgan's law and double negation; what they return are truth values. -/
theorem C102_laws (a b : ℝ) : notR (andR a b) = orR (notR a) (notR b) ∧ notR (orR a b) = andR (notR a) (notR b) ∧
    (notR (notR a) = 1 ↔ a ≠ 0) ∧ (andR a b = 0 ∨ andR a b = 1) ∧ (orR a b = 0 ∨ orR a b = 1) ∧ (notR a = 0 ∨ notR a = 1) := by
  by_cases ha : a = 0 <;> by_cases hb : b = 0 <;> simp [notR, andR, orR, truth, ha, hb]

/-! ### Three arguments, and lists -/

/-- **C102 (`where`).** Given a condition and two values that fit it, each a numpy array or a casadi matrix: numpy's result, as a numpy array
if all three are and as a casadi matrix otherwise. -/
theorem C102_where {c a b : Nd} {z x y : Obj} (hc : Means c z) (ha : Means a x) (hb : Means b y) (fa : Fits a c) (fb : Fits b c) :
    Agrees (.ok (choose c a b)) (mixWhere z x y) (Plain z ∧ Plain x ∧ Plain y) := by
  intro w hw
  cases hw
  have main : ¬ (Plain z ∧ Plain x ∧ Plain y) → isCasadiType (.seq [z, x, y]) = true →
      ∃ o, mixWhere z x y = .ok o ∧ Means (choose c a b) o ∧ (Plain o ↔ Plain z ∧ Plain x ∧ Plain y) := by
    intro hp hd
    obtain ⟨t, ht, st⟩ := toMx_means hc
    obtain ⟨u, hu, su⟩ := toMx_means ha
    obtain ⟨v, hv, sv⟩ := toMx_means hb
    obtain ⟨w, hw, sw⟩ := (C90_entries st su sv fa fb).2.2.2.2
    refine ⟨.cas w, ?_, sw, ⟨fun h => h.elim, fun h => (hp h).elim⟩⟩
    rw [mixWhere, hd, ht, hu, hv]
    change casOut (where' t u v) = _
    rw [hw]
    rfl
  rcases plain_or hc with ⟨ez, pz, cz⟩ | ⟨pz, cz⟩
  · rcases plain_or ha with ⟨ex, px, cx⟩ | ⟨px, cx⟩
    · rcases plain_or hb with ⟨ey, py, cy⟩ | ⟨py, cy⟩
      · subst ez
        subst ex
        subst ey
        exact ⟨.np (choose c a b), rfl, rfl, ⟨fun _ => ⟨pz, px, py⟩, fun _ => trivial⟩⟩
      · exact main (fun h => py h.2.2) (by simp [isCasadiType, isCasadi, isCasadiAny, cy])
    · exact main (fun h => px h.2.1) (by simp [isCasadiType, isCasadi, isCasadiAny, cx])
  · exact main (fun h => pz h.1) (by simp [isCasadiType, isCasadi, isCasadiAny, cz])

theorem toMx_all {as : List Nd} {l : List Obj} (h : List.Forall₂ Means as l) : ∃ xs, l.mapM toMx = .ok xs ∧ ShowsAll as xs := by
  induction h with
  | nil => exact ⟨[], rfl, .nil⟩
  | cons ha _ ih =>
    obtain ⟨x, hx, sx⟩ := toMx_means ha
    obtain ⟨xs, hxs, sxs⟩ := ih
    refine ⟨x :: xs, ?_, .cons sx sxs⟩
    rw [List.mapM_cons, hx, hxs]
    rfl

theorem all_plain {as : List Nd} {l : List Obj} (h : List.Forall₂ Means as l) :
    ((∀ o ∈ l, Plain o) ∧ l.mapM toNd = .ok as ∧ isCasadiAny l = false) ∨ (¬ (∀ o ∈ l, Plain o) ∧ isCasadiAny l = true) := by
  induction h with
  | nil => exact .inl ⟨by simp, rfl, rfl⟩
  | @cons a o as l ha _ ih =>
    rcases plain_or ha with ⟨e, p, c⟩ | ⟨p, c⟩
    · rcases ih with ⟨h1, h2, h3⟩ | ⟨h1, h2⟩
      · refine .inl ⟨by simpa [p] using h1, ?_, by simp [isCasadiAny, c, h3]⟩
        subst e
        rw [List.mapM_cons, h2]
        rfl
      · exact .inr ⟨by simpa [p] using h1, by simp [isCasadiAny, c, h2]⟩
    · exact .inr ⟨by simp [p], by simp [isCasadiAny, c]⟩

/-- **C102 (joining).** `concatenate` of arrays and `stack` of vectors, each a numpy array or a casadi matrix: numpy's result, as a numpy array if
all of them are and as a casadi matrix otherwise. -/
theorem C102_join {as : List Nd} {l : List Obj} (h : List.Forall₂ Means as l) (axis : Int) :
    Agrees (Np.concatenate as axis) (mixConcatenate l axis) (∀ o ∈ l, Plain o) ∧
    (as.all isVec = true → Agrees (Np.stack as axis) (mixStack l axis) (∀ o ∈ l, Plain o)) := by
  obtain ⟨xs, hxs, sxs⟩ := toMx_all h
  refine ⟨fun y hy => ?_, fun hv y hy => ?_⟩
  · rcases all_plain h with ⟨hp, hn, hc⟩ | ⟨hp, hc⟩
    · refine ⟨.np y, ?_, rfl, ⟨fun _ => hp, fun _ => trivial⟩⟩
      rw [mixConcatenate, if_pos (by simp [isCasadiType, isCasadi, hc]), hn]
      change npOut (Np.concatenate as axis) = _
      rw [hy]
      rfl
    · obtain ⟨w, hw, sw⟩ := C90_concatenate sxs axis y hy
      refine ⟨.cas w, ?_, sw, ⟨fun h => h.elim, fun h => (hp h).elim⟩⟩
      rw [mixConcatenate, if_neg (by simp [isCasadiType, isCasadi, hc]), hxs]
      change casOut (concatenate xs axis) = _
      rw [hw]
      rfl
  · rcases all_plain h with ⟨hp, hn, hc⟩ | ⟨hp, hc⟩
    · refine ⟨.np y, ?_, rfl, ⟨fun _ => hp, fun _ => trivial⟩⟩
      rw [mixStack, if_pos (by simp [isCasadiType, isCasadi, hc]), hn]
      change npOut (Np.stack as axis) = _
      rw [hy]
      rfl
    · obtain ⟨w, hw, sw⟩ := (C90_stack sxs hv axis).1 y hy
      have hst : l.all stackable = true := by
        clear hxs sxs hy hw hc hp
        induction h with
        | nil => rfl
        | @cons a o as l ha _ ih =>
          rw [List.all_cons, Bool.and_eq_true] at hv ⊢
          refine ⟨?_, ih hv.2⟩
          cases o with
          | np b => cases ha; exact hv.1
          | cas x =>
            cases a with
            | vec n f => exact decide_eq_true ha.2.1
            | num _ => simp [isVec] at hv
            | mat _ _ _ => simp [isVec] at hv
          | seq _ => exact ha.elim
          | thing => exact ha.elim
      refine ⟨.cas w, ?_, sw, ⟨fun h => h.elim, fun h => (hp h).elim⟩⟩
      rw [mixStack, if_neg (by simp [isCasadiType, isCasadi, hc]), if_pos hst, hxs]
      change casOut (stack xs axis) = _
      rw [hw]
      rfl

/-- **C102 (what cannot be joined).** With a casadi matrix among them, `stack` refuses anything that is neither a numpy vector nor a casadi column,
and `dstack` refuses everything. -/
theorem C102_refuses (l : List Obj) (h : Contains (.seq l)) (axis : Int) :
    (∀ o ∈ l, stackable o = false → mixStack l axis = .error .valueError) ∧ dstack l = some (.error .valueError) := by
  have hc := (C102_detects (.seq l)).1.2 h
  refine ⟨fun o ho hs => ?_, ?_⟩
  · rw [mixStack, if_neg (by simp [hc]), if_neg]
    intro hall
    have := List.all_eq_true.1 hall o ho
    rw [hs] at this
    exact absurd this (by simp)
  · rw [dstack, if_neg (by simp [hc])]

/-- **C102 (length).** `length` of a vector is its number of entries, of a number 1, and of a matrix with several rows the number of rows, for
numpy arrays and for the casadi matrices that show them. (Finding: for a matrix with one row it is 1 under numpy and the number of columns under
casadi.) -/
theorem C102_length (a : Nd) (o : Obj) (h : Means a o) :
    (∀ n f, a = .vec n f → mixLength o = .ok n) ∧ (∀ v, a = .num v → mixLength o = .ok 1) ∧
    (∀ r c f, a = .mat r c f → (r ≠ 1 → mixLength o = .ok r) ∧
      (r = 1 → (Plain o → mixLength o = .ok 1) ∧ (¬ Plain o → mixLength o = .ok c))) := by
  cases o with
  | np b =>
    cases h
    refine ⟨fun n f e => by subst e; rfl, fun v e => by subst e; rfl, fun r c f e => ?_⟩
    subst e
    exact ⟨fun _ => rfl, fun h1 => ⟨fun _ => by subst h1; rfl, fun hp => (hp trivial).elim⟩⟩
  | cas x =>
    have hx : mixLength (.cas x) = .ok (length x) := rfl
    rw [hx]
    refine ⟨fun n f e => ?_, fun v e => ?_, fun r c f e => ?_⟩ <;> subst e <;> obtain ⟨h1, h2, -⟩ := h
    · by_cases hn : n = 1 <;> simp [length, h1, h2, hn]
    · simp [length, h1, h2]
    · refine ⟨fun hr => by simp [length, h1, hr], fun hr => ⟨fun hp => hp.elim, fun _ => by simp [length, h1, h2, hr]⟩⟩
  | seq l => exact h.elim
  | thing => exact h.elim

/-- **C102 (finding: length of a list).** `length` of a list is the number of its elements, unless a casadi matrix occurs in it, at any depth:
then it raises AttributeError (the list counts as casadi's, and its `shape` is read). Anything else that has no length counts as one. -/
theorem C102_length_list (l : List Obj) :
    (¬ Contains (.seq l) → mixLength (.seq l) = .ok l.length) ∧ (Contains (.seq l) → mixLength (.seq l) = .error .attributeError) ∧
    mixLength .thing = .ok 1 := by
  have hc := (C102_detects (.seq l)).1
  refine ⟨fun h => ?_, fun h => ?_, rfl⟩
  · have : isCasadiType (.seq l) = false := by
      cases e : isCasadiType (.seq l)
      · rfl
      · exact absurd (hc.1 e) h
    simp [mixLength, this]
  · simp [mixLength, hc.2 h]

/-- Two numbers and a casadi matrix two lists deep. -/
example : Contains (.seq [.thing, .seq [.np (.num 1), .cas ⟨2, 1, fun _ _ => 5⟩]]) ∧ ¬ Contains (.seq [.thing, .np (.num 1)]) := by
  have h := fun o => (C102_detects o).1
  exact ⟨(h _).1 rfl, fun hc => by cases (h _).2 hc⟩

/-- **C102 (finding: constants).** `zeros`, `ones`, `eye` and `zeros_like` have the entries of numpy's, but are casadi matrices always, never
numpy arrays: everything computed from them is casadi's too. -/
theorem C102_constants (n r c : Nat) (x : Mx) :
    Means (.vec n fun _ => 0) (zeros (.one n)) ∧ Means (.mat r c fun _ _ => 0) (zeros (.two r c)) ∧
    Means (.vec n fun _ => 1) (ones (.one n)) ∧ Means (.mat r c fun _ _ => 1) (ones (.two r c)) ∧
    Means (.mat n n fun i j => if i = j then 1 else 0) (eye n) ∧ Means (.mat x.rows x.cols fun _ _ => 0) (zerosLike x) ∧
    ∀ o, o = zeros (.one n) ∨ o = zeros (.two r c) ∨ o = ones (.one n) ∨ o = ones (.two r c) ∨ o = eye n ∨ o = zerosLike x →
      ¬ Plain o ∧ Contains o := by
  refine ⟨⟨rfl, rfl, fun _ _ => rfl⟩, ⟨rfl, rfl, fun _ _ _ _ => rfl⟩, ⟨rfl, rfl, fun _ _ => rfl⟩, ⟨rfl, rfl, fun _ _ _ _ => rfl⟩,
    ⟨rfl, rfl, fun _ _ _ _ => rfl⟩, ⟨rfl, rfl, fun _ _ _ _ => rfl⟩, ?_⟩
  rintro o (rfl | rfl | rfl | rfl | rfl | rfl) <;> exact ⟨id, .here _⟩

/-- A numpy vector and a casadi column: `logical_and` gives a casadi column, and `stack` of them a casadi matrix. -/
example : let x : Obj := .np (.vec 2 fun i => (i : ℝ))
    let y : Obj := .cas ⟨2, 1, fun _ _ => 5⟩
    (∃ o, logicalAnd x y = .ok o ∧ Means (.vec 2 fun i => if i = 0 then 0 else 1) o ∧ ¬ Plain o) ∧
    ∃ o, mixStack [x, y] 0 = .ok o ∧ ¬ Plain o := by
  intro x y
  have hx : Means (.vec 2 fun i => (i : ℝ)) x := rfl
  have hy : Means (.vec 2 fun _ => 5) y := ⟨rfl, rfl, fun _ _ => rfl⟩
  constructor
  · obtain ⟨o, h1, h2, h3⟩ := (C102_two hx hy).1 _ (by simp only [npAnd, Np.zip, if_true]; rfl)
    refine ⟨o, h1, ?_, fun h => (h3.1 h).2⟩
    convert h2 using 3 with i
    by_cases hi : i = 0 <;> simp [hi]
  · obtain ⟨o, h1, h2, h3⟩ := (C102_join (.cons hx (.cons hy .nil)) 0).2 rfl _ (by
      simp only [Np.stack, List.all_cons, isVec, List.all_nil, Bool.and_true, if_true, true_or, List.map, asRow, Np.concatenate, concat0, Except.bind, Np.join]; rfl)
    exact ⟨o, h1, fun h => (h3.1 h) y (by simp)⟩

end Lumos.Cas
