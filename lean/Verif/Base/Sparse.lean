import Mathlib.Data.Real.Basic
import Mathlib.Algebra.BigOperators.Group.List.Basic
import Mathlib.Algebra.BigOperators.Ring.List
import Mathlib.Data.List.Zip
/-!
# The meaning of sparse triplets

`scipy.sparse.csc_matrix((vals, (rows, cols)))` and IPOPT both read a triplet list as the matrix whose
entry `(i, j)` is the sum of all values listed at `(i, j)`. This is the specification against which
Jacobian and Hessian values are judged; it does not mention lumos.
-/

namespace Lumos

/-- Entry `(i, j)` of the matrix given by triplets. -/
def assemble (rows cols : List Nat) (vals : List ℝ) (i j : Nat) : ℝ :=
  ((rows.zip (cols.zip vals)).map fun t => if t.1 = i ∧ t.2.1 = j then t.2.2 else 0).sum

theorem assemble_nil (cols : List Nat) (vals : List ℝ) (i j : Nat) : assemble [] cols vals i j = 0 := by
  simp [assemble]

theorem assemble_cons (r c : Nat) (v : ℝ) (rows cols : List Nat) (vals : List ℝ) (i j : Nat) :
    assemble (r :: rows) (c :: cols) (v :: vals) i j
      = (if r = i ∧ c = j then v else 0) + assemble rows cols vals i j := by
  simp [assemble]

theorem assemble_append (r1 r2 c1 c2 : List Nat) (v1 v2 : List ℝ) (h1 : r1.length = c1.length)
    (h2 : r1.length = v1.length) (i j : Nat) :
    assemble (r1 ++ r2) (c1 ++ c2) (v1 ++ v2) i j = assemble r1 c1 v1 i j + assemble r2 c2 v2 i j := by
  have e1 : (c1 ++ c2).zip (v1 ++ v2) = c1.zip v1 ++ c2.zip v2 := List.zip_append (by omega)
  have e2 : (r1 ++ r2).zip (c1.zip v1 ++ c2.zip v2) = r1.zip (c1.zip v1) ++ r2.zip (c2.zip v2) :=
    List.zip_append (by simp; omega)
  simp [assemble, e1, e2]

/-- Shifting all rows shifts the assembled matrix. -/
theorem assemble_shift_rows (rows cols : List Nat) (vals : List ℝ) (o i j : Nat) :
    assemble (rows.map (· + o)) cols vals i j = if o ≤ i then assemble rows cols vals (i - o) j else 0 := by
  have hz : ∀ (rows : List Nat) (l : List (Nat × ℝ)), (rows.map (· + o)).zip l
      = (rows.zip l).map (fun t => (t.1 + o, t.2)) := by
    intro rows
    induction rows with
    | nil => simp
    | cons r rs ih => intro l; cases l with
      | nil => simp
      | cons a as => simp [ih as]
  simp only [assemble, hz, List.map_map, Function.comp_def]
  split
  · congr 1
    apply List.map_congr_left
    intro t _
    have : t.1 + o = i ↔ t.1 = i - o := by omega
    simp [this]
  · rename_i h
    apply List.sum_eq_zero
    intro v hv
    obtain ⟨t, _, rfl⟩ := List.mem_map.mp hv
    rw [if_neg]
    rintro ⟨h1, _⟩; omega

/-- Swapping rows and columns transposes the assembled matrix. -/
theorem assemble_transpose (rows cols : List Nat) (vals : List ℝ) (i j : Nat) :
    assemble rows cols vals i j = assemble cols rows vals j i := by
  induction rows generalizing cols vals with
  | nil => cases cols <;> simp [assemble]
  | cons r rs ih =>
    cases cols with
    | nil => simp [assemble]
    | cons c cs =>
      cases vals with
      | nil => simp [assemble]
      | cons v vs =>
        simp only [assemble_cons, ih]
        congr 1
        simp only [and_comm]

/-- Shifting all columns shifts the assembled matrix. -/
theorem assemble_shift_cols (rows cols : List Nat) (vals : List ℝ) (o i j : Nat) :
    assemble rows (cols.map (· + o)) vals i j = if o ≤ j then assemble rows cols vals i (j - o) else 0 := by
  rw [assemble_transpose, assemble_shift_rows]
  split
  · rw [assemble_transpose]
  · rfl

/-- Assembling blocks listed one after the other adds them up. -/
theorem assemble_flatMap {ι : Type} (l : List ι) (r c : ι → List Nat) (v : ι → List ℝ)
    (h1 : ∀ a ∈ l, (r a).length = (c a).length) (h2 : ∀ a ∈ l, (r a).length = (v a).length) (i j : Nat) :
    assemble (l.flatMap r) (l.flatMap c) (l.flatMap v) i j = (l.map fun a => assemble (r a) (c a) (v a) i j).sum := by
  induction l with
  | nil => simp [assemble]
  | cons a l ih =>
    simp only [List.flatMap_cons, List.map_cons, List.sum_cons]
    rw [assemble_append _ _ _ _ _ _ (h1 a (by simp)) (h2 a (by simp)),
      ih (fun b hb => h1 b (by simp [hb])) (fun b hb => h2 b (by simp [hb]))]

/-- Nothing is assembled at a row that is not listed. -/
theorem assemble_row_out (rows cols : List Nat) (vals : List ℝ) (i j : Nat) (h : i ∉ rows) :
    assemble rows cols vals i j = 0 := by
  apply List.sum_eq_zero
  intro v hv
  obtain ⟨t, ht, rfl⟩ := List.mem_map.mp hv
  rw [if_neg]
  rintro ⟨rfl, _⟩
  exact h (List.of_mem_zip ht).1

theorem assemble_col_out (rows cols : List Nat) (vals : List ℝ) (i j : Nat) (h : j ∉ cols) :
    assemble rows cols vals i j = 0 := by
  apply List.sum_eq_zero
  intro v hv
  obtain ⟨t, ht, rfl⟩ := List.mem_map.mp hv
  rw [if_neg]
  rintro ⟨_, rfl⟩
  exact h (List.of_mem_zip (List.of_mem_zip ht).2).1

/-- Scaling each listed value by a factor depending only on its position scales the assembled entries. -/
theorem assemble_scale (rows cols : List Nat) (vals : List ℝ) (f : Nat → Nat → ℝ) (i j : Nat) :
    assemble rows cols (List.zipWith (fun v s => v * s) vals (List.zipWith f rows cols)) i j
      = assemble rows cols vals i j * f i j := by
  induction rows generalizing cols vals with
  | nil => simp [assemble]
  | cons r rs ih =>
    cases cols with
    | nil => simp [assemble]
    | cons c cs =>
      cases vals with
      | nil => simp [assemble]
      | cons v vs =>
        simp only [List.zipWith_cons_cons, assemble_cons, ih, add_mul]
        congr 1
        split
        · rename_i h; rw [h.1, h.2]
        · simp

theorem assemble_map_mul (rows cols : List Nat) (vals : List ℝ) (a : ℝ) (i j : Nat) :
    assemble rows cols (vals.map (· * a)) i j = assemble rows cols vals i j * a := by
  induction rows generalizing cols vals with
  | nil => simp [assemble]
  | cons r rs ih =>
    cases cols with
    | nil => simp [assemble]
    | cons c cs =>
      cases vals with
      | nil => simp [assemble]
      | cons v vs =>
        simp only [List.map_cons, assemble_cons, ih, add_mul]
        congr 1
        split <;> simp

/-- Values extracted from a dense matrix `D` at a structure without repeated positions assemble to `D` on the
structure and to 0 elsewhere. -/
theorem assemble_extract (D : Nat → Nat → ℝ) (rows cols : List Nat) (hlen : rows.length = cols.length)
    (hnd : (rows.zip cols).Nodup) (i j : Nat) :
    assemble rows cols (List.zipWith D rows cols) i j = if (i, j) ∈ rows.zip cols then D i j else 0 := by
  induction rows generalizing cols with
  | nil => simp [assemble]
  | cons r rs ih =>
    cases cols with
    | nil => simp at hlen
    | cons c cs =>
      simp only [List.length_cons, Nat.add_right_cancel_iff] at hlen
      rw [List.zip_cons_cons, List.nodup_cons] at hnd
      rw [List.zipWith_cons_cons, assemble_cons, ih cs hlen hnd.2, List.zip_cons_cons]
      by_cases h : r = i ∧ c = j
      · obtain ⟨rfl, rfl⟩ := h
        rw [if_neg hnd.1]
        simp
      · rw [if_neg h, zero_add]
        have : ((i, j) ∈ (r, c) :: rs.zip cs) ↔ (i, j) ∈ rs.zip cs := by
          simp only [List.mem_cons, Prod.mk.injEq]
          constructor
          · rintro (⟨rfl, rfl⟩ | h2)
            · exact absurd ⟨rfl, rfl⟩ h
            · exact h2
          · exact Or.inr
        simp only [this]

/-- Keep the entries where the mask is true (NumPy boolean indexing `x[mask]`). -/
def keep {α : Type} (mask : List Bool) (x : List α) : List α :=
  (mask.zip x).filterMap fun p => if p.1 then some p.2 else none

theorem keep_cons {α : Type} (b : Bool) (m : List Bool) (a : α) (x : List α) :
    keep (b :: m) (a :: x) = if b then a :: keep m x else keep m x := by
  cases b <;> simp [keep]

/-- Masking all three lists by a predicate on the position zeroes the entries where it fails. -/
theorem assemble_keep (p : Nat → Nat → Bool) (rows cols : List Nat) (vals : List ℝ)
    (hc : rows.length = cols.length) (hv : rows.length = vals.length) (i j : Nat) :
    assemble (keep (List.zipWith p rows cols) rows) (keep (List.zipWith p rows cols) cols)
        (keep (List.zipWith p rows cols) vals) i j
      = if p i j then assemble rows cols vals i j else 0 := by
  induction rows generalizing cols vals with
  | nil => simp [assemble, keep]
  | cons r rs ih =>
    cases cols with
    | nil => simp at hc
    | cons c cs =>
      cases vals with
      | nil => simp at hv
      | cons v vs =>
        simp only [List.length_cons, Nat.add_right_cancel_iff] at hc hv
        have ih := ih cs vs hc hv
        simp only [List.zipWith_cons_cons, keep_cons]
        by_cases hp : p r c = true
        · simp only [hp, if_true, assemble_cons, ih]
          by_cases he : r = i ∧ c = j
          · rw [if_pos he]
            rw [he.1, he.2] at hp
            simp [hp]
          · rw [if_neg he]; simp
        · have hp' : p r c = false := by simpa using hp
          simp only [hp', Bool.false_eq_true, if_false, assemble_cons, ih]
          by_cases he : r = i ∧ c = j
          · rw [he.1, he.2] at hp'
            simp [hp']
          · rw [if_neg he]; simp

end Lumos
