import Mathlib.Algebra.Order.Group.Nat
import Mathlib.Tactic.Ring
import Mathlib.Data.List.Basic
/-!
# NumPy array operations on lists

1-d arrays are `List α`, 2-d arrays are lists of rows. Models of NumPy itself (trusted base), used by
the lumos models. Lemmas about them follow each definition.
-/

namespace Lumos.Np

/-- `np.cumsum` on a list of sizes. -/
def cumsum : List Nat → List Nat
  | [] => []
  | a :: as => a :: (cumsum as).map (a + ·)

/-- `np.split(x, indices)` along axis 0 for a nondecreasing list of indices:
`[x[0:i1], x[i1:i2], ..., x[ik:]]`; `prev` is the running left end (0 at the call). -/
def splitFrom {α : Type u} (x : List α) (prev : Nat) : List Nat → List (List α)
  | [] => [x.drop prev]
  | i :: is => (x.take i).drop prev :: splitFrom x i is

/-- `np.split(x, indices)`. -/
def split {α : Type u} (x : List α) (idx : List Nat) : List (List α) := splitFrom x 0 idx

/-- `x.reshape((n, w))` of a 1-d array: row `i` is `x[i*w : (i+1)*w]`. -/
def reshapeRows {α : Type u} (n w : Nat) (x : List α) : List (List α) :=
  (List.range n).map fun i => (x.drop (i * w)).take w

/-- Rectangular `n × w` list of rows. -/
def Rect {α : Type u} (n w : Nat) (m : List (List α)) : Prop :=
  m.length = n ∧ ∀ r ∈ m, r.length = w

@[simp] theorem length_cumsum (l : List Nat) : (cumsum l).length = l.length := by
  induction l with
  | nil => rfl
  | cons a as ih => simp [cumsum, ih]

theorem getElem?_cumsum (l : List Nat) (k : Nat) (h : k < l.length) :
    (cumsum l)[k]? = some (l.take (k + 1)).sum := by
  induction l generalizing k with
  | nil => simp at h
  | cons a as ih =>
    cases k with
    | zero => simp [cumsum]
    | succ k =>
      simp only [List.length_cons] at h
      simp [cumsum, ih k (by omega)]

@[simp] theorem length_reshapeRows {α : Type u} (n w : Nat) (x : List α) :
    (reshapeRows n w x).length = n := by simp [reshapeRows]

theorem getElem?_reshapeRows {α : Type u} (n w : Nat) (x : List α) (i : Nat) (h : i < n) :
    (reshapeRows n w x)[i]? = some ((x.drop (i * w)).take w) := by
  simp [reshapeRows, h]

theorem rect_reshapeRows {α : Type u} (n w : Nat) (x : List α) (h : n * w ≤ x.length) :
    Rect n w (reshapeRows n w x) := by
  refine ⟨by simp, ?_⟩
  intro r hr
  simp only [reshapeRows, List.mem_map, List.mem_range] at hr
  obtain ⟨i, hi, rfl⟩ := hr
  have : (i + 1) * w ≤ n * w := Nat.mul_le_mul_right _ hi
  have e : (i + 1) * w = i * w + w := by ring
  simp only [List.length_take, List.length_drop]
  omega

theorem reshapeRows_succ {α : Type u} (n w : Nat) (x : List α) :
    reshapeRows (n + 1) w x = x.take w :: reshapeRows n w (x.drop w) := by
  simp only [reshapeRows, List.range_succ_eq_map, List.map_cons, Nat.zero_mul, List.drop_zero,
    List.map_map, List.cons.injEq, true_and]
  apply List.map_congr_left
  intro i _
  simp only [Function.comp, List.drop_drop]
  congr 2
  rw [Nat.succ_eq_add_one]; ring

theorem flatten_reshapeRows {α : Type u} (n w : Nat) (x : List α) :
    (reshapeRows n w x).flatten = x.take (n * w) := by
  induction n generalizing x with
  | zero => simp [reshapeRows]
  | succ n ih =>
    rw [reshapeRows_succ, List.flatten_cons, ih, Nat.succ_mul, Nat.add_comm, List.take_add]

theorem flatten_rect_length {α : Type u} {n w : Nat} {m : List (List α)} (h : Rect n w m) :
    m.flatten.length = n * w := by
  obtain ⟨hl, hr⟩ := h
  induction m generalizing n with
  | nil => simp at hl; simp [← hl]
  | cons r rs ih =>
    cases n with
    | zero => simp at hl
    | succ n =>
      simp only [List.length_cons, Nat.add_right_cancel_iff] at hl
      simp only [List.flatten_cons, List.length_append, hr r (by simp)]
      rw [ih hl (fun r hr' => hr r (by simp [hr'])), Nat.succ_mul, Nat.add_comm]

/-- The row-major position law: entry `(i, j)` of a rectangular array sits at `i*w + j` of its ravel. -/
theorem getElem?_flatten_rect {α : Type u} {n w : Nat} {m : List (List α)} (h : Rect n w m)
    (i j : Nat) (hj : j < w) :
    m.flatten[i * w + j]? = (m[i]?).bind (·[j]?) := by
  obtain ⟨hl, hr⟩ := h
  induction m generalizing n i with
  | nil => simp
  | cons r rs ih =>
    have hrw : r.length = w := hr r (by simp)
    cases i with
    | zero =>
      simp [List.getElem?_append_left (by omega : j < r.length)]
    | succ i =>
      have e : (i + 1) * w + j = r.length + (i * w + j) := by rw [hrw]; ring
      rw [List.flatten_cons, e, List.getElem?_append_right (by omega)]
      simp only [Nat.add_sub_cancel_left]
      rw [ih i rfl (fun r hr' => hr r (by simp [hr']))]
      simp

theorem reshapeRows_flatten {α : Type u} {n w : Nat} {m : List (List α)} (h : Rect n w m) :
    reshapeRows n w m.flatten = m := by
  obtain ⟨hl, hr⟩ := h
  induction m generalizing n with
  | nil => simp at hl; simp [← hl, reshapeRows]
  | cons r rs ih =>
    cases n with
    | zero => simp at hl
    | succ n =>
      simp only [List.length_cons, Nat.add_right_cancel_iff] at hl
      have hrw : r.length = w := hr r (by simp)
      rw [reshapeRows_succ, List.flatten_cons, List.take_left' hrw, List.drop_left' hrw,
        ih hl (fun r hr' => hr r (by simp [hr']))]

/-- Splitting a concatenation at the running sizes gives back the pieces. -/
theorem splitFrom_concat {α : Type u} (pre : List α) (parts : List (List α)) (hne : parts ≠ []) :
    splitFrom (pre ++ parts.flatten) pre.length
      ((cumsum (parts.map List.length).dropLast).map (pre.length + ·)) = parts := by
  induction parts generalizing pre with
  | nil => exact absurd rfl hne
  | cons p ps ih =>
    cases ps with
    | nil => simp [cumsum, splitFrom]
    | cons q qs =>
      simp only [List.map_cons, List.dropLast_cons_cons, cumsum, List.map_map, splitFrom,
        List.cons.injEq]
      constructor
      · simp [List.take_append]
      · have := ih (pre ++ p) (by simp)
        simp only [List.length_append, List.append_assoc] at this
        rw [← List.flatten_cons] at this
        refine Eq.trans ?_ this
        simp only [List.map_cons]
        congr 1
        apply List.map_congr_left
        intro a _
        simp [Function.comp, Nat.add_assoc]

theorem split_flatten {α : Type u} (parts : List (List α)) (hne : parts ≠ []) :
    split parts.flatten (cumsum (parts.map List.length).dropLast) = parts := by
  have := splitFrom_concat [] parts hne
  simpa [split] using this

@[simp] theorem length_splitFrom {α : Type u} (x : List α) (p : Nat) (idx : List Nat) :
    (splitFrom x p idx).length = idx.length + 1 := by
  induction idx generalizing p with
  | nil => rfl
  | cons i is ih => simp [splitFrom, ih]

@[simp] theorem length_split {α : Type u} (x : List α) (idx : List Nat) :
    (split x idx).length = idx.length + 1 := by simp [split]

/-- Cutting at increasing positions and joining again is the identity. -/
theorem flatten_splitFrom {α : Type u} (x : List α) (p : Nat) (idx : List Nat)
    (h : (p :: idx).Pairwise (· ≤ ·)) : (splitFrom x p idx).flatten = x.drop p := by
  induction idx generalizing p with
  | nil => simp [splitFrom]
  | cons i is ih =>
    rw [List.pairwise_cons] at h
    have hpi : p ≤ i := h.1 i (by simp)
    simp only [splitFrom, List.flatten_cons, ih i h.2]
    rw [← List.take_append_drop i x]
    simp only [List.take_append_drop]
    have : x.drop p = (x.take i ++ x.drop i).drop p := by rw [List.take_append_drop]
    rw [this, List.drop_append]
    by_cases hi : i ≤ x.length
    · have : p - (x.take i).length = 0 := by simp; omega
      rw [this, List.drop_zero]
    · have : x.drop i = [] := List.drop_eq_nil_of_le (by omega)
      simp [this]

theorem pairwise_cumsum (l : List Nat) : (0 :: cumsum l).Pairwise (· ≤ ·) := by
  have key : ∀ (l : List Nat) (b : Nat), (b :: (cumsum l).map (b + ·)).Pairwise (· ≤ ·) := by
    intro l
    induction l with
    | nil => intro b; simp [cumsum]
    | cons a as ih =>
      intro b
      simp only [cumsum, List.map_cons, List.map_map]
      have h2 := ih (b + a)
      have e : List.map ((fun x => b + x) ∘ fun x => a + x) (cumsum as)
          = List.map (fun x => b + a + x) (cumsum as) := by
        apply List.map_congr_left; intro x _; simp [Nat.add_assoc]
      rw [e]
      rw [List.pairwise_cons] at h2 ⊢
      refine ⟨?_, List.pairwise_cons.mpr h2⟩
      intro c hc
      simp only [List.mem_cons, List.mem_map] at hc
      rcases hc with rfl | ⟨x, _, rfl⟩ <;> omega
  have := key l 0
  simpa using this

theorem flatten_split {α : Type u} (x : List α) (sizes : List Nat) :
    (split x (cumsum sizes)).flatten = x := by
  rw [split, flatten_splitFrom x 0 _ (pairwise_cumsum sizes), List.drop_zero]

end Lumos.Np
