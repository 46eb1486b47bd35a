import Verif.Gen.Model
import Verif.Params.Props
import Mathlib.Tactic.Ring
import Mathlib.Tactic.Linarith
/-!
# C96: the parameters a generated function computes with
-/

namespace Lumos.Trees.Gen

open Lumos Lumos.Trees

/-! ### Specification: when a casadi matrix is a numpy array -/

/-- The casadi matrix shows the number or array: a number is 1×1, a vector is a column, a matrix has the same rows and columns. Entry `(i, j)` of
an `r`×`c` array is element `i c + j` of the numpy data (row by row) and element `i + j r` of the casadi data (column by column). -/
def Shows (a : NArr ℝ) (m : CMat) : Prop :=
  m.data.length = m.rows * m.cols ∧
  match a.shape with
  | [] => m.rows = 1 ∧ m.cols = 1 ∧ m.data[0]? = a.data[0]?
  | [n] => m.rows = n ∧ m.cols = 1 ∧ ∀ i < n, m.data[i]? = a.data[i]?
  | [r, c] => m.rows = r ∧ m.cols = c ∧ ∀ i < r, ∀ j < c, m.data[i + j * r]? = a.data[i * c + j]?
  | _ => False

/-- A number, vector or matrix with at least one entry. -/
def Usable (a : NArr ℝ) : Prop := a.Valid ∧ a.data ≠ [] ∧ a.shape.length ≤ 2

/-- What becomes of an array: the entries of a matrix, taken row by row, are filled in column by column. -/
def refill (a : NArr ℝ) : NArr ℝ :=
  match a.shape with
  | [r, c] => ⟨[r, c], (List.range (r * c)).map fun k => a.data.getD (k / c + k % c * r) 0⟩
  | _ => a

/-- What one has to give for a matrix to get it: the matrix with the entries of `a.T.ravel()`. -/
def prefill (a : NArr ℝ) : NArr ℝ :=
  match a.shape with
  | [r, c] => ⟨[r, c], (List.range (r * c)).map fun k => a.data.getD (k % r * c + k / r) 0⟩
  | _ => a

/-! ### One value -/

/-- The casadi matrix made of a value. -/
def toCas (a : NArr ℝ) : CMat :=
  match a.shape with
  | [r, c] => ⟨r, c, a.data⟩
  | [n] => ⟨n, 1, a.data⟩
  | _ => ⟨1, 1, a.data⟩

theorem casRebuild_ok {a : NArr ℝ} (h : Usable a) : casRebuild a.data (newShape a.shape) = .ok (toCas a) := by
  obtain ⟨s, d⟩ := a
  obtain ⟨hv, hd, hs⟩ := h
  simp only [NArr.Valid] at hv
  simp only at hd hs
  by_cases h1 : 1 < d.length
  · unfold casRebuild
    simp only [if_pos h1]
    match s, hs, hv with
    | [], _, hv => simp at hv; omega
    | [n], _, hv =>
      simp at hv
      simp [newShape, toCas, hv]
    | [r, c], _, hv =>
      simp at hv
      simp [newShape, toCas, hv]
  · obtain ⟨x, rfl⟩ : ∃ x, d = [x] := by
      cases d with
      | nil => exact absurd rfl hd
      | cons x l =>
        cases l with
        | nil => exact ⟨x, rfl⟩
        | cons y l => simp at h1
    · match s, hs, hv with
      | [], _, _ => rfl
      | [n], _, hv =>
        have : n = 1 := by simpa using hv.symm
        subst this
        rfl
      | [r, c], _, hv =>
        have : r * c = 1 := by simpa using hv.symm
        obtain rfl : r = 1 := Nat.dvd_one.mp ⟨c, this.symm⟩
        obtain rfl : c = 1 := by omega
        rfl

theorem fill_lt {r c i j : Nat} (hi : i < r) (hj : j < c) : i + j * r < r * c := by
  calc i + j * r < r + j * r := by omega
    _ = (j + 1) * r := by ring
    _ ≤ c * r := Nat.mul_le_mul_right _ hj
    _ = r * c := Nat.mul_comm _ _

theorem row_lt {r c i j : Nat} (hi : i < r) (hj : j < c) : i * c + j < r * c := by
  calc i * c + j < i * c + c := by omega
    _ = (i + 1) * c := by ring
    _ ≤ r * c := Nat.mul_le_mul_right _ hi

theorem row_div {c i j : Nat} (hj : j < c) : (i * c + j) / c = i ∧ (i * c + j) % c = j := by
  have hc : 0 < c := by omega
  constructor
  · rw [Nat.add_comm, Nat.add_mul_div_right _ _ hc, Nat.div_eq_of_lt hj, Nat.zero_add]
  · rw [Nat.add_comm, Nat.add_mul_mod_self_right, Nat.mod_eq_of_lt hj]

/-- The entries of a refilled matrix. -/
theorem refill_entry {r c : Nat} {d : List ℝ} (hd : d.length = r * c) {i j : Nat} (hi : i < r) (hj : j < c) :
    (refill ⟨[r, c], d⟩).data[i * c + j]? = d[i + j * r]? := by
  have h1 := row_lt hi hj
  have h2 := fill_lt hi hj
  obtain ⟨e1, e2⟩ := row_div (i := i) hj
  simp only [refill]
  rw [List.getElem?_map, List.getElem?_range h1, Option.map_some, e1, e2, List.getD_eq_getElem?_getD, List.getElem?_eq_getElem (by omega)]
  rfl

theorem shows_toCas {a : NArr ℝ} (h : Usable a) : Shows (refill a) (toCas a) := by
  obtain ⟨s, d⟩ := a
  obtain ⟨hv, hd, hs⟩ := h
  simp only [NArr.Valid] at hv
  match s, hs, hv with
  | [], _, hv => exact ⟨by simpa [toCas] using hv, rfl, rfl, rfl⟩
  | [n], _, hv => exact ⟨by simpa [toCas] using hv, rfl, rfl, fun i _ => rfl⟩
  | [r, c], _, hv =>
    have hl : d.length = r * c := by simpa using hv
    exact ⟨by simpa [toCas] using hl, rfl, rfl, fun i hi j hj => (refill_entry hl hi hj).symm⟩

/-- Only one matrix shows an array. -/
theorem shows_unique {a : NArr ℝ} {m m' : CMat} (h : Shows a m) (h' : Shows a m') : m = m' := by
  obtain ⟨s, d⟩ := a
  obtain ⟨r', c', x'⟩ := m'
  obtain ⟨r, c, x⟩ := m
  obtain ⟨hl, h⟩ := h
  obtain ⟨hl', h'⟩ := h'
  simp only at hl hl'
  match s, h, h' with
  | [], ⟨h1, h2, h3⟩, ⟨h1', h2', h3'⟩ =>
    simp only at h1 h2 h3 h1' h2' h3'
    rw [h1', h2'] at hl' ⊢
    rw [h1, h2] at hl ⊢
    have e : x = x' := List.ext_getElem? fun i => by
      by_cases hi : i = 0
      · rw [hi, h3, h3']
      · rw [List.getElem?_eq_none (by omega), List.getElem?_eq_none (by omega)]
    rw [e]
  | [n], ⟨h1, h2, h3⟩, ⟨h1', h2', h3'⟩ =>
    simp only at h1 h2 h3 h1' h2' h3'
    rw [h1', h2'] at hl' ⊢
    rw [h1, h2] at hl ⊢
    have e : x = x' := List.ext_getElem? fun i => by
      by_cases hi : i < n
      · rw [h3 i hi, h3' i hi]
      · rw [List.getElem?_eq_none (by omega), List.getElem?_eq_none (by omega)]
    rw [e]
  | [n, k], ⟨h1, h2, h3⟩, ⟨h1', h2', h3'⟩ =>
    simp only at h1 h2 h3 h1' h2' h3'
    rw [h1', h2'] at hl' ⊢
    rw [h1, h2] at hl ⊢
    have e : x = x' := List.ext_getElem? fun i => by
      by_cases hi : i < n * k
      · have hr : 0 < n := Nat.pos_of_ne_zero fun h0 => by simp [h0] at hi
        have hj : i / n < k := Nat.div_lt_of_lt_mul hi
        have ei : i % n + i / n * n = i := by rw [Nat.mul_comm]; exact Nat.mod_add_div i n
        have := (h3 (i % n) (Nat.mod_lt _ hr) (i / n) hj).trans (h3' (i % n) (Nat.mod_lt _ hr) (i / n) hj).symm
        rwa [ei] at this
      · rw [List.getElem?_eq_none (by omega), List.getElem?_eq_none (by omega)]
    rw [e]

/-- Arrays of the same shape that are shown by the same matrix are equal. -/
theorem shows_inj {a b : NArr ℝ} {m : CMat} (ha : Usable a) (hb : Usable b) (h : Shows a m) (h' : Shows b m) (hs : a.shape = b.shape) : a = b := by
  obtain ⟨s, d⟩ := a
  obtain ⟨s', d'⟩ := b
  simp only at hs
  subst hs
  have hl : d.length = d'.length := by
    have h1 := ha.1
    have h2 := hb.1
    simp only [NArr.Valid] at h1 h2
    rw [h1, h2]
  have hv := ha.1
  simp only [NArr.Valid] at hv
  obtain ⟨_, h⟩ := h
  obtain ⟨_, h'⟩ := h'
  congr 1
  refine List.ext_getElem? fun i => ?_
  by_cases hi : i < d.length
  · match s, h, h', hv with
    | [], ⟨_, _, h3⟩, ⟨_, _, h3'⟩, hv =>
      have : i = 0 := by simp at hv; omega
      rw [this, ← h3, ← h3']
    | [n], ⟨_, _, h3⟩, ⟨_, _, h3'⟩, hv =>
      have : i < n := by simp at hv; omega
      rw [← h3 i this, ← h3' i this]
    | [r, c], ⟨_, _, h3⟩, ⟨_, _, h3'⟩, hv =>
      have hi' : i < r * c := by simp at hv; omega
      have hc : 0 < c := Nat.pos_of_ne_zero fun h0 => by simp [h0] at hi'
      have hr : i / c < r := Nat.div_lt_of_lt_mul (by rwa [Nat.mul_comm])
      have ei : i / c * c + i % c = i := by rw [Nat.mul_comm]; exact Nat.div_add_mod i c
      have := (h3 (i / c) hr (i % c) (Nat.mod_lt _ hc)).symm.trans (h3' (i / c) hr (i % c) (Nat.mod_lt _ hc))
      simp only [ei] at this
      exact this
  · rw [List.getElem?_eq_none (by omega), List.getElem?_eq_none (by omega)]

/-- The refilled array has the same shape and is usable. -/
theorem refill_usable {a : NArr ℝ} (h : Usable a) : Usable (refill a) ∧ (refill a).shape = a.shape := by
  obtain ⟨s, d⟩ := a
  obtain ⟨hv, hd, hs⟩ := h
  simp only [NArr.Valid] at hv
  match s, hs, hv with
  | [], hs, hv => exact ⟨⟨hv, hd, hs⟩, rfl⟩
  | [n], hs, hv => exact ⟨⟨hv, hd, hs⟩, rfl⟩
  | [r, c], hs, hv =>
    have hl : d.length = r * c := by simpa using hv
    refine ⟨⟨by simp [NArr.Valid, refill], ?_, by simp [refill]⟩, rfl⟩
    intro e
    have := congrArg List.length e
    simp only [refill, List.length_map, List.length_range, List.length_nil] at this
    exact hd (List.eq_nil_of_length_eq_zero (by rw [hl, this]))

/-- **C96 (which arrays arrive).** The matrix made of a value shows that value exactly if refilling it changes nothing. Numbers, vectors and
matrices with one row or one column always arrive. A matrix with at least two rows and columns arrives exactly if its entries are the same taken
row by row and column by column, so not if the second entry of its first row differs from the entry that is as many places on as it has rows. -/
theorem C96_arrives {a : NArr ℝ} (h : Usable a) :
    (Shows a (toCas a) ↔ refill a = a) ∧
    (a.shape.length ≤ 1 ∨ (∃ n, a.shape = [1, n]) ∨ (∃ n, a.shape = [n, 1]) → refill a = a) ∧
    (∀ r c, a.shape = [r, c] → (refill a = a ↔ ∀ i < r, ∀ j < c, a.data[i + j * r]? = a.data[i * c + j]?)) ∧
    (∀ r c, a.shape = [r, c] → 2 ≤ r → 2 ≤ c → a.data[r]? ≠ a.data[1]? → ¬ Shows a (toCas a)) := by
  have h0 : Shows a (toCas a) ↔ refill a = a := by
    constructor
    · exact fun hs => shows_inj (refill_usable h).1 h (shows_toCas h) hs (refill_usable h).2
    · intro e
      have := shows_toCas h
      rwa [e] at this
  have h3 : ∀ r c, a.shape = [r, c] → (refill a = a ↔ ∀ i < r, ∀ j < c, a.data[i + j * r]? = a.data[i * c + j]?) := by
    intro r c hs
    obtain ⟨s, d⟩ := a
    simp only at hs
    subst hs
    have hl : d.length = r * c := by simpa [NArr.Valid] using h.1
    constructor
    · intro e i hi j hj
      rw [← refill_entry hl hi hj, e]
    · intro e
      refine h0.mp ⟨by simpa [toCas] using hl, rfl, rfl, fun i hi j hj => e i hi j hj⟩
  refine ⟨h0, ?_, h3, ?_⟩
  · rintro (h1 | ⟨n, hs⟩ | ⟨n, hs⟩)
    · obtain ⟨s, d⟩ := a
      match s, h1 with
      | [], _ => rfl
      | [n], _ => rfl
    · refine (h3 _ _ hs).mpr fun i hi j hj => ?_
      obtain rfl : i = 0 := by omega
      simp
    · refine (h3 _ _ hs).mpr fun i hi j hj => ?_
      obtain rfl : j = 0 := by omega
      simp
  · intro r c hs hr hc hne hsh
    have := (h3 r c hs).mp (h0.mp hsh) 0 (by omega) 1 (by omega)
    simp only [Nat.zero_add, Nat.one_mul, Nat.zero_mul] at this
    exact hne this

/-- **C96 (the way round).** Every array can be made to arrive: giving the array whose entries are those of the transposed matrix in order makes
the generated function compute with the intended one. -/
theorem C96_way_round {a : NArr ℝ} (h : Usable a) : Usable (prefill a) ∧ (prefill a).shape = a.shape ∧ Shows a (toCas (prefill a)) := by
  obtain ⟨s, d⟩ := a
  obtain ⟨hv, hd, hs⟩ := h
  simp only [NArr.Valid] at hv
  match s, hs, hv with
  | [], hs, hv => exact ⟨⟨hv, hd, hs⟩, rfl, by simpa [prefill, toCas] using hv, rfl, rfl, rfl⟩
  | [n], hs, hv => exact ⟨⟨hv, hd, hs⟩, rfl, by simpa [prefill, toCas] using hv, rfl, rfl, fun _ _ => rfl⟩
  | [r, c], hs, hv =>
    have hl : d.length = r * c := by simpa using hv
    refine ⟨⟨by simp [NArr.Valid, prefill], ?_, by simp [prefill]⟩, rfl, by simp [prefill, toCas], rfl, rfl, ?_⟩
    · intro e
      have := congrArg List.length e
      simp only [prefill, List.length_map, List.length_range, List.length_nil] at this
      exact hd (List.eq_nil_of_length_eq_zero (by rw [hl, this]))
    · intro i hi j hj
      have h1 := row_lt hi hj
      have h2 := fill_lt hi hj
      have hr : 0 < r := by omega
      have e1 : (i + j * r) % r = i := by rw [Nat.add_mul_mod_self_right, Nat.mod_eq_of_lt hi]
      have e2 : (i + j * r) / r = j := by rw [Nat.add_mul_div_right _ _ hr, Nat.div_eq_of_lt hi, Nat.zero_add]
      simp only [prefill, toCas]
      rw [List.getElem?_map, List.getElem?_range h2, Option.map_some, e1, e2, List.getD_eq_getElem?_getD, List.getElem?_eq_getElem (by omega)]
      rfl

/-! ### A list of values -/

theorem cumsum_le (st : Nat) : ∀ l : List Nat, ∀ x ∈ cumsumFrom st l, st ≤ x ∧ x ≤ st + l.sum
  | [], x, h => by simp [cumsumFrom] at h
  | s :: ss, x, h => by
    rw [cumsumFrom, List.mem_cons] at h
    rw [List.sum_cons]
    rcases h with rfl | h
    · omega
    · have := cumsum_le (st + s) ss x h
      omega

theorem cumsum_chain (st : Nat) : ∀ l : List Nat, (st :: cumsumFrom st l).IsChain (· ≤ ·)
  | [] => by simp [cumsumFrom]
  | s :: ss => by
    rw [cumsumFrom]
    exact .cons_cons (by omega) (cumsum_chain (st + s) ss)

theorem offsets_chain (st n : Nat) : ∀ (s : Nat) (ss : List Nat), st + (s :: ss).sum ≤ n →
    (st :: (cumsumFrom st (s :: ss)).dropLast ++ [n]).IsChain (· ≤ ·)
  | s, [], h => by
    simp [cumsumFrom] at h ⊢
    omega
  | s, s' :: ss, h => by
    have e : (cumsumFrom st (s :: s' :: ss)).dropLast = (st + s) :: (cumsumFrom (st + s) (s' :: ss)).dropLast := by simp [cumsumFrom]
    rw [e]
    exact .cons_cons (by omega) (offsets_chain (st + s) n s' ss (by simp at h ⊢; omega))

theorem zip_tail (a : Nat) (l : List Nat) (n : Nat) : (a :: l ++ [n]).zip (a :: l ++ [n]).tail = (a :: l).zip (l ++ [n]) := by
  rw [List.cons_append, List.tail_cons]
  induction l generalizing a with
  | nil => rfl
  | cons b l ih =>
    rw [List.cons_append, List.zip_cons_cons, List.zip_cons_cons, ih b]

/-- Splitting a vector of the right length. -/
theorem casSplit_ok (arr : List ℝ) (s : Nat) (ss : List Nat) (h : arr.length = (s :: ss).sum) :
    casSplit arr (cumsumFrom 0 (s :: ss)).dropLast = .ok (pieces arr (s :: ss)) := by
  unfold casSplit
  simp only
  rw [if_pos (offsets_chain 0 _ s ss (by omega)), zip_tail, ← npSplit_eq]
  rfl

theorem casRebuildAll_ok {l : List (NArr ℝ)} (h : ∀ a ∈ l, Usable a) (hne : l ≠ []) :
    casRebuildAll ((pieces (l.map NArr.data).flatten (l.map fun a => a.data.length)).zip (l.map fun a => newShape a.shape)) =
      .ok (l.map toCas) := by
  induction l with
  | nil => exact absurd rfl hne
  | cons a l ih =>
    have hr := casRebuild_ok (h a (by simp))
    cases l with
    | nil => simp [pieces, casRebuildAll, hr, bind, Except.bind, pure, Except.pure]
    | cons b l =>
      have := ih (fun c hc => h c (List.mem_cons_of_mem _ hc)) (by simp)
      simp only [List.map_cons] at this ⊢
      rw [pieces_cons2, List.flatten_cons, List.take_left, List.drop_left, List.zip_cons_cons, casRebuildAll, hr, this]
      rfl

/-- Unraveling the vector of a dictionary with the same keys and shapes. -/
theorem casUnravel_ok {flat flat' : List (String × NArr ℝ)} (hk : flat.map Prod.fst = flat'.map Prod.fst)
    (hs : flat.map (fun kv => kv.2.shape) = flat'.map fun kv => kv.2.shape) (h : ∀ kv ∈ flat', Usable kv.2) (h0 : ∀ kv ∈ flat, Usable kv.2) :
    casUnravel flat (flat'.map fun kv => kv.2.data).flatten = .ok (flat'.map fun kv => (kv.1, toCas kv.2)) := by
  have hlen : flat.length = flat'.length := by simpa using congrArg List.length hk
  have hsz : flat.map (fun kv => kv.2.data.length) = flat'.map fun kv => kv.2.data.length := by
    have e1 : flat.map (fun kv => kv.2.data.length) = (flat.map fun kv => kv.2.shape).map List.prod := by
      rw [List.map_map]
      exact List.map_congr_left fun kv hkv => (h0 kv hkv).1
    have e2 : flat'.map (fun kv => kv.2.data.length) = (flat'.map fun kv => kv.2.shape).map List.prod := by
      rw [List.map_map]
      exact List.map_congr_left fun kv hkv => (h kv hkv).1
    rw [e1, e2, hs]
  cases flat with
  | nil =>
    have : flat' = [] := List.eq_nil_of_length_eq_zero (by simpa using hlen.symm)
    subst this
    rfl
  | cons kv flat =>
    cases flat' with
    | nil => simp at hlen
    | cons kv' flat' =>
      unfold casUnravel
      simp only
      have hl : ((kv' :: flat').map fun kv => kv.2.data).flatten.length = ((kv :: flat).map fun kv => kv.2.data.length).sum := by
        rw [hsz, List.length_flatten, List.map_map]
        rfl
      rw [List.map_cons (l := flat) (f := fun kv : String × NArr ℝ => kv.2.data.length)]
      rw [casSplit_ok _ _ _ (by rw [hl]; rfl)]
      have e2 : (kv :: flat).map (fun kv => newShape kv.2.shape) = (kv' :: flat').map fun kv => newShape kv.2.shape := by
        have := congrArg (List.map newShape) hs
        rwa [List.map_map, List.map_map] at this
      have key := casRebuildAll_ok (l := (kv' :: flat').map Prod.snd) (by
        intro a ha
        obtain ⟨q, hq, rfl⟩ := List.mem_map.mp ha
        exact h q hq) (by simp)
      rw [List.map_map, List.map_map, List.map_map, List.map_map] at key
      rw [← List.map_cons (l := flat) (f := fun kv : String × NArr ℝ => kv.2.data.length), e2, hsz, hk]
      simp only [bind, Except.bind]
      have key' : casRebuildAll ((pieces ((kv' :: flat').map fun kv => kv.2.data).flatten
          ((kv' :: flat').map fun kv => kv.2.data.length)).zip ((kv' :: flat').map fun kv => newShape kv.2.shape)) =
          .ok ((kv' :: flat').map fun kv => toCas kv.2) := key
      rw [key']
      simp only [pure, Except.pure, Except.ok.injEq]
      rw [List.zip_map']

end Lumos.Trees.Gen
