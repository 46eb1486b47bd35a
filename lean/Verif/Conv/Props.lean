import Verif.Conv.Model
/-!
# Properties C06 – C08: sliding windows, interval tensors, block structures
-/

namespace Lumos.Conv

open Lumos DecVar DecVar.Layout

theorem window_split {α : Type} (x : List α) (b s w : Nat) (hsw : s ≤ w) :
    (x.drop (b * s)).take w = (x.drop (b * s)).take s ++ (x.drop ((b + 1) * s)).take (w - s) := by
  have e : w = s + (w - s) := by omega
  conv_lhs => rw [e]
  rw [List.take_add, List.drop_drop]
  congr 3
  ring

/-- **C07 (windows).** When the window fits — `stride ≤ width ≤ 2*stride` and the stride divides
`length - width` — the result has `(length - width)/stride + 1` windows and the `b`-th window is
`x[b*stride : b*stride + width]`, of full width. -/
theorem C07_windows {α : Type} (x : List α) (width stride : Nat) (hs : 0 < stride) (hw : width ≤ x.length)
    (hdiv : (x.length - width) % stride = 0) (h1 : stride ≤ width) (h2 : width ≤ 2 * stride) :
    ∃ t, batchConv1d x width stride = .ok t ∧ t.length = (x.length - width) / stride + 1 ∧
      ∀ b, b < t.length → t[b]? = some ((x.drop (b * stride)).take width) ∧
        ((x.drop (b * stride)).take width).length = width := by
  obtain ⟨q, hq⟩ : ∃ q, x.length - width = q * stride := by
    obtain ⟨q, hq⟩ := Nat.dvd_of_mod_eq_zero hdiv
    exact ⟨q, by rw [hq]; ring⟩
  have hdivq : (x.length - width) / stride = q := by rw [hq]; exact Nat.mul_div_cancel _ hs
  have hcut : x.length + stride - width = (q + 1) * stride := by rw [Nat.add_mul, Nat.one_mul]; omega
  have halen : (x.take ((q + 1) * stride)).length = (q + 1) * stride := by
    rw [List.length_take]; rw [Nat.add_mul, Nat.one_mul] at hcut ⊢; omega
  have hblen : (x.drop ((q + 1) * stride)).length = width - stride := by
    rw [List.length_drop, Nat.add_mul, Nat.one_mul]; omega
  have hmin : min stride (width - stride) = width - stride := by omega
  refine ⟨List.zipWith (· ++ ·) (Np.reshapeRows (q + 1) stride (x.take ((q + 1) * stride)))
      (((Np.reshapeRows (q + 1) stride (x.take ((q + 1) * stride))).drop 1).map (·.take (width - stride))
        ++ [x.drop ((q + 1) * stride)]), ?_, ?_, ?_⟩
  rotate_left
  · simp [hdivq]
  · intro b hb
    have hb' : b < q + 1 := by simpa using hb
    refine ⟨?_, ?_⟩
    · rw [window_split x b stride width h1]
      have e1 : (Np.reshapeRows (q + 1) stride (x.take ((q + 1) * stride)))[b]?
          = some ((x.drop (b * stride)).take stride) := by
        rw [Np.getElem?_reshapeRows _ _ _ _ hb', List.drop_take, List.take_take]
        congr 2
        have : (b + 1) * stride ≤ (q + 1) * stride := Nat.mul_le_mul_right _ hb'
        rw [Nat.add_mul, Nat.one_mul] at this
        omega
      have e2 : (((Np.reshapeRows (q + 1) stride (x.take ((q + 1) * stride))).drop 1).map
          (·.take (width - stride)) ++ [x.drop ((q + 1) * stride)])[b]?
          = some ((x.drop ((b + 1) * stride)).take (width - stride)) := by
        by_cases hlast : b < q
        · rw [List.getElem?_append_left (by simp; exact hlast), List.getElem?_map, List.getElem?_drop,
            Nat.add_comm 1 b, Np.getElem?_reshapeRows _ _ _ _ (by omega), Option.map_some, List.drop_take,
            List.take_take, List.take_take]
          congr 2
          have : (b + 2) * stride ≤ (q + 1) * stride := Nat.mul_le_mul_right _ (by omega)
          have e : (b + 2) * stride = (b + 1) * stride + stride := by ring
          omega
        · have : b = q := by omega
          subst this
          rw [List.getElem?_append_right (by simp)]
          simp only [List.length_map, List.length_drop, Np.length_reshapeRows, Nat.add_sub_cancel,
            Nat.sub_self, List.getElem?_cons_zero, Option.some.injEq]
          rw [List.take_of_length_le (by omega)]
      rw [List.getElem?_zipWith, e1, e2]
    · rw [List.length_take, List.length_drop]
      have : b * stride ≤ q * stride := Nat.mul_le_mul_right _ (by omega)
      omega
  · simp only [batchConv1d, hdivq, hcut, halen, hblen, hmin]
    rw [if_neg (by omega), if_neg (by rw [hdiv]; simp), if_neg (by simp), if_neg (by simp)]

/-- **C07 (errors).** With `stride > 0` and `width ≤ length`: when the stride does not divide
`length - width` a ValueError is raised; and whenever the window does not fit the code's overlap scheme
(`width < stride` or `width > 2*stride`) a ValueError is raised as well — it never returns wrong windows. -/
theorem C07_errors {α : Type} (x : List α) (width stride : Nat) (hs : 0 < stride) (hw : width ≤ x.length)
    (h : (x.length - width) % stride ≠ 0 ∨ width < stride ∨ 2 * stride < width) :
    batchConv1d x width stride = .error .valueError := by
  unfold batchConv1d
  rw [if_neg (by omega)]
  by_cases hdiv : (x.length - width) % stride ≠ 0
  · rw [if_pos hdiv]
  · rw [if_neg hdiv]
    have hdiv : (x.length - width) % stride = 0 := by simpa using hdiv
    obtain ⟨q, hq⟩ : ∃ q, x.length - width = q * stride := by
      obtain ⟨q, hq⟩ := Nat.dvd_of_mod_eq_zero hdiv
      exact ⟨q, by rw [hq]; ring⟩
    have hdivq : (x.length - width) / stride = q := by rw [hq]; exact Nat.mul_div_cancel _ hs
    dsimp only
    rw [hdivq]
    rcases h with h | h | h
    · exact absurd hdiv h
    · rw [if_pos]
      rw [List.length_take, Nat.add_mul, Nat.one_mul]
      omega
    · rw [if_neg, if_pos]
      · rw [List.length_drop]; omega
      · rw [List.length_take, Nat.add_mul, Nat.one_mul]; omega

example : batchConv1d [0, 1, 2, 3, 4, 5, 6] 3 2 = .ok [[0, 1, 2], [2, 3, 4], [4, 5, 6]] ∧
    batchConv1d [0, 1, 2, 3, 4, 5] 3 2 = .error .valueError ∧
    batchConv1d [0, 1, 2, 3, 4, 5, 6] 5 2 = .error .valueError := by decide +kernel

/-- **C06 (interval tensor).** Slice `i` of the interval tensor of a group has one row per stage of the
interval, and row `j` is the group's row at stage `i*(m-1)+j` (`m` stages per interval), for all
intervals. -/
theorem C06_interval_tensor {α : Type} {L : Layout} (hF : L.Fields) (hm : 2 ≤ L.nspi)
    (hN : 1 ≤ L.numIntervals) {x : List α} (hx : x.length = L.numDec) {v : Vars α}
    (hv : L.unflattenVar x = .ok v) {g : String} {rows : List (List α)} (hg : v.stage.lookup g = some rows) :
    ∃ t, intervalTensor L x g = .ok t ∧ t.length = L.numIntervals ∧
      ∀ i, i < L.numIntervals → ∃ slice, t[i]? = some slice ∧ slice.length = L.nspi ∧
        ∀ j, j < L.nspi → slice[j]? = rows[i * (L.nspi - 1) + j]? ∧ i * (L.nspi - 1) + j < L.numStages := by
  obtain ⟨v', hv', hsh, _⟩ := C03_flatten_unflatten hF x hx
  rw [hv] at hv'; cases hv'
  have hmem : (g, rows) ∈ v.stage := by
    obtain ⟨l1, l2, h2, _⟩ := List.lookup_eq_some_iff.mp hg
    rw [h2]; simp
  have hlen : rows.length = L.numStages := (hsh.rect _ hmem).1
  have hmul : 1 * (L.nspi - 1) ≤ L.numIntervals * (L.nspi - 1) := Nat.mul_le_mul_right _ hN
  have hsub : rows.length - L.nspi = (L.numIntervals - 1) * (L.nspi - 1) := by
    rw [hlen, Nat.sub_mul]; unfold numStages; omega
  obtain ⟨t, ht, htl, hw⟩ := C07_windows rows L.nspi (L.nspi - 1) (by omega)
    (by rw [hlen]; unfold numStages; omega) (by rw [hsub]; exact Nat.mul_mod_left _ _) (by omega) (by omega)
  have htl' : t.length = L.numIntervals := by
    rw [htl, hsub, Nat.mul_div_cancel _ (by omega)]; omega
  refine ⟨t, ?_, htl', ?_⟩
  · simp [intervalTensor, hv, hg, bind, Except.bind, ht]
  · intro i hi
    obtain ⟨h1, h2⟩ := hw i (by omega)
    refine ⟨_, h1, h2, ?_⟩
    intro j hj
    have hle : (i + 1) * (L.nspi - 1) ≤ L.numIntervals * (L.nspi - 1) := Nat.mul_le_mul_right _ hi
    rw [Nat.add_mul, Nat.one_mul] at hle
    refine ⟨?_, by unfold numStages; omega⟩
    rw [List.getElem?_take_of_lt hj, List.getElem?_drop]

/-- **C06 (by name).** Entry `(i, j, k)` of the interval tensor is the group's `k`-th variable read by name at
stage `i*(m-1)+j`. -/
theorem C06_interval_entry {α : Type} {L : Layout} (h : L.Made) (hF : L.Fields) (hm : 2 ≤ L.nspi)
    (hN : 1 ≤ L.numIntervals) {x : List α} (hx : x.length = L.numDec) {g : String} (hg : g ∈ L.groups)
    {ns : List String} (hns : L.names.lookup g = some ns) :
    ∃ t, intervalTensor L x g = .ok t ∧
      ∀ (i j k : Nat) (n : String), i < L.numIntervals → j < L.nspi → ns[k]? = some n →
        ∃ a, ((t[i]?).bind (·[j]?)).bind (·[k]?) = some a ∧
          L.getVar x g n (some ((i * (L.nspi - 1) + j : Nat) : Int)) = .ok (.scalar a) := by
  obtain ⟨v, hv, hsh, hfl⟩ := C03_flatten_unflatten hF x hx
  obtain ⟨rows, hr⟩ : ∃ rows, v.stage.lookup g = some rows := by
    rw [← hsh.stageKeys] at hg
    obtain ⟨p, hp, rfl⟩ := List.mem_map.mp hg
    cases hc : v.stage.lookup p.1 with
    | some r => exact ⟨r, rfl⟩
    | none =>
      have := List.lookup_eq_none_iff.mp hc p hp
      simp at this
  obtain ⟨t, ht, _, hw⟩ := C06_interval_tensor hF hm hN hx hv hr
  refine ⟨t, ht, ?_⟩
  intro i j k n hi hj hk
  obtain ⟨slice, h1, h2, h3⟩ := hw i hi
  obtain ⟨h4, h5⟩ := h3 j hj
  have hmem : (g, rows) ∈ v.stage := by
    obtain ⟨l1, l2, h2, _⟩ := List.lookup_eq_some_iff.mp hr
    rw [h2]; simp
  obtain ⟨hrl, hrw⟩ := hsh.rect _ hmem
  have hlt : i * (L.nspi - 1) + j < rows.length := by
    have hrl : rows.length = L.numStages := hrl
    omega
  have hrow : rows[i * (L.nspi - 1) + j].length = L.size g := hrw _ (List.getElem_mem hlt)
  have hkl : k < rows[i * (L.nspi - 1) + j].length := by
    rw [hrow, size, namesOf_of_lookup hns]; exact (List.getElem?_eq_some_iff.mp hk).1
  refine ⟨rows[i * (L.nspi - 1) + j][k], ?_, ?_⟩
  · rw [h1, Option.bind_some, h4, List.getElem?_eq_getElem hlt, Option.bind_some,
      List.getElem?_eq_getElem hkl]
  · exact C04_get_var_flatten h hF hsh hfl hr hns hk (List.getElem?_eq_getElem hlt)
      (List.getElem?_eq_getElem hkl)

/-- **C06 (shared boundary stages, coverage).** The last row of an interval is the first row of the next
one, and every stage occurs in some interval. -/
theorem C06_shared_and_covered (L : Layout) (hm : 2 ≤ L.nspi) (hN : 1 ≤ L.numIntervals) :
    (∀ i, i * (L.nspi - 1) + (L.nspi - 1) = (i + 1) * (L.nspi - 1) + 0) ∧
    (∀ s, s < L.numStages → ∃ i j, i < L.numIntervals ∧ j < L.nspi ∧ i * (L.nspi - 1) + j = s) := by
  constructor
  · intro i; ring
  · intro s hs
    have hpos : 0 < L.nspi - 1 := by omega
    have hd := Nat.mod_add_div s (L.nspi - 1)
    have hmod := Nat.mod_lt s hpos
    by_cases hlast : s = L.numIntervals * (L.nspi - 1)
    · refine ⟨L.numIntervals - 1, L.nspi - 1, by omega, by omega, ?_⟩
      rw [hlast]
      have : L.numIntervals = L.numIntervals - 1 + 1 := by omega
      conv_rhs => rw [this]
      ring
    · refine ⟨s / (L.nspi - 1), s % (L.nspi - 1), ?_, by omega, by rw [Nat.mul_comm]; omega⟩
      rw [Nat.div_lt_iff_lt_mul hpos]
      unfold numStages at hs; omega

example : (intervalTensor exLayout (List.range 22) "inputs")
    = .ok [[[2], [5], [8]], [[8], [11], [14]], [[14], [17], [20]]] := by decide +kernel

/-- **C08 (offset structure).** Block after block, the base entries shifted by `k` offsets. -/
theorem C08_offset_structure (rows cols : List Nat) (ro co n : Nat) (hn : 0 < n)
    (hlen : rows.length = cols.length) :
    ∃ R C, createOffsetStructure rows cols ro co n = .ok (R, C) ∧ R.length = n * rows.length ∧
      C.length = R.length ∧
      ∀ k i, k < n → i < rows.length →
        R[k * rows.length + i]? = (rows[i]?).map (· + k * ro) ∧
        C[k * rows.length + i]? = (cols[i]?).map (· + k * co) := by
  have hrect : ∀ (base : List Nat) (o : Nat), Np.Rect n base.length
      ((List.range n).map fun k => base.map (· + k * o)) := by
    intro base o
    refine ⟨by simp, ?_⟩
    intro r hr
    obtain ⟨k, _, rfl⟩ := List.mem_map.mp hr
    simp
  refine ⟨_, _, by rw [createOffsetStructure, if_neg (by omega)], ?_, ?_, ?_⟩
  · exact Np.flatten_rect_length (hrect rows ro)
  · rw [List.flatMap, List.flatMap, Np.flatten_rect_length (hrect rows ro),
      Np.flatten_rect_length (hrect cols co), hlen]
  · intro k i hk hi
    constructor
    · rw [List.flatMap, Np.getElem?_flatten_rect (hrect rows ro) k i hi]
      simp [hk]
    · rw [List.flatMap, hlen, Np.getElem?_flatten_rect (hrect cols co) k i (by omega)]
      simp [hk]

/-- **C08 (blocks do not overlap).** If all base rows are below the row offset, entries of different blocks
have different rows, and all rows are below `num_blocks * row_offset`. -/
theorem C08_blocks_disjoint (rows cols : List Nat) (ro co n : Nat) (hn : 0 < n)
    (hb : ∀ r ∈ rows, r < ro) :
    ∃ R C, createOffsetStructure rows cols ro co n = .ok (R, C) ∧ (∀ r ∈ R, r < n * ro) ∧
      (∀ k k' r r', k < n → k' < n → r ∈ rows → r' ∈ rows → r + k * ro = r' + k' * ro → k = k' ∧ r = r') := by
  refine ⟨_, _, by rw [createOffsetStructure, if_neg (by omega)], ?_, ?_⟩
  · intro r hr
    obtain ⟨k, hk, hr⟩ := List.mem_flatMap.mp hr
    obtain ⟨r0, hr0, rfl⟩ := List.mem_map.mp hr
    have := hb r0 hr0
    have h2 : (k + 1) * ro ≤ n * ro := Nat.mul_le_mul_right _ (List.mem_range.mp hk)
    rw [Nat.add_mul, Nat.one_mul] at h2
    omega
  · intro k k' r r' _ _ hr hr' he
    have h1 := hb r hr
    have h2 := hb r' hr'
    have hpos : 0 < ro := by omega
    have e1 : r = r' := by
      have := congrArg (· % ro) he
      simpa [Nat.mod_eq_of_lt h1, Nat.mod_eq_of_lt h2] using this
    subst e1
    exact ⟨Nat.eq_of_mul_eq_mul_right hpos (by omega), rfl⟩

/-- **C08 (no blocks).** Zero blocks raise ValueError. -/
theorem C08_no_blocks (rows cols : List Nat) (ro co : Nat) :
    createOffsetStructure rows cols ro co 0 = .error .valueError := rfl

/-- **C08 (stack and increment).** For every valid axis (negative axes count from the end of the result),
the result has `num_repeat` inserted in its shape at that axis, and its `r`-th slice along the axis is the
base array plus `r * num_increment`. -/
theorem C08_stack_and_increment (x : Nd Int) (axis : Int) (n : Nat) (inc : Int) (hn : 0 < n)
    (h1 : -((x.shape.length : Int) + 1) ≤ axis) (h2 : axis ≤ x.shape.length) :
    ∃ y, ∃ ax : Nat, (if axis < 0 then (ax : Int) = axis + x.shape.length + 1 else (ax : Int) = axis) ∧
      stackAndIncrement x axis n inc = .ok y ∧ y.shape = x.shape.insertIdx ax n ∧
      ∀ (idx : List Nat) (r : Nat), idx.length = x.shape.length →
        y.get (idx.insertIdx ax r) = x.get idx + (r : Int) * inc := by
  set d : Int := (x.shape.length : Int) + 1 with hd
  have hax : ((axis % d).toNat : Int) = axis % d := Int.toNat_of_nonneg (Int.emod_nonneg _ (by omega))
  have hle : (axis % d).toNat ≤ x.shape.length := by
    have := Int.emod_lt_of_pos axis (b := d) (by omega); omega
  refine ⟨⟨(stackCopies x n (axis % d).toNat).shape, fun idx => (stackCopies x n (axis % d).toNat).get idx +
    (incrementAlong (stackCopies x n (axis % d).toNat).shape (axis % d).toNat inc).get idx⟩,
    (axis % d).toNat, ?_, ?_, rfl, ?_⟩
  rotate_left
  · rw [stackAndIncrement, if_neg (by omega), if_neg (by omega)]
  · intro idx r hidx
    have hle' : (axis % d).toNat ≤ idx.length := by omega
    simp only [stackCopies, incrementAlong]
    rw [List.eraseIdx_insertIdx_self]
    congr 2
    simp [List.getElem?_insertIdx_self, hle']
  · split
    · rename_i hneg
      rw [hax]
      have : axis % d = (axis + d) % d := by simp
      rw [this, Int.emod_eq_of_lt (by omega) (by omega)]
      omega
    · rename_i hneg
      rw [hax, Int.emod_eq_of_lt (by omega) (by omega)]

/-- **C08 (bad axis).** -/
theorem C08_stack_bad_axis (x : Nd Int) (axis : Int) (n : Nat) (inc : Int)
    (h : axis < -((x.shape.length : Int) + 1) ∨ (x.shape.length : Int) < axis) :
    stackAndIncrement x axis n inc = .error .valueError := by
  unfold stackAndIncrement
  rw [if_pos h]
  simp

example : createOffsetStructure [0, 1] [0, 2] 2 3 3 = .ok ([0, 1, 2, 3, 4, 5], [0, 2, 3, 5, 6, 8]) := by decide

end Lumos.Conv
