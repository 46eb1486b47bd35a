import Verif.Cas.Join
/-!
# C90: splitting arrays under casadi
-/

namespace Lumos.Cas

open Lumos Np

theorem between_places (x : Mx) (R : Nat) : ∀ (l : List Nat) (a : Nat),
    between x (a :: l ++ [R]) = List.zipWith (fun lo hi => x.slice lo hi) (a :: l) (l ++ [R]) := by
  intro l
  induction l with
  | nil => intro a; rfl
  | cons b l ih =>
    intro a
    show x.slice a b :: between x (b :: l ++ [R]) = _
    rw [ih b]; rfl

theorem between_range (x : Mx) (n : Nat) : ∀ g : Nat → Nat,
    between x ((List.range (n + 1)).map g) = (List.range n).map fun k => x.slice (g k) (g (k + 1)) := by
  induction n with
  | zero => intro g; rfl
  | succ n ih =>
    intro g
    rw [List.range_succ_eq_map, List.map_cons, List.map_map, List.range_succ_eq_map, List.map_cons]
    show x.slice (g 0) (g 1) :: between x ((g ∘ Nat.succ) 0 :: List.map (g ∘ Nat.succ) (List.map Nat.succ (List.range n))) = _
    have := ih (g ∘ Nat.succ)
    rw [List.range_succ_eq_map, List.map_cons] at this
    rw [this]
    conv_rhs => rw [List.map_cons, List.map_map]
    rfl

theorem shows_slice {a : Nd} {x : Mx} (h : Shows a x) (hn : ∀ z, a ≠ .num z) (lo hi : Nat) (hh : hi ≤ len a) : Shows (slice lo hi a) (x.slice lo hi) := by
  cases a with
  | num z => exact absurd rfl (hn z)
  | vec n f =>
    obtain ⟨h1, h2, h3⟩ := h
    exact ⟨rfl, h2, fun i hi' => h3 _ (by simp [len] at hh; omega)⟩
  | mat r c f =>
    obtain ⟨h1, h2, h3⟩ := h
    exact ⟨rfl, h2, fun i hi' j hj => h3 _ (by simp [len] at hh; omega) _ hj⟩

theorem rows_len {a : Nd} {x : Mx} (h : Shows a x) (hn : ∀ z, a ≠ .num z) : x.rows = len a := by
  cases a with
  | num z => exact absurd rfl (hn z)
  | vec n f => exact h.1
  | mat r c f => exact h.1

theorem showsAll_places {a : Nd} {x : Mx} (h : Shows a x) (hn : ∀ z, a ≠ .num z) : ∀ (l : List Nat) (b : Nat), (∀ p ∈ l, p ≤ len a) →
    ShowsAll (List.zipWith (fun lo hi => slice lo hi a) (b :: l) (l ++ [len a])) (List.zipWith (fun lo hi => x.slice lo hi) (b :: l) (l ++ [len a])) := by
  intro l
  induction l with
  | nil => intro b _; exact .cons (shows_slice h hn _ _ le_rfl) .nil
  | cons p l ih =>
    intro b hl
    exact .cons (shows_slice h hn _ _ (hl p (by simp))) (ih p fun q hq => hl q (by simp [hq]))

theorem splitRows_places {a : Nd} {x : Mx} (h : Shows a x) (hn : ∀ z, a ≠ .num z) (l : List Nat) (hs : (0 :: l ++ [len a]).IsChain (· ≤ ·)) :
    ∃ xs, splitRows x (.places l) = .ok xs ∧ vectorSplit x l = .ok xs ∧ ShowsAll (splitPlaces a l) xs := by
  have hr := rows_len h hn
  have hle : ∀ p ∈ l, p ≤ len a := by
    intro p hp
    have h1 : List.Pairwise (· ≤ ·) (0 :: l ++ [len a]) := List.isChain_iff_pairwise.1 hs
    exact (List.pairwise_append.1 h1).2.2 p (by simp [hp]) _ (by simp)
  have e : vertsplitAt x (0 :: l ++ [x.rows]) = .ok (between x (0 :: l ++ [x.rows])) := by
    unfold vertsplitAt
    rw [if_pos]
    refine ⟨rfl, by rw [hr]; exact hs, ?_⟩
    exact List.getLast?_concat
  refine ⟨_, e, e, ?_⟩
  rw [between_places, hr]
  exact showsAll_places h hn l 0 hle

theorem splitRows_parts {a : Nd} {x : Mx} (h : Shows a x) (hn : ∀ z, a ≠ .num z) (n : Nat) (hp : 0 < len a) {ys : List Nd}
    (hy : splitParts a n = .ok ys) : ∃ xs, splitRows x (.parts n) = .ok xs ∧ ShowsAll ys xs := by
  have hr := rows_len h hn
  unfold splitParts at hy
  split at hy
  · next hc =>
    obtain ⟨hn0, hdiv⟩ := hc
    obtain rfl := Except.ok.inj hy
    set c := len a / n with hcdef
    have hlen : len a = n * c := by rw [hcdef]; exact (Nat.mul_div_cancel' (Nat.dvd_of_mod_eq_zero hdiv)).symm
    have hc0 : c ≠ 0 := by intro h0; rw [h0, Nat.mul_zero] at hlen; omega
    have hcnt : (x.rows + c - 1) / c = n := by
      rw [hr, hlen]
      have h1 : n * c + c - 1 = n * c + (c - 1) := Nat.add_sub_assoc (Nat.one_le_iff_ne_zero.2 hc0) _
      rw [h1, Nat.mul_comm, Nat.mul_add_div (by omega), Nat.div_eq_of_lt (by omega)]; simp
    have hoff : (List.range n).map (· * c) ++ [x.rows] = (List.range (n + 1)).map (· * c) := by
      rw [List.range_succ, List.map_append, hr, hlen]; rfl
    refine ⟨(List.range n).map fun k => x.slice (k * c) ((k + 1) * c), ?_, ?_⟩
    · simp only [splitRows]
      rw [if_neg hn0, hr, if_pos hdiv]
      unfold vertsplitBy
      rw [← hcdef, if_neg hc0, hcnt, hoff]
      unfold vertsplitAt
      rw [if_pos, between_range]
      refine ⟨by rw [List.range_succ_eq_map]; simp, ?_, ?_⟩
      · rw [List.isChain_iff_pairwise, List.pairwise_map]
        exact List.pairwise_lt_range.imp fun hab => Nat.mul_le_mul_right _ hab.le
      · rw [List.range_succ, List.map_append, hr, hlen]; simp
    · have : ∀ ks : List Nat, (∀ k ∈ ks, k < n) →
          ShowsAll (ks.map fun k => slice (k * c) ((k + 1) * c) a) (ks.map fun k => x.slice (k * c) ((k + 1) * c)) := by
        intro ks
        induction ks with
        | nil => intro _; exact .nil
        | cons k ks ih =>
          intro hk
          refine .cons (shows_slice h hn _ _ ?_) (ih fun q hq => hk q (by simp [hq]))
          rw [hlen]; exact Nat.mul_le_mul_right _ (by have := hk k (by simp); omega)
      exact this _ fun k hk => List.mem_range.1 hk
  · simp at hy

theorem showsAll_T : ∀ {ys : List Nd} {xs : List Mx}, ys.all isMat = true → ShowsAll ys xs → ShowsAll (ys.map tr) (xs.map Mx.T) := by
  intro ys xs hm h
  exact showsAll_map (fun a x => shows_tr) h hm

/-- Theorem (C90). Splitting a vector or a matrix at places in order gives the pieces that numpy gives, along both axes; `vector_split` too. -/
theorem C90_split_places {a : Nd} {x : Mx} (h : Shows a x) (hn : ∀ z, a ≠ .num z) (l : List Nat) :
    ((0 :: l ++ [len a]).IsChain (· ≤ ·) →
      ∃ xs, split x (.places l) (some 0) = .ok xs ∧ vectorSplit x l = .ok xs ∧ ShowsAll (splitPlaces a l) xs) ∧
    (isMat a = true → (0 :: l ++ [len (tr a)]).IsChain (· ≤ ·) → ∀ axis, axis = 1 ∨ axis = -1 →
      ∃ xs, split x (.places l) (some axis) = .ok xs ∧ ShowsAll ((splitPlaces (tr a) l).map tr) xs) := by
  refine ⟨fun hs => splitRows_places h hn l hs, fun hm hs axis hax => ?_⟩
  have hn' : ∀ z, tr a ≠ .num z := by intro z; cases a <;> simp_all [tr, isMat]
  obtain ⟨xs, h1, -, h2⟩ := splitRows_places (shows_tr hm h) hn' l hs
  refine ⟨xs.map Mx.T, ?_, showsAll_T ?_ h2⟩
  · simp only [split]
    rw [if_neg (by omega), if_pos hax, h1]; rfl
  · rw [List.all_eq_true]
    intro b hb
    unfold splitPlaces at hb
    rw [List.zipWith_eq_zipWith_take_min] at hb
    obtain ⟨i, hi, rfl⟩ := List.mem_iff_getElem.1 hb
    rw [List.getElem_zipWith]
    cases a <;> simp_all [isMat, tr, slice]

/-- Theorem (C90). Splitting into equal parts gives what numpy gives, along both axes (not for an empty axis). -/
theorem C90_split_parts {a : Nd} {x : Mx} (h : Shows a x) (hn : ∀ z, a ≠ .num z) (n : Nat) :
    (0 < len a → ∀ ys, splitParts a n = .ok ys → ∃ xs, split x (.parts n) (some 0) = .ok xs ∧ ShowsAll ys xs) ∧
    (isMat a = true → 0 < len (tr a) → ∀ ys, splitParts (tr a) n = .ok ys → ∀ axis, axis = 1 ∨ axis = -1 →
      ∃ xs, split x (.parts n) (some axis) = .ok xs ∧ ShowsAll (ys.map tr) xs) := by
  refine ⟨fun hp ys hy => splitRows_parts h hn n hp hy, fun hm hp ys hy axis hax => ?_⟩
  have hn' : ∀ z, tr a ≠ .num z := by intro z; cases a <;> simp_all [tr, isMat]
  obtain ⟨xs, h1, h2⟩ := splitRows_parts (shows_tr hm h) hn' n hp hy
  refine ⟨xs.map Mx.T, ?_, showsAll_T ?_ h2⟩
  · simp only [split]
    rw [if_neg (by omega), if_pos hax, h1]; rfl
  · unfold splitParts at hy
    split at hy
    · obtain rfl := Except.ok.inj hy
      rw [List.all_eq_true]
      intro b hb
      obtain ⟨k, -, rfl⟩ := List.mem_map.1 hb
      cases a <;> simp_all [isMat, tr, slice]
    · simp at hy

/-- Theorem (C90). What is split can be joined again: the pieces of `vector_split`, given to `vector_concat`, give back the vector. -/
theorem C90_split_concat (x : Mx) (l : List Nat) (xs : List Mx) (h : vectorSplit x l = .ok xs) :
    ∃ y, vectorConcat xs = .ok y ∧ y.rows = x.rows ∧ y.cols = x.cols ∧ ∀ i < x.rows, ∀ j < x.cols, y.at' i j = x.at' i j := by
  unfold vectorSplit vertsplitAt at h
  split at h
  · next hc =>
    obtain ⟨-, hchain, -⟩ := hc
    obtain rfl := Except.ok.inj h
    unfold vectorConcat
    have key : ∀ (l : List Nat) (a : Nat), (a :: l ++ [x.rows]).IsChain (· ≤ ·) →
        ∃ y, vertcat (between x (a :: l ++ [x.rows])) = .ok y ∧ y.rows = x.rows - a ∧ y.cols = x.cols ∧
          ∀ i < x.rows - a, ∀ j, y.at' i j = x.at' (a + i) j := by
      intro l
      induction l with
      | nil => intro a _; exact ⟨x.slice a x.rows, rfl, rfl, rfl, fun _ _ _ => rfl⟩
      | cons b l ih =>
        intro a hch
        have hab : a ≤ b := by cases hch; assumption
        have htail : (b :: l ++ [x.rows]).IsChain (· ≤ ·) := by cases hch; assumption
        obtain ⟨y, h1, h2, h3, h4⟩ := ih b htail
        have hb : b ≤ x.rows := by
          have := List.isChain_iff_pairwise.1 htail
          exact (List.pairwise_append.1 this).2.2 b (by simp) _ (by simp)
        have hne : ∃ z zs, between x (b :: l ++ [x.rows]) = z :: zs := by
          cases l <;> exact ⟨_, _, rfl⟩
        obtain ⟨z, zs, hz⟩ := hne
        refine ⟨⟨(b - a) + y.rows, x.cols, fun i j => if i < b - a then x.at' (a + i) j else y.at' (i - (b - a)) j⟩, ?_, ?_, rfl, ?_⟩
        · show vertcat (x.slice a b :: between x (b :: l ++ [x.rows])) = _
          rw [hz]
          show (vertcat (z :: zs)).bind (above (x.slice a b)) = _
          rw [← hz, h1]
          show above (x.slice a b) y = _
          unfold above
          rw [if_pos (by rw [h3]; rfl)]
          rfl
        · simp only [h2]; omega
        · intro i hi j
          simp only
          split
          · rfl
          · rw [h4 _ (by omega)]
            congr 1; omega
    obtain ⟨y, h1, h2, h3, h4⟩ := key l 0 hchain
    refine ⟨y, h1, h2, h3, fun i hi j _ => ?_⟩
    rw [h4 i hi j, Nat.zero_add]
  · simp at h

/-- Theorem (C90). `length` is `len` for vectors and for matrices of any number of rows but one, one for a number (where `len` raises), and
for a matrix of one row it is the number of columns, where `len` says one. -/
theorem C90_length {a : Nd} {x : Mx} (h : Shows a x) :
    length x = match a with
      | .num _ => 1
      | .vec n _ => n
      | .mat r c _ => if r = 1 then c else r := by
  cases a with
  | num z => simp [length, h.1, h.2.1]
  | vec n f => by_cases h1 : n = 1 <;> simp [length, h.1, h.2.1, h1]
  | mat r c f => by_cases h1 : r = 1 <;> simp [length, h.1, h.2.1, h1]

/-- A row of three. -/
example : length ⟨1, 3, fun _ j => j⟩ = 3 := by simp [length]

/-- Five numbers cut after the second. -/
example : ∃ a b, vectorSplit ⟨5, 1, fun i _ => i⟩ [2] = .ok [a, b] ∧ Shows (.vec 2 fun i => i) a ∧ Shows (.vec 3 fun i => ((2 + i : Nat) : ℝ)) b := by
  have hx : Shows (.vec 5 fun i => (i : ℝ)) ⟨5, 1, fun i _ => i⟩ := ⟨rfl, rfl, fun _ _ => rfl⟩
  obtain ⟨xs, _, h, hs⟩ := (C90_split_places hx (fun z => Nd.noConfusion) [2]).1 (by simp [len])
  cases hs with
  | cons ha hs =>
    cases hs with
    | cons hb hs =>
      cases hs
      refine ⟨_, _, h, ⟨ha.1, ha.2.1, fun i hi => (ha.2.2 i hi).trans (by simp)⟩, hb⟩

end Lumos.Cas
