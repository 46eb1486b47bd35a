import Verif.Track.Curvilinear
/-!
# Round tracks and tracks driven backwards (C65)
-/

namespace Lumos.Track

open Lumos Finset

theorem gradient_uniform {n : ℕ} {f s : ℕ → ℝ} {h : ℝ} (hh : 0 < h) (hs : ∀ i < n, s i = i * h) {i : ℕ} (h1 : 1 ≤ i)
    (h2 : i + 1 < n) : gradient n f s i = (f (i + 1) - f (i - 1)) / (2 * h) := by
  obtain ⟨i, rfl⟩ : ∃ k, i = k + 1 := ⟨i - 1, by omega⟩
  unfold gradient
  rw [if_neg (by omega), if_neg (by omega)]
  dsimp only
  rw [hs _ h2, hs (i + 1) (by omega), show i + 1 - 1 = i by omega, hs i (by omega)]
  push_cast
  rw [show ((i : ℝ) + 1) * h - i * h = h by ring, show ((i : ℝ) + 1 + 1) * h - (i + 1) * h = h by ring]
  field_simp
  ring

/-- **C65.** Points equally spaced on a circle give the polygon's length as distance and, away from the two points at either end, a
curvature of exactly one over the radius. -/
theorem C65_circle {n : ℕ} (hn : 5 ≤ n) {R δ : ℝ} (hR : 0 < R) (h0 : 0 < δ) (hπ : δ < Real.pi) (a b φ : ℝ) :
    ∃ t, RaceTrack.fromCartesian ((List.range n).map fun i : ℕ => a + R * Real.cos (φ + i * δ))
        ((List.range n).map fun i : ℕ => b + R * Real.sin (φ + i * δ)) none none = .ok t ∧
      t.totalDistance = (n - 1) * (2 * R * Real.sin (δ / 2)) ∧
      ∀ s, 2 * (2 * R * Real.sin (δ / 2)) ≤ s → s ≤ (n - 3) * (2 * R * Real.sin (δ / 2)) → t.curvatureAt s = .ok (1 / R) := by
  obtain ⟨h, hh⟩ : ∃ h, h = 2 * R * Real.sin (δ / 2) := ⟨_, rfl⟩
  have sp : 0 < Real.sin (δ / 2) := Real.sin_pos_of_pos_of_lt_pi (by linarith) (by linarith)
  have hp : 0 < h := by rw [hh]; positivity
  have sd : 0 < Real.sin δ := Real.sin_pos_of_pos_of_lt_pi h0 hπ
  rw [← hh]
  obtain ⟨X, hX⟩ : ∃ X, X = arr n fun i => a + R * Real.cos (φ + i * δ) := ⟨_, rfl⟩
  obtain ⟨Y, hY⟩ : ∃ Y, Y = arr n fun i => b + R * Real.sin (φ + i * δ) := ⟨_, rfl⟩
  have lX : X.length = n := by rw [hX, length_arr]
  have lY : Y.length = n := by rw [hY, length_arr]
  have eX (i : ℕ) (hi : i < n) : at_ X i = a + R * Real.cos (φ + i * δ) := by rw [hX, at_arr hi]
  have eY (i : ℕ) (hi : i < n) : at_ Y i = b + R * Real.sin (φ + i * δ) := by rw [hY, at_arr hi]
  have step (i : ℕ) (hi : i + 1 < n) : Real.sqrt (diff (at_ X) i ^ 2 + diff (at_ Y) i ^ 2) = h := by
    unfold diff
    rw [eX _ hi, eX i (by omega), eY _ hi, eY i (by omega)]
    obtain ⟨m, hm⟩ : ∃ m : ℝ, m = φ + i * δ + δ / 2 := ⟨_, rfl⟩
    rw [show φ + (i : ℝ) * δ = m - δ / 2 by rw [hm]; ring, show φ + ((i + 1 : ℕ) : ℝ) * δ = m + δ / 2 by rw [hm]; push_cast; ring]
    rw [Real.cos_add, Real.cos_sub, Real.sin_add, Real.sin_sub]
    rw [← Real.sqrt_sq hp.le, hh]
    congr 1
    linear_combination (4 * R ^ 2 * Real.sin (δ / 2) ^ 2) * Real.sin_sq_add_cos_sq m
  have arc (i : ℕ) (hi : i < n) : arcLength (at_ X) (at_ Y) i = i * h := by
    unfold arcLength cumsum0
    rw [sum_congr rfl (g := fun _ => h), sum_const, card_range, nsmul_eq_mul]
    intro k hk
    have := mem_range.mp hk
    exact step k (by omega)
  have dX (i : ℕ) (h1 : 1 ≤ i) (h2 : i + 1 < n) :
      gradient n (at_ X) (arcLength (at_ X) (at_ Y)) i = -(R * Real.sin δ / h) * Real.sin (φ + i * δ) := by
    rw [gradient_uniform hp arc h1 h2, eX _ h2, eX _ (by omega)]
    rw [show φ + ((i + 1 : ℕ) : ℝ) * δ = (φ + i * δ) + δ by push_cast; ring,
      show φ + ((i - 1 : ℕ) : ℝ) * δ = (φ + i * δ) - δ by rw [Nat.cast_sub h1]; push_cast; ring, Real.cos_add, Real.cos_sub]
    field_simp
    ring
  have dY (i : ℕ) (h1 : 1 ≤ i) (h2 : i + 1 < n) :
      gradient n (at_ Y) (arcLength (at_ X) (at_ Y)) i = R * Real.sin δ / h * Real.cos (φ + i * δ) := by
    rw [gradient_uniform hp arc h1 h2, eY _ h2, eY _ (by omega)]
    rw [show φ + ((i + 1 : ℕ) : ℝ) * δ = (φ + i * δ) + δ by push_cast; ring,
      show φ + ((i - 1 : ℕ) : ℝ) * δ = (φ + i * δ) - δ by rw [Nat.cast_sub h1]; push_cast; ring, Real.sin_add, Real.sin_sub]
    field_simp
    ring
  obtain ⟨q, hq⟩ : ∃ q, q = R * Real.sin δ / h := ⟨_, rfl⟩
  have qp : 0 < q := by rw [hq]; positivity
  have curv (i : ℕ) (h1 : 2 ≤ i) (h2 : i + 2 < n) :
      curvatureOf n (at_ X) (at_ Y) (arcLength (at_ X) (at_ Y)) i = 1 / R := by
    unfold curvatureOf
    dsimp only
    rw [gradient_uniform hp arc (f := gradient n (at_ X) _) (by omega) (by omega),
      gradient_uniform hp arc (f := gradient n (at_ Y) _) (by omega) (by omega), dX i (by omega) (by omega),
      dY i (by omega) (by omega), dX (i + 1) (by omega) (by omega), dY (i + 1) (by omega) (by omega),
      dX (i - 1) (by omega) (by omega), dY (i - 1) (by omega) (by omega), ← hq]
    rw [show φ + ((i + 1 : ℕ) : ℝ) * δ = (φ + i * δ) + δ by push_cast; ring,
      show φ + ((i - 1 : ℕ) : ℝ) * δ = (φ + i * δ) - δ by rw [Nat.cast_sub (by omega)]; push_cast; ring]
    obtain ⟨m, hm⟩ : ∃ m : ℝ, m = φ + i * δ := ⟨_, rfl⟩
    rw [← hm, Real.sin_add, Real.sin_sub, Real.cos_add, Real.cos_sub]
    have tr := Real.sin_sq_add_cos_sq m
    have den : -q * Real.sin m * (-q * Real.sin m) + q * Real.cos m * (q * Real.cos m) = q ^ 2 := by
      linear_combination q ^ 2 * tr
    have pw : (q ^ 2) ^ (1.5 : ℝ) = q ^ 3 := by
      rw [← Real.rpow_natCast q 2, ← Real.rpow_mul qp.le, ← Real.rpow_natCast q 3]
      norm_num
    rw [den, pw, div_eq_div_iff (by positivity) hR.ne', one_mul]
    have e : q * h = R * Real.sin δ := by rw [hq]; field_simp
    field_simp
    linear_combination (2 * R * Real.sin δ) * tr - 2 * e
  rw [show (List.range n).map (fun i : ℕ => a + R * Real.cos (φ + i * δ)) = X from hX.symm,
    show (List.range n).map (fun i : ℕ => b + R * Real.sin (φ + i * δ)) = Y from hY.symm, cartesian_mk (by omega) (by omega), lX]
  have es0 : at_ (arr n (arcLength (at_ X) (at_ Y))) 0 = 0 := by rw [at_arr (by omega), arc 0 (by omega)]; simp
  have inc : Inc (arr n (arcLength (at_ X) (at_ Y))) := by
    apply List.pairwise_iff_getElem.mpr
    intro i j hi hj hij
    rw [length_arr] at hi hj
    rw [getElem_arr, getElem_arr, arc i hi, arc j hj]
    exact mul_lt_mul_of_pos_right (by exact_mod_cast hij) hp
  unfold RaceTrack.mk' Broadcast
  dsimp only
  rw [if_neg (by simp [length_arr]), if_neg (by simp [length_arr]), if_neg (by rw [length_arr]; omega), es0]
  simp only [sub_zero, List.map_id']
  refine ⟨_, rfl, ?_, ?_⟩
  · unfold RaceTrack.totalDistance
    dsimp only
    rw [length_arr, at_arr (by omega), arc _ (by omega), Nat.cast_sub (by omega), Nat.cast_one]
  · intro s hs1 hs2
    unfold RaceTrack.curvatureAt
    dsimp only
    have l1 : (arr n (arcLength (at_ X) (at_ Y))).length = (arr n (curvatureOf n (at_ X) (at_ Y) (arcLength (at_ X) (at_ Y)))).length := by
      rw [length_arr, length_arr]
    have at' (i : ℕ) (hi : i < n) : at_ (arr n (arcLength (at_ X) (at_ Y))) i = i * h := by rw [at_arr hi, arc i hi]
    have le {i k : ℕ} (e : (i : ℝ) * h < k * h) : i < k := by exact_mod_cast lt_of_mul_lt_mul_right e hp.le
    rcases place (xp := arr n (arcLength (at_ X) (at_ Y))) (by rw [length_arr]; omega) s with hv | ⟨j, hj, v1, v2⟩ | hv
    · rw [at' 0 (by omega)] at hv
      simp at hv
      linarith
    · rw [length_arr] at hj
      rw [interp_seg inc l1 (by rwa [length_arr]) v1 v2]
      rw [at' _ (by omega)] at v1 v2
      have j2 : 2 < j + 1 := le (by push_cast at v2 ⊢; linarith)
      rcases Nat.lt_or_ge (j + 3) n with g | g
      · rw [at_arr (by omega), at_arr (by omega), curv j (by omega) (by omega), curv (j + 1) (by omega) (by omega)]
        simp
      · have c : (n : ℝ) ≤ j + 3 := by exact_mod_cast g
        have : s ≤ j * h := hs2.trans (mul_le_mul_of_nonneg_right (by linarith) hp.le)
        have e : s = j * h := le_antisymm this v1
        have : (j : ℝ) * h ≤ (n - 3) * h := e ▸ hs2
        have : (j : ℝ) + 3 ≤ n := by have := le_of_mul_le_mul_right this hp; linarith
        have : j + 3 ≤ n := by exact_mod_cast this
        rw [at' j (by omega), e, sub_self, mul_zero, zero_add, at_arr (by omega), curv j (by omega) (by omega)]
    · rw [length_arr, at' _ (by omega), Nat.cast_sub (by omega)] at hv
      push_cast at hv
      nlinarith

example : 5 ≤ 8 ∧ (0 : ℝ) < 100 ∧ 0 < Real.pi / 4 ∧ Real.pi / 4 < Real.pi :=
  ⟨by norm_num, by norm_num, by linarith [Real.pi_pos], by linarith [Real.pi_pos]⟩

theorem gradient_reverse {n : ℕ} {f g s s' : ℕ → ℝ} {L α : ℝ} (hn : 2 ≤ n) (hs : ∀ i, i + 1 < n → s i < s (i + 1))
    (hf : ∀ i < n, g i = α * f (n - 1 - i)) (hs' : ∀ i < n, s' i = L - s (n - 1 - i)) {i : ℕ} (hi : i < n) :
    gradient n g s' i = -α * gradient n f s (n - 1 - i) := by
  unfold gradient
  rcases Nat.eq_zero_or_pos i with rfl | h0
  · rw [if_pos rfl, hf 0 hi, hf 1 (by omega), hs' 0 hi, hs' 1 (by omega), Nat.sub_zero, if_neg (by omega), if_pos rfl,
      show n - 1 - 1 = n - 2 by omega]
    have := hs (n - 2) (by omega)
    rw [show n - 2 + 1 = n - 1 by omega] at this
    have : s (n - 1) - s (n - 2) ≠ 0 := by linarith
    rw [show L - s (n - 2) - (L - s (n - 1)) = s (n - 1) - s (n - 2) by ring]
    field_simp
    ring
  · rcases Nat.lt_or_ge (i + 1) n with h1 | h1
    · obtain ⟨m, hm⟩ : ∃ m, n = m + i + 2 := ⟨n - i - 2, by omega⟩
      rw [if_neg (by omega), if_neg (by omega), if_neg (by omega), if_neg (by omega)]
      dsimp only
      rw [hf (i - 1) (by omega), hf i hi, hf (i + 1) (by omega), hs' (i - 1) (by omega), hs' i hi, hs' (i + 1) (by omega)]
      rw [show n - 1 - (i - 1) = m + 2 by omega, show n - 1 - i = m + 1 by omega, show n - 1 - (i + 1) = m by omega,
        show m + 1 - 1 = m by omega, show m + 1 + 1 = m + 2 by omega]
      have p1 := hs m (by omega)
      have p2 : s (m + 1) < s (m + 2) := hs (m + 1) (by omega)
      obtain ⟨d, hd⟩ : ∃ d, d = s (m + 1) - s m := ⟨_, rfl⟩
      obtain ⟨e, he⟩ : ∃ e, e = s (m + 2) - s (m + 1) := ⟨_, rfl⟩
      have d0 : d ≠ 0 := by linarith
      have e0 : e ≠ 0 := by linarith
      have de : d + e ≠ 0 := by linarith
      have de' : e + d ≠ 0 := by linarith
      rw [show L - s (m + 1) - (L - s (m + 2)) = e by rw [he]; ring, show L - s m - (L - s (m + 1)) = d by rw [hd]; ring, ← hd, ← he,
        add_comm e d]
      field_simp
      ring
    · have : i = n - 1 := by omega
      subst this
      rw [if_neg (by omega), if_pos rfl, Nat.sub_self, if_pos rfl, hf (n - 1) hi, hf (n - 2) (by omega), hs' (n - 1) hi,
        hs' (n - 2) (by omega), Nat.sub_self, show n - 1 - (n - 2) = 1 by omega]
      have := hs 0 (by omega)
      have : s 1 - s 0 ≠ 0 := by linarith
      rw [show L - s 0 - (L - s 1) = s 1 - s 0 by ring]
      field_simp
      ring

theorem inc_reverse {xp xp' : List ℝ} (hx : Inc xp) (hx' : xp'.length = xp.length) {L : ℝ}
    (ex : ∀ i < xp.length, at_ xp' i = L - at_ xp (xp.length - 1 - i)) : Inc xp' := by
  apply List.pairwise_iff_getElem.mpr
  intro i j hi hj hij
  rw [← at_eq hi, ← at_eq hj, ex i (by omega), ex j (by omega)]
  have := hx.lt (show xp.length - 1 - j < xp.length - 1 - i by omega) (by omega)
  linarith

/-- A lookup of data in the opposite order. -/
theorem interp_reverse {xp fp xp' fp' : List ℝ} (hx : Inc xp) (hl : xp.length = fp.length) (h0 : 0 < xp.length)
    (hx' : xp'.length = xp.length) (hf' : fp'.length = fp.length) {L α β : ℝ}
    (ex : ∀ i < xp.length, at_ xp' i = L - at_ xp (xp.length - 1 - i))
    (ef : ∀ i < xp.length, at_ fp' i = α * at_ fp (xp.length - 1 - i) + β) {v d : ℝ}
    (h : interp xp fp v = .ok d) : interp xp' fp' (L - v) = .ok (α * d + β) := by
  have inc := inc_reverse hx hx' ex
  have hl' : xp'.length = fp'.length := by omega
  rcases place h0 v with hv | ⟨j, hj, h1, h2⟩ | hv
  · rw [interp_left hx hl h0 hv] at h
    cases h
    rw [interp_right inc hl' (by omega), hx', ef _ (by omega), Nat.sub_self]
    rw [hx', ex _ (by omega), Nat.sub_self]
    linarith
  · rw [interp_seg hx hl hj h1 h2] at h
    cases h
    obtain ⟨m, hm⟩ : ∃ m, xp.length = m + j + 2 := ⟨xp.length - j - 2, by omega⟩
    have e1 : at_ xp' m = L - at_ xp (j + 1) := by rw [ex m (by omega), show xp.length - 1 - m = j + 1 by omega]
    have e2 : at_ xp' (m + 1) = L - at_ xp j := by rw [ex _ (by omega), show xp.length - 1 - (m + 1) = j by omega]
    have f1 : at_ fp' m = α * at_ fp (j + 1) + β := by rw [ef m (by omega), show xp.length - 1 - m = j + 1 by omega]
    have f2 : at_ fp' (m + 1) = α * at_ fp j + β := by rw [ef _ (by omega), show xp.length - 1 - (m + 1) = j by omega]
    rw [poly_eq inc hl' (by omega), poly_seg inc (j := m) (by omega) (by rw [e1]; linarith) (by rw [e2]; linarith), e1, e2, f1, f2]
    congr 1
    have := hx.lt (Nat.lt_succ_self j) hj
    have g : at_ xp (j + 1) - at_ xp j ≠ 0 := by linarith
    rw [show L - at_ xp j - (L - at_ xp (j + 1)) = at_ xp (j + 1) - at_ xp j by ring]
    field_simp
    ring
  · rw [interp_right hx hl h0 hv] at h
    cases h
    rw [interp_left inc hl' (by omega), ef _ h0, Nat.sub_zero]
    rw [ex _ h0, Nat.sub_zero]
    linarith

theorem at_reverse {x : List ℝ} {i : ℕ} (hi : i < x.length) : at_ x.reverse i = at_ x (x.length - 1 - i) := by
  rw [at_eq (by simpa using hi), at_eq (by omega), List.getElem_reverse]

theorem arcLength_reverse {x y : List ℝ} (hl : x.length = y.length) {i : ℕ} (hi : i < x.length) :
    arcLength (at_ x.reverse) (at_ y.reverse) i
      = arcLength (at_ x) (at_ y) (x.length - 1) - arcLength (at_ x) (at_ y) (x.length - 1 - i) := by
  induction i with
  | zero => simp [arcLength, cumsum0]
  | succ i ih =>
    have e : arcLength (at_ x.reverse) (at_ y.reverse) (i + 1) = arcLength (at_ x.reverse) (at_ y.reverse) i
        + Real.sqrt (diff (at_ x.reverse) i ^ 2 + diff (at_ y.reverse) i ^ 2) := by
      unfold arcLength cumsum0
      rw [sum_range_succ]
    obtain ⟨m, hm⟩ : ∃ m, x.length = m + i + 2 := ⟨x.length - i - 2, by omega⟩
    have e' : arcLength (at_ x) (at_ y) (m + 1) = arcLength (at_ x) (at_ y) m
        + Real.sqrt (diff (at_ x) m ^ 2 + diff (at_ y) m ^ 2) := by
      unfold arcLength cumsum0
      rw [sum_range_succ]
    rw [e, ih (by omega), show x.length - 1 - i = m + 1 by omega, show x.length - 1 - (i + 1) = m by omega, e']
    unfold diff
    rw [at_reverse (by omega), at_reverse (by omega), at_reverse (by omega), at_reverse (by omega), ← hl,
      show x.length - 1 - i = m + 1 by omega, show x.length - 1 - (i + 1) = m by omega]
    rw [show (at_ x m - at_ x (m + 1)) ^ 2 + (at_ y m - at_ y (m + 1)) ^ 2
      = (at_ x (m + 1) - at_ x m) ^ 2 + (at_ y (m + 1) - at_ y m) ^ 2 by ring]
    ring

/-- **C65.** The same points in the opposite order, with the sides exchanged: the track driven backwards. Its curvature is the
negative one, its heading differs by a constant and left and right are exchanged. -/
theorem C65_reverse {x y : List ℝ} {l r : Option (List ℝ)} {t : RaceTrack} (h : RaceTrack.fromCartesian x y l r = .ok t)
    (hd : Distinct x y) :
    ∃ t', RaceTrack.fromCartesian x.reverse y.reverse (r.map List.reverse) (l.map List.reverse) = .ok t' ∧
      t'.totalDistance = t.totalDistance ∧
      (∀ s κ, t.curvatureAt s = .ok κ → t'.curvatureAt (t.totalDistance - s) = .ok (-κ)) ∧
      (∃ c, ∀ s θ, t.headingAt s = .ok θ → t'.headingAt (t.totalDistance - s) = .ok (θ + c)) ∧
      (∀ s d, t.leftDistanceAt s = .ok d → t'.rightDistanceAt (t.totalDistance - s) = .ok d) ∧
      (∀ s d, t.rightDistanceAt s = .ok d → t'.leftDistanceAt (t.totalDistance - s) = .ok d) := by
  obtain ⟨hl, hn, h⟩ := cartesian_inv h
  have hinc := arcLength_inc hl hd
  rw [cartesian_mk (by simpa using hl) (by simpa using hn)]
  obtain ⟨S, hS⟩ : ∃ S, S = arcLength (at_ x) (at_ y) := ⟨_, rfl⟩
  obtain ⟨S', hS'⟩ : ∃ S, S = arcLength (at_ x.reverse) (at_ y.reverse) := ⟨_, rfl⟩
  obtain ⟨κ, hκ⟩ : ∃ κ, κ = curvatureOf x.length (at_ x) (at_ y) S := ⟨_, rfl⟩
  obtain ⟨κ', hκ'⟩ : ∃ κ, κ = curvatureOf x.length (at_ x.reverse) (at_ y.reverse) S' := ⟨_, rfl⟩
  rw [List.length_reverse, ← hS', ← hκ']
  rw [← hS, ← hκ] at h
  rw [← hS] at hinc
  have eS (i : ℕ) (hi : i < x.length) : S' i = S (x.length - 1) - S (x.length - 1 - i) := by
    rw [hS', hS, arcLength_reverse hl hi]
  have inc (i : ℕ) (hi : i + 1 < x.length) : S i < S (i + 1) := by
    have := hinc.lt (Nat.lt_succ_self i) (by rwa [length_arr])
    rwa [at_arr (by omega), at_arr hi] at this
  have eκ (i : ℕ) (hi : i < x.length) : κ' i = -κ (x.length - 1 - i) := by
    have g1 (z : List ℝ) (hz : z.length = x.length) (i : ℕ) (hi : i < x.length) :
        gradient x.length (at_ z.reverse) S' i = (-1) * gradient x.length (at_ z) S (x.length - 1 - i) :=
      gradient_reverse (α := 1) hn inc (fun i hi => by rw [at_reverse (by omega), hz, one_mul]) eS hi
    have g2 (z : List ℝ) (hz : z.length = x.length) (i : ℕ) (hi : i < x.length) :
        gradient x.length (gradient x.length (at_ z.reverse) S') S' i
          = -(-1) * gradient x.length (gradient x.length (at_ z) S) S (x.length - 1 - i) :=
      gradient_reverse hn inc (g1 z hz) eS hi
    rw [hκ, hκ']
    unfold curvatureOf
    dsimp only
    rw [g1 x rfl i hi, g1 y hl.symm i hi, g2 x rfl i hi, g2 y hl.symm i hi, ← neg_div]
    congr 1
    · ring
    · congr 1
      ring
  have eT (i : ℕ) (hi : i < x.length) : trapz κ' S' i = trapz κ S (x.length - 1 - i) - trapz κ S (x.length - 1) := by
    induction i with
    | zero => simp [trapz, cumsum0]
    | succ i ih =>
      obtain ⟨m, hm⟩ : ∃ m, x.length = m + i + 2 := ⟨x.length - i - 2, by omega⟩
      rw [trapz_succ, ih (by omega), eκ i (by omega), eκ (i + 1) hi, eS i (by omega), eS (i + 1) hi,
        show x.length - 1 - i = m + 1 by omega, show x.length - 1 - (i + 1) = m by omega, trapz_succ]
      ring
  have ok : ∀ θ' : List ℝ, RaceTrack.mk' x.reverse y.reverse (arr x.length S') (arr x.length κ') θ' (r.map List.reverse)
      (l.map List.reverse) = .ok ⟨(arr x.length S').map fun v => v - at_ (arr x.length S') 0, arr x.length κ', θ', x.reverse,
        y.reverse, (r.map List.reverse).getD ((arr x.length S').map fun _ => 1 * 5),
        (l.map List.reverse).getD ((arr x.length S').map fun _ => 1 * 5)⟩ := by
    intro θ'
    have b : ∀ o : Option (List ℝ), Broadcast (arr x.length κ) (o.getD ((arr x.length S).map fun _ => 1 * 5)) →
        Broadcast (arr x.length κ') ((o.map List.reverse).getD ((arr x.length S').map fun _ => 1 * 5)) := by
      intro o ho
      cases o with
      | none => exact Or.inl (by simp [length_arr])
      | some w => simpa [Broadcast, length_arr] using ho
    unfold RaceTrack.mk' at h ⊢
    dsimp only at h ⊢
    split_ifs at h with h1 h2 h3
    rw [if_neg (not_not.mpr (b r h2)), if_neg (not_not.mpr (b l h1)), if_neg (by rw [length_arr]; omega)]
  rw [ok]
  obtain ⟨-, rfl⟩ := mk_inv h
  have z0 : at_ (arr x.length S) 0 = 0 := by rw [at_arr (by omega), hS]; simp [arcLength, cumsum0]
  have z0' : at_ (arr x.length S') 0 = 0 := by rw [at_arr (by omega), hS']; simp [arcLength, cumsum0]
  have tot : ∀ a b c d e f, RaceTrack.totalDistance ⟨arr x.length S, a, b, c, d, e, f⟩ = S (x.length - 1) := by
    intro a b c d e f
    unfold RaceTrack.totalDistance
    dsimp only
    rw [length_arr, at_arr (by omega)]
  have tot' : ∀ a b c d e f, RaceTrack.totalDistance ⟨arr x.length S', a, b, c, d, e, f⟩ = S (x.length - 1) := by
    intro a b c d e f
    unfold RaceTrack.totalDistance
    dsimp only
    rw [length_arr, at_arr (by omega), eS _ (by omega), Nat.sub_self, show S 0 = 0 by rw [hS]; simp [arcLength, cumsum0], sub_zero]
  simp only [z0, z0', sub_zero, List.map_id']
  have ex (i : ℕ) (hi : i < (arr x.length S).length) :
      at_ (arr x.length S') i = S (x.length - 1) - at_ (arr x.length S) ((arr x.length S).length - 1 - i) := by
    rw [length_arr] at hi ⊢
    rw [at_arr hi, at_arr (by omega), eS i hi]
  have lem (fp fp' : List ℝ) (α β : ℝ) (hf : fp.length = fp'.length)
      (ef : fp.length = x.length → ∀ i < x.length, at_ fp' i = α * at_ fp (x.length - 1 - i) + β) (v d : ℝ)
      (hv : interp (arr x.length S) fp v = .ok d) : interp (arr x.length S') fp' (S (x.length - 1) - v) = .ok (α * d + β) := by
    have hlen : (arr x.length S).length = fp.length := by
      by_contra hc
      unfold interp at hv
      rw [if_pos (Or.inl hc)] at hv
      cases hv
    refine interp_reverse hinc hlen (by rw [length_arr]; omega) (by rw [length_arr, length_arr]) hf.symm ex ?_ hv
    rw [length_arr] at hlen ⊢
    exact ef hlen.symm
  have widths (o : Option (List ℝ)) (v d : ℝ)
      (hv : interp (arr x.length S) (o.getD ((arr x.length S).map fun _ => 1 * 5)) v = .ok d) :
      interp (arr x.length S') ((o.map List.reverse).getD ((arr x.length S').map fun _ => 1 * 5)) (S (x.length - 1) - v) = .ok d := by
    have := lem _ ((o.map List.reverse).getD ((arr x.length S').map fun _ => 1 * 5)) 1 0 (by cases o <;> simp [length_arr]) ?_ v d hv
    · simpa using this
    · intro e i hi
      cases o with
      | none => rw [at_eq (by simpa [length_arr] using hi), at_eq (by simp [length_arr]; omega)]; simp
      | some w =>
        have : w.length = x.length := e
        show at_ w.reverse i = 1 * at_ w _ + 0
        rw [one_mul, add_zero, at_reverse (by omega), this]
  refine ⟨_, rfl, ?_, ?_, ⟨arctan2 (gradient x.length (at_ y.reverse) S' 0) (gradient x.length (at_ x.reverse) S' 0)
    - (trapz κ S (x.length - 1) + arctan2 (gradient x.length (at_ y) S 0) (gradient x.length (at_ x) S 0)), ?_⟩, ?_, ?_⟩
  · rw [tot, tot']
  · intro s k hk
    rw [tot]
    have := lem _ (arr x.length κ') (-1) 0 (by rw [length_arr, length_arr]) ?_ s k hk
    · rw [neg_one_mul, add_zero] at this
      exact this
    · intro _ i hi
      rw [at_arr hi, at_arr (by omega), eκ i hi]
      ring
  · intro s k hk
    rw [tot]
    have := lem _ (arr x.length (headingOf x.length (at_ x.reverse) (at_ y.reverse) S' κ')) 1
      (arctan2 (gradient x.length (at_ y.reverse) S' 0) (gradient x.length (at_ x.reverse) S' 0)
        - (trapz κ S (x.length - 1) + arctan2 (gradient x.length (at_ y) S 0) (gradient x.length (at_ x) S 0)))
      (by rw [length_arr, length_arr]) ?_ s k hk
    · rw [one_mul] at this
      exact this
    · intro _ i hi
      rw [at_arr hi, at_arr (by omega)]
      unfold headingOf
      rw [eT i hi]
      ring
  · intro s d hs; rw [tot]; exact widths l s d hs
  · intro s d hs; rw [tot]; exact widths r s d hs

end Lumos.Track
