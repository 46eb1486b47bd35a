import Verif.Track.Similar
/-!
# Straight tracks (C65) and tracks from a curvature profile (C66)
-/

namespace Lumos.Track

open Lumos Finset

theorem gradient_zero {n : ℕ} (f s : ℕ → ℝ) (h : ∀ i < n, f i = 0) (hn : 2 ≤ n) {i : ℕ} (hi : i < n) : gradient n f s i = 0 := by
  unfold gradient
  split_ifs with h1 h2
  · rw [h 1 (by omega), h 0 (by omega), sub_self, zero_div]
  · rw [h (n - 1) (by omega), h (n - 2) (by omega), sub_self, zero_div]
  · dsimp only
    rw [h (i - 1) (by omega), h i hi, h (i + 1) (by omega)]
    ring

/-- **C65.** Points in order on a straight line give a track without curvature, whose heading is the direction of the line (up to
whole turns) and whose distance is the distance along the line. -/
theorem C65_straight {d : List ℝ} (hd : Inc d) (hn : 2 ≤ d.length) (a b φ : ℝ) :
    ∃ t, RaceTrack.fromCartesian (d.map fun v => a + v * Real.cos φ) (d.map fun v => b + v * Real.sin φ) none none = .ok t ∧
      t.s = d.map (fun v => v - at_ d 0) ∧ (∀ s, t.curvatureAt s = .ok 0) ∧
      ∃ turns : ℤ, ∀ s, t.headingAt s = .ok (φ + 2 * Real.pi * turns) := by
  obtain ⟨X, hX⟩ : ∃ X, X = d.map fun v => a + v * Real.cos φ := ⟨_, rfl⟩
  obtain ⟨Y, hY⟩ : ∃ Y, Y = d.map fun v => b + v * Real.sin φ := ⟨_, rfl⟩
  have lX : X.length = d.length := by simp [hX]
  have lY : Y.length = d.length := by simp [hY]
  have eX (i : ℕ) (hi : i < d.length) : at_ X i = a + at_ d i * Real.cos φ := by
    rw [at_eq (by omega), at_eq hi]; simp [hX]
  have eY (i : ℕ) (hi : i < d.length) : at_ Y i = b + at_ d i * Real.sin φ := by
    rw [at_eq (by omega), at_eq hi]; simp [hY]
  have step (i : ℕ) (hi : i + 1 < d.length) : Real.sqrt (diff (at_ X) i ^ 2 + diff (at_ Y) i ^ 2) = at_ d (i + 1) - at_ d i := by
    unfold diff
    rw [eX _ hi, eX i (by omega), eY _ hi, eY i (by omega)]
    have : (a + at_ d (i + 1) * Real.cos φ - (a + at_ d i * Real.cos φ)) ^ 2
        + (b + at_ d (i + 1) * Real.sin φ - (b + at_ d i * Real.sin φ)) ^ 2 = (at_ d (i + 1) - at_ d i) ^ 2 := by
      linear_combination ((at_ d (i + 1) - at_ d i) ^ 2) * Real.sin_sq_add_cos_sq φ
    rw [this, Real.sqrt_sq (by have := hd.lt (Nat.lt_succ_self i) hi; linarith)]
  have arc (i : ℕ) (hi : i < d.length) : arcLength (at_ X) (at_ Y) i = at_ d i - at_ d 0 := by
    rw [← sum_range_sub (fun k => at_ d k) i]
    unfold arcLength cumsum0
    apply sum_congr rfl
    intro k hk
    have := mem_range.mp hk
    exact step k (by omega)
  have inc (i : ℕ) (hi : i + 1 < d.length) : at_ d i < at_ d (i + 1) := hd.lt (Nat.lt_succ_self i) hi
  have grad (c e : ℝ) (f : ℕ → ℝ) (hf : ∀ i < d.length, f i = e + at_ d i * c) (i : ℕ) (hi : i < d.length) :
      gradient d.length f (arcLength (at_ X) (at_ Y)) i = c := by
    rw [gradient_congr hn (g := fun i => e + at_ d i * c) hf arc hi]
    unfold gradient
    split_ifs with h1 h2
    · have := inc 0 (by omega)
      have : at_ d 1 - at_ d 0 - (at_ d 0 - at_ d 0) ≠ 0 := by rw [sub_self, sub_zero]; linarith
      rw [div_eq_iff this]; ring
    · have := inc (d.length - 2) (by omega)
      rw [show d.length - 2 + 1 = d.length - 1 by omega] at this
      have : at_ d (d.length - 1) - at_ d 0 - (at_ d (d.length - 2) - at_ d 0) ≠ 0 := by linarith
      rw [div_eq_iff this]; ring
    · dsimp only
      have p1 := inc (i - 1) (by omega)
      rw [show i - 1 + 1 = i by omega] at p1
      have p2 := inc i (by omega)
      obtain ⟨u, hu⟩ : ∃ u, u = at_ d i - at_ d (i - 1) := ⟨_, rfl⟩
      obtain ⟨v, hv⟩ : ∃ v, v = at_ d (i + 1) - at_ d i := ⟨_, rfl⟩
      have u0 : u ≠ 0 := by linarith
      have v0 : v ≠ 0 := by linarith
      have w0 : u + v ≠ 0 := by linarith
      rw [show at_ d i - at_ d 0 - (at_ d (i - 1) - at_ d 0) = u by rw [hu]; ring,
        show at_ d (i + 1) - at_ d 0 - (at_ d i - at_ d 0) = v by rw [hv]; ring,
        show at_ d (i - 1) = at_ d i - u by rw [hu]; ring, show at_ d (i + 1) = at_ d i + v by rw [hv]; ring]
      field_simp
      ring
  have gX := grad (Real.cos φ) a (at_ X) eX
  have gY := grad (Real.sin φ) b (at_ Y) eY
  have flat (f : ℕ → ℝ) (c : ℝ) (hf : ∀ i < d.length, f i = c) (i : ℕ) (hi : i < d.length) :
      gradient d.length f (arcLength (at_ X) (at_ Y)) i = 0 :=
    grad 0 c f (fun i hi => by rw [hf i hi]; ring) i hi
  have curv (i : ℕ) (hi : i < d.length) : curvatureOf d.length (at_ X) (at_ Y) (arcLength (at_ X) (at_ Y)) i = 0 := by
    unfold curvatureOf
    dsimp only
    rw [flat _ _ gX i hi, flat _ _ gY i hi, mul_zero, zero_mul, sub_self, zero_div]
  rw [← hX, ← hY, cartesian_mk (by omega) (by omega), lX]
  have es : arr d.length (arcLength (at_ X) (at_ Y)) = d.map fun v => v - at_ d 0 := by
    apply List.ext_getElem (by simp [length_arr])
    intro i h1 h2
    rw [length_arr] at h1
    rw [getElem_arr, arc i h1, at_eq h1]
    simp
  have ez : at_ (d.map fun v => v - at_ d 0) 0 = 0 := by rw [at_shift _ (by omega), at_eq (by omega), sub_self]
  have ok : ∀ κ θ : List ℝ, κ.length = d.length → RaceTrack.mk' X Y (d.map fun v => v - at_ d 0) κ θ none none
      = .ok ⟨d.map fun v => v - at_ d 0, κ, θ, X, Y, (d.map fun v => v - at_ d 0).map fun _ => 1 * 5,
        (d.map fun v => v - at_ d 0).map fun _ => 1 * 5⟩ := by
    intro κ θ hκ
    unfold RaceTrack.mk' Broadcast
    dsimp only
    rw [if_neg (by simp [hκ]), if_neg (by simp [hκ]), if_neg (by simp; intro h; simp [h] at hn)]
    simp only [ez, sub_zero, List.map_id']
    rfl
  rw [es, ok _ _ (length_arr _ _)]
  have inc' : Inc (d.map fun v => v - at_ d 0) := hd.shift _
  obtain ⟨k, hk⟩ := arctan2_map (σ := 1) (φ := φ) (a := 1) (b := 0) (Or.inl one_ne_zero) (Or.inl rfl)
  have hk' : arctan2 (Real.sin φ) (Real.cos φ) = φ + 2 * Real.pi * k := by
    have e0 : arctan2 0 1 = 0 := by
      unfold arctan2
      exact Complex.arg_one
    rw [e0] at hk
    simpa using hk
  have const (fp : List ℝ) (hf : fp.length = d.length) (c : ℝ) (hc : ∀ i < d.length, at_ fp i = c) (s : ℝ) :
      interp (d.map fun v => v - at_ d 0) fp s = .ok c := by
    have e := poly_eq inc' (fp := fp) (by simp [hf]) (by simp; omega) s
    have := interp_between inc' e (a := c) (b := c) (by
      intro y hy
      obtain ⟨i, hi, rfl⟩ := List.mem_iff_getElem.mp hy
      have := hc i (by omega)
      rw [at_eq hi] at this
      exact ⟨this.ge, this.le⟩)
    rw [e, le_antisymm this.2 this.1]
  refine ⟨_, rfl, rfl, ?_, k, ?_⟩
  · exact const _ (length_arr _ _) 0 fun i hi => by rw [at_arr hi, curv i hi]
  · refine const _ (length_arr _ _) _ fun i hi => ?_
    rw [at_arr hi]
    unfold headingOf
    rw [gX 0 (by omega), gY 0 (by omega), hk']
    have : trapz (curvatureOf d.length (at_ X) (at_ Y) (arcLength (at_ X) (at_ Y))) (arcLength (at_ X) (at_ Y)) i = 0 := by
      unfold trapz cumsum0
      apply sum_eq_zero
      intro m hm
      have := mem_range.mp hm
      rw [curv m (by omega), curv (m + 1) (by omega)]
      ring
    rw [this, zero_add]

theorem trapz_succ (f s : ℕ → ℝ) (i : ℕ) : trapz f s (i + 1) = trapz f s i + (f i + f (i + 1)) / 2 * (s (i + 1) - s i) := by
  unfold trapz cumsum0 diff
  rw [sum_range_succ]

theorem trapz_lin {f g h s : ℕ → ℝ} {a b : ℝ} {i : ℕ} (e : ∀ k ≤ i, h k = a * f k + b * g k) :
    trapz h s i = a * trapz f s i + b * trapz g s i := by
  unfold trapz cumsum0 diff
  rw [mul_sum, mul_sum, ← sum_add_distrib]
  apply sum_congr rfl
  intro k hk
  have := mem_range.mp hk
  dsimp only
  rw [e k (by omega), e (k + 1) (by omega)]
  ring

/-- **C66.** A track from a curvature profile starts at the origin and never moves further than the distance travelled. -/
theorem C66_path {s κ : List ℝ} {c : ℝ} {l r : Option (List ℝ)} {t : RaceTrack} (h : RaceTrack.fromCurvilinear s κ c l r = .ok t)
    (hs : Inc s) :
    t.x.length = s.length ∧ t.y.length = s.length ∧ t.x[0]? = some 0 ∧ t.y[0]? = some 0 ∧
    ∀ i (hx : i + 1 < t.x.length) (hy : i + 1 < t.y.length) (h' : i + 1 < s.length),
      Real.sqrt ((t.x[i + 1] - t.x[i]) ^ 2 + (t.y[i + 1] - t.y[i]) ^ 2) ≤ s[i + 1] - s[i] := by
  obtain ⟨hl, h0, h⟩ := curvilinear_inv h
  obtain ⟨-, rfl⟩ := mk_inv h
  refine ⟨length_arr _ _, length_arr _ _, ?_, ?_, ?_⟩
  · rw [List.getElem?_eq_getElem (by rwa [length_arr]), getElem_arr]; simp [trapz, cumsum0]
  · rw [List.getElem?_eq_getElem (by rwa [length_arr]), getElem_arr]; simp [trapz, cumsum0]
  · intro i hx hy h'
    simp only [getElem_arr]
    rw [trapz_succ (fun k => Real.cos (trapz (at_ κ) (at_ s) k + c)), trapz_succ (fun k => Real.sin (trapz (at_ κ) (at_ s) k + c)),
      at_eq h', at_eq (show i < s.length by omega)]
    have lt : s[i] < s[i + 1] := by
      have := hs.lt (Nat.lt_succ_self i) h'
      rwa [at_eq h', at_eq (show i < s.length by omega)] at this
    obtain ⟨p, hp⟩ : ∃ p, p = trapz (at_ κ) (at_ s) i + c := ⟨_, rfl⟩
    obtain ⟨q, hq⟩ : ∃ q, q = trapz (at_ κ) (at_ s) (i + 1) + c := ⟨_, rfl⟩
    rw [← hp, ← hq]
    obtain ⟨w, hw⟩ : ∃ w, w = s[i + 1] - s[i] := ⟨_, rfl⟩
    rw [← hw]
    have w0 : 0 ≤ w := by linarith
    apply Real.sqrt_le_iff.mpr
    refine ⟨w0, ?_⟩
    have e1 := Real.sin_sq_add_cos_sq p
    have e2 := Real.sin_sq_add_cos_sq q
    have : (Real.cos p + Real.cos q) ^ 2 + (Real.sin p + Real.sin q) ^ 2 ≤ 4 := by
      nlinarith [sq_nonneg (Real.cos p - Real.cos q), sq_nonneg (Real.sin p - Real.sin q)]
    nlinarith [mul_le_mul_of_nonneg_left this (sq_nonneg w)]

/-- **C66.** Turning the initial heading turns the whole path about its start and changes neither distance nor curvature. -/
theorem C66_rotation {s κ : List ℝ} {c : ℝ} {l r : Option (List ℝ)} {t : RaceTrack} (h : RaceTrack.fromCurvilinear s κ c l r = .ok t)
    (φ : ℝ) :
    ∃ t', RaceTrack.fromCurvilinear s κ (c + φ) l r = .ok t' ∧ t'.s = t.s ∧ t'.curvature = t.curvature ∧
      t'.heading = t.heading.map (· + φ) ∧
      t'.x = List.zipWith (fun x y => Real.cos φ * x - Real.sin φ * y) t.x t.y ∧
      t'.y = List.zipWith (fun x y => Real.sin φ * x + Real.cos φ * y) t.x t.y := by
  obtain ⟨hl, h0, h⟩ := curvilinear_inv h
  have e : RaceTrack.fromCurvilinear s κ (c + φ) l r
      = RaceTrack.mk' (arr s.length fun i => trapz (fun k => Real.cos (trapz (at_ κ) (at_ s) k + (c + φ))) (at_ s) i + 0)
        (arr s.length fun i => trapz (fun k => Real.sin (trapz (at_ κ) (at_ s) k + (c + φ))) (at_ s) i + 0) s κ
        (arr s.length fun i => trapz (at_ κ) (at_ s) i + (c + φ)) l r := by
    unfold RaceTrack.fromCurvilinear curvilinearToCartesian
    rw [if_neg (not_not.mpr hl)]
    simp only [bind, Except.bind]
    rw [max_eq_left (by omega)]
  rw [e, mk_ok h rfl rfl]
  obtain ⟨-, rfl⟩ := mk_inv h
  refine ⟨_, rfl, rfl, rfl, ?_, ?_, ?_⟩
  · apply List.ext_getElem (by simp [length_arr])
    intro i h1 h2
    simp only [List.getElem_map, getElem_arr]
    ring
  · apply List.ext_getElem (by simp [length_arr])
    intro i h1 h2
    simp only [List.getElem_zipWith, getElem_arr, add_zero]
    rw [trapz_lin (f := fun k => Real.cos (trapz (at_ κ) (at_ s) k + c)) (g := fun k => Real.sin (trapz (at_ κ) (at_ s) k + c))
      (a := Real.cos φ) (b := -Real.sin φ) (fun k _ => by rw [← add_assoc, Real.cos_add _ φ]; ring)]
    ring
  · apply List.ext_getElem (by simp [length_arr])
    intro i h1 h2
    simp only [List.getElem_zipWith, getElem_arr, add_zero]
    rw [trapz_lin (f := fun k => Real.cos (trapz (at_ κ) (at_ s) k + c)) (g := fun k => Real.sin (trapz (at_ κ) (at_ s) k + c))
      (a := Real.sin φ) (b := Real.cos φ) (fun k _ => by rw [← add_assoc, Real.sin_add _ φ]; ring)]

/-- **C66.** The path of the opposite curvature is the mirror image. -/
theorem C66_mirror {s κ : List ℝ} {c : ℝ} {l r : Option (List ℝ)} {t : RaceTrack} (h : RaceTrack.fromCurvilinear s κ c l r = .ok t) :
    ∃ t', RaceTrack.fromCurvilinear s (κ.map (-·)) (-c) l r = .ok t' ∧ t'.s = t.s ∧ t'.heading = t.heading.map (-·) ∧
      t'.x = t.x ∧ t'.y = t.y.map (-·) := by
  obtain ⟨hl, h0, h⟩ := curvilinear_inv h
  have neg (i : ℕ) (hi : i < s.length) : trapz (at_ (κ.map (-·))) (at_ s) i = -trapz (at_ κ) (at_ s) i := by
    rw [trapz_lin (f := at_ κ) (g := at_ κ) (a := -1) (b := 0) fun k hk => by
      rw [at_eq (by simp; omega), at_eq (by omega), List.getElem_map]; ring]
    ring
  have e : RaceTrack.fromCurvilinear s (κ.map (-·)) (-c) l r
      = RaceTrack.mk' (arr s.length fun i => trapz (fun k => Real.cos (trapz (at_ (κ.map (-·))) (at_ s) k + (-c))) (at_ s) i + 0)
        (arr s.length fun i => trapz (fun k => Real.sin (trapz (at_ (κ.map (-·))) (at_ s) k + (-c))) (at_ s) i + 0) s (κ.map (-·))
        (arr s.length fun i => trapz (at_ (κ.map (-·))) (at_ s) i + (-c)) l r := by
    unfold RaceTrack.fromCurvilinear curvilinearToCartesian
    rw [if_neg (by simpa using hl)]
    simp only [bind, Except.bind]
    rw [max_eq_left (by omega)]
  rw [e, mk_ok h rfl (by simp)]
  obtain ⟨-, rfl⟩ := mk_inv h
  refine ⟨_, rfl, rfl, ?_, ?_, ?_⟩
  · apply List.ext_getElem (by simp [length_arr])
    intro i h1 h2
    rw [length_arr] at h1
    simp only [List.getElem_map, getElem_arr]
    rw [neg i h1]; ring
  · apply List.ext_getElem (by simp [length_arr])
    intro i h1 h2
    rw [length_arr] at h1
    simp only [getElem_arr]
    rw [trapz_lin (f := fun k => Real.cos (trapz (at_ κ) (at_ s) k + c)) (g := fun _ => 0) (a := 1) (b := 0) fun k hk => by
      rw [neg k (by omega), ← neg_add, Real.cos_neg]; ring]
    ring
  · apply List.ext_getElem (by simp [length_arr])
    intro i h1 h2
    rw [length_arr] at h1
    simp only [List.getElem_map, getElem_arr, add_zero]
    rw [trapz_lin (f := fun k => Real.sin (trapz (at_ κ) (at_ s) k + c)) (g := fun _ => 0) (a := -1) (b := 0) fun k hk => by
      rw [neg k (by omega), ← neg_add, Real.sin_neg]; ring]
    ring

/-- Three points of a corner: they are distinct, and the track exists. -/
example : Distinct [0, 3, 3] [0, 0, 4] ∧ ∃ t, RaceTrack.fromCartesian [0, 3, 3] [0, 0, 4] none none = .ok t ∧ t.totalDistance = 7 := by
  refine ⟨?_, ?_⟩
  · intro i h h'
    have : i = 0 ∨ i = 1 := by simp at h; omega
    rcases this with rfl | rfl <;> norm_num
  · rw [cartesian_mk (by simp) (by simp)]
    have l3 : ([0, 3, 3] : List ℝ).length = 3 := rfl
    unfold RaceTrack.mk' Broadcast
    dsimp only
    rw [if_neg (by simp [length_arr]), if_neg (by simp [length_arr]), if_neg (by simp [length_arr])]
    refine ⟨_, rfl, ?_⟩
    unfold RaceTrack.totalDistance
    simp only [List.length_map, length_arr, l3]
    rw [at_shift _ (by rw [length_arr]; omega), getElem_arr, at_arr (by omega)]
    unfold arcLength cumsum0 diff
    rw [sum_range_succ, sum_range_succ]
    simp only [range_zero, sum_empty, at_]
    norm_num
    rw [show (9 : ℝ) = 3 ^ 2 by norm_num, show (16 : ℝ) = 4 ^ 2 by norm_num, Real.sqrt_sq (by norm_num), Real.sqrt_sq (by norm_num)]
    norm_num

/-- A curvature profile. -/
example : Inc [0, 1, 3] ∧ ∃ t, RaceTrack.fromCurvilinear [0, 1, 3] [0, 1, -1] 1 none none = .ok t := by
  refine ⟨by unfold Inc; norm_num, ?_⟩
  unfold RaceTrack.fromCurvilinear curvilinearToCartesian
  rw [if_neg (by simp)]
  simp only [bind, Except.bind]
  unfold RaceTrack.mk' Broadcast
  dsimp only
  rw [if_neg (by simp), if_neg (by simp), if_neg (by simp)]
  exact ⟨_, rfl⟩

/-- **C66.** A path from a curvature profile begins at the given point with the given heading, and another starting point only moves it. -/
theorem C66_translation {s κ : List ℝ} {c a b : ℝ} {P : Cartesian} (h : curvilinearToCartesian s κ a b c = .ok P) :
    P.x[0]? = some a ∧ P.y[0]? = some b ∧ P.heading[0]? = some c ∧
    ∀ a' b', ∃ Q, curvilinearToCartesian s κ a' b' c = .ok Q ∧ Q.x = P.x.map (· + (a' - a)) ∧ Q.y = P.y.map (· + (b' - b))
      ∧ Q.heading = P.heading := by
  unfold curvilinearToCartesian at h ⊢
  split_ifs at h with h1
  cases h
  have first : ∀ f : ℕ → ℝ, (arr (max s.length 1) f)[0]? = some (f 0) := by
    intro f
    have hl : 0 < (arr (max s.length 1) f).length := by rw [length_arr]; omega
    rw [List.getElem?_eq_getElem hl, getElem_arr]
  refine ⟨?_, ?_, ?_, ?_⟩
  · rw [first]; simp [trapz, cumsum0]
  · rw [first]; simp [trapz, cumsum0]
  · rw [first]; simp [trapz, cumsum0]
  · intro a' b'
    rw [if_neg h1]
    refine ⟨_, rfl, ?_, ?_, rfl⟩
    · simp only [arr, List.map_map]
      apply List.map_congr_left
      intro i _
      simp only [Function.comp]
      ring
    · simp only [arr, List.map_map]
      apply List.map_congr_left
      intro i _
      simp only [Function.comp]
      ring

example : ∃ P, curvilinearToCartesian [0, 1, 3] [0, 2, 1] 5 7 1 = .ok P := ⟨_, rfl⟩

end Lumos.Track
