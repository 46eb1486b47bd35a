import Verif.Track.Heading
import Mathlib.Analysis.SpecialFunctions.Complex.Circle
import Mathlib.Tactic.LinearCombination
/-!
# A track does not depend on where and how the plane is drawn (C65)
-/

namespace Lumos.Track

open Lumos Finset

theorem gradient_congr {n : ℕ} {f g s s' : ℕ → ℝ} (hn : 2 ≤ n) (hf : ∀ i < n, f i = g i) (hs : ∀ i < n, s i = s' i) {i : ℕ}
    (hi : i < n) : gradient n f s i = gradient n g s' i := by
  unfold gradient
  split_ifs with h1 h2
  · rw [hf 0 (by omega), hf 1 (by omega), hs 0 (by omega), hs 1 (by omega)]
  · rw [hf (n - 1) (by omega), hf (n - 2) (by omega), hs (n - 1) (by omega), hs (n - 2) (by omega)]
  · rw [hf (i - 1) (by omega), hf i (by omega), hf (i + 1) (by omega), hs (i - 1) (by omega), hs i (by omega), hs (i + 1) (by omega)]

theorem gradient_lin {n : ℕ} {f g s : ℕ → ℝ} (hn : 2 ≤ n) (hs : ∀ i, i + 1 < n → s i < s (i + 1)) {ρ : ℝ} (hρ : 0 < ρ) (a b c : ℝ)
    {i : ℕ} (hi : i < n) :
    gradient n (fun k => a * f k + b * g k + c) (fun k => ρ * s k) i = (a * gradient n f s i + b * gradient n g s i) / ρ := by
  unfold gradient
  split_ifs with h1 h2
  · have := hs 0 (by omega)
    have : s 1 - s 0 ≠ 0 := by linarith
    rw [← mul_sub]
    field_simp
    ring
  · have := hs (n - 2) (by omega)
    rw [show n - 2 + 1 = n - 1 by omega] at this
    have : s (n - 1) - s (n - 2) ≠ 0 := by linarith
    rw [← mul_sub]
    field_simp
    ring
  · dsimp only
    have p1 := hs (i - 1) (by omega)
    rw [show i - 1 + 1 = i by omega] at p1
    have p2 := hs i (by omega)
    rw [← mul_sub, ← mul_sub]
    obtain ⟨d, hd⟩ : ∃ d, d = s i - s (i - 1) := ⟨_, rfl⟩
    obtain ⟨e, he⟩ : ∃ e, e = s (i + 1) - s i := ⟨_, rfl⟩
    have d0 : d ≠ 0 := by linarith
    have e0 : e ≠ 0 := by linarith
    have de : d + e ≠ 0 := by linarith
    rw [← hd, ← he, ← mul_add]
    field_simp
    ring

/-- A lookup of rescaled data. -/
theorem interp_scale {xp fp xp' fp' : List ℝ} (hx : Inc xp) (hl : xp.length = fp.length) (h0 : 0 < xp.length)
    (hx' : xp'.length = xp.length) (hf' : fp'.length = fp.length) {ρ α β : ℝ} (hρ : 0 < ρ)
    (ex : ∀ i < xp.length, at_ xp' i = ρ * at_ xp i) (ef : ∀ i < xp.length, at_ fp' i = α * at_ fp i + β) {v d : ℝ}
    (h : interp xp fp v = .ok d) : interp xp' fp' (ρ * v) = .ok (α * d + β) := by
  have inc : Inc xp' := by
    apply List.pairwise_iff_getElem.mpr
    intro i j hi hj hij
    rw [← at_eq hi, ← at_eq hj, ex i (by omega), ex j (by omega)]
    exact mul_lt_mul_of_pos_left (hx.lt hij (by omega)) hρ
  rcases place h0 v with hv | ⟨j, hj, h1, h2⟩ | hv
  · rw [interp_left hx hl h0 hv] at h
    cases h
    rw [interp_left inc (by omega) (by omega) (by rw [ex 0 h0]; exact mul_le_mul_of_nonneg_left hv hρ.le), ef 0 h0]
  · rw [interp_seg hx hl hj h1 h2] at h
    cases h
    rw [interp_seg inc (by omega) (j := j) (by omega) (by rw [ex j (by omega)]; exact mul_le_mul_of_nonneg_left h1 hρ.le)
      (by rw [ex _ hj]; exact mul_lt_mul_of_pos_left h2 hρ), ex _ hj, ex j (by omega), ef _ hj, ef j (by omega)]
    congr 1
    have := hx.lt (Nat.lt_succ_self j) hj
    have : at_ xp (j + 1) - at_ xp j ≠ 0 := by linarith
    rw [← mul_sub, ← mul_sub]
    field_simp
    ring
  · rw [interp_right hx hl h0 hv] at h
    cases h
    rw [interp_right inc (by omega) (by omega) (by rw [hx', ex _ (by omega)]; exact mul_le_mul_of_nonneg_left hv hρ.le), hx',
      ef _ (by omega)]

/-- The points after scaling by `ρ`, reflection (`σ = -1`) or not (`σ = 1`), rotation by `φ` and a shift. -/
noncomputable def mapX (ρ σ φ b : ℝ) (x y : List ℝ) : List ℝ :=
  List.zipWith (fun x y => ρ * (Real.cos φ * x - σ * Real.sin φ * y) + b) x y

noncomputable def mapY (ρ σ φ b : ℝ) (x y : List ℝ) : List ℝ :=
  List.zipWith (fun x y => ρ * (Real.sin φ * x + σ * Real.cos φ * y) + b) x y

section

variable {x y : List ℝ} {ρ σ φ b1 b2 : ℝ}

theorem at_mapX (h : x.length = y.length) {i : ℕ} (hi : i < x.length) :
    at_ (mapX ρ σ φ b1 x y) i = ρ * Real.cos φ * at_ x i + (-(ρ * σ * Real.sin φ)) * at_ y i + b1 := by
  rw [at_eq (by simp [mapX]; omega), at_eq hi, at_eq (by omega)]
  simp only [mapX, List.getElem_zipWith]
  ring

theorem at_mapY (h : x.length = y.length) {i : ℕ} (hi : i < x.length) :
    at_ (mapY ρ σ φ b2 x y) i = ρ * Real.sin φ * at_ x i + ρ * σ * Real.cos φ * at_ y i + b2 := by
  rw [at_eq (by simp [mapY]; omega), at_eq hi, at_eq (by omega)]
  simp only [mapY, List.getElem_zipWith]
  ring

theorem arcLength_map (h : x.length = y.length) (hρ : 0 < ρ) (hσ : σ ^ 2 = 1) {i : ℕ} (hi : i < x.length) :
    arcLength (at_ (mapX ρ σ φ b1 x y)) (at_ (mapY ρ σ φ b2 x y)) i = ρ * arcLength (at_ x) (at_ y) i := by
  unfold arcLength cumsum0
  rw [mul_sum]
  apply sum_congr rfl
  intro k hk
  have := mem_range.mp hk
  unfold diff
  dsimp only
  rw [at_mapX h (by omega), at_mapX h (by omega), at_mapY h (by omega), at_mapY h (by omega)]
  have e : (ρ * Real.cos φ * at_ x (k + 1) + -(ρ * σ * Real.sin φ) * at_ y (k + 1) + b1
        - (ρ * Real.cos φ * at_ x k + -(ρ * σ * Real.sin φ) * at_ y k + b1)) ^ 2
      + (ρ * Real.sin φ * at_ x (k + 1) + ρ * σ * Real.cos φ * at_ y (k + 1) + b2
        - (ρ * Real.sin φ * at_ x k + ρ * σ * Real.cos φ * at_ y k + b2)) ^ 2
      = ρ ^ 2 * ((at_ x (k + 1) - at_ x k) ^ 2 + (at_ y (k + 1) - at_ y k) ^ 2) := by
    linear_combination (ρ ^ 2 * (at_ x (k + 1) - at_ x k) ^ 2 + ρ ^ 2 * σ ^ 2 * (at_ y (k + 1) - at_ y k) ^ 2) * Real.sin_sq_add_cos_sq φ
      + ρ ^ 2 * (at_ y (k + 1) - at_ y k) ^ 2 * hσ
  rw [e, Real.sqrt_mul (sq_nonneg ρ), Real.sqrt_sq hρ.le]

/-- The curvature of the mapped points. -/
theorem curvature_map (h : x.length = y.length) (hn : 2 ≤ x.length) (hd : Distinct x y) (hρ : 0 < ρ) (hσ : σ ^ 2 = 1) {i : ℕ}
    (hi : i < x.length) :
    gradient x.length (at_ (mapX ρ σ φ b1 x y)) (arcLength (at_ (mapX ρ σ φ b1 x y)) (at_ (mapY ρ σ φ b2 x y))) i
      = Real.cos φ * gradient x.length (at_ x) (arcLength (at_ x) (at_ y)) i
        - σ * Real.sin φ * gradient x.length (at_ y) (arcLength (at_ x) (at_ y)) i ∧
    gradient x.length (at_ (mapY ρ σ φ b2 x y)) (arcLength (at_ (mapX ρ σ φ b1 x y)) (at_ (mapY ρ σ φ b2 x y))) i
      = Real.sin φ * gradient x.length (at_ x) (arcLength (at_ x) (at_ y)) i
        + σ * Real.cos φ * gradient x.length (at_ y) (arcLength (at_ x) (at_ y)) i ∧
    curvatureOf x.length (at_ (mapX ρ σ φ b1 x y)) (at_ (mapY ρ σ φ b2 x y))
      (arcLength (at_ (mapX ρ σ φ b1 x y)) (at_ (mapY ρ σ φ b2 x y))) i
      = σ / ρ * curvatureOf x.length (at_ x) (at_ y) (arcLength (at_ x) (at_ y)) i := by
  have inc : ∀ i, i + 1 < x.length → arcLength (at_ x) (at_ y) i < arcLength (at_ x) (at_ y) (i + 1) := by
    intro i hi
    have := (arcLength_inc h hd).lt (Nat.lt_succ_self i) (by rw [length_arr]; exact hi)
    rwa [at_arr (by omega), at_arr hi] at this
  have gx : ∀ i, i < x.length →
      gradient x.length (at_ (mapX ρ σ φ b1 x y)) (arcLength (at_ (mapX ρ σ φ b1 x y)) (at_ (mapY ρ σ φ b2 x y))) i
      = Real.cos φ * gradient x.length (at_ x) (arcLength (at_ x) (at_ y)) i
        + (-(σ * Real.sin φ)) * gradient x.length (at_ y) (arcLength (at_ x) (at_ y)) i + 0 := by
    intro i hi
    rw [gradient_congr hn (fun k hk => at_mapX h hk) (fun k hk => arcLength_map h hρ hσ hk) hi, gradient_lin hn inc hρ _ _ _ hi]
    field_simp
    ring
  have gy : ∀ i, i < x.length →
      gradient x.length (at_ (mapY ρ σ φ b2 x y)) (arcLength (at_ (mapX ρ σ φ b1 x y)) (at_ (mapY ρ σ φ b2 x y))) i
      = Real.sin φ * gradient x.length (at_ x) (arcLength (at_ x) (at_ y)) i
        + σ * Real.cos φ * gradient x.length (at_ y) (arcLength (at_ x) (at_ y)) i + 0 := by
    intro i hi
    rw [gradient_congr hn (fun k hk => at_mapY h hk) (fun k hk => arcLength_map h hρ hσ hk) hi, gradient_lin hn inc hρ _ _ _ hi]
    field_simp
    ring
  refine ⟨by rw [gx i hi]; ring, by rw [gy i hi]; ring, ?_⟩
  unfold curvatureOf
  dsimp only
  rw [gradient_congr hn gx (fun k hk => arcLength_map h hρ hσ hk) hi, gradient_congr hn gy (fun k hk => arcLength_map h hρ hσ hk) hi,
    gradient_lin hn inc hρ _ _ _ hi, gradient_lin hn inc hρ _ _ _ hi, gx i hi, gy i hi]
  obtain ⟨a, ha⟩ : ∃ a, a = gradient x.length (at_ x) (arcLength (at_ x) (at_ y)) := ⟨_, rfl⟩
  obtain ⟨b, hb⟩ : ∃ b, b = gradient x.length (at_ y) (arcLength (at_ x) (at_ y)) := ⟨_, rfl⟩
  rw [← ha, ← hb]
  have e : (Real.cos φ * a i + -(σ * Real.sin φ) * b i + 0) * (Real.cos φ * a i + -(σ * Real.sin φ) * b i + 0)
      + (Real.sin φ * a i + σ * Real.cos φ * b i + 0) * (Real.sin φ * a i + σ * Real.cos φ * b i + 0) = a i * a i + b i * b i := by
    linear_combination (a i ^ 2 + σ ^ 2 * b i ^ 2) * Real.sin_sq_add_cos_sq φ + b i ^ 2 * hσ
  rw [e]
  obtain ⟨A, hA⟩ : ∃ A, A = gradient x.length a (arcLength (at_ x) (at_ y)) i := ⟨_, rfl⟩
  obtain ⟨B, hB⟩ : ∃ B, B = gradient x.length b (arcLength (at_ x) (at_ y)) i := ⟨_, rfl⟩
  rw [← hA, ← hB]
  have e2 : (Real.cos φ * a i + -(σ * Real.sin φ) * b i + 0) * ((Real.sin φ * A + σ * Real.cos φ * B) / ρ)
      - (Real.cos φ * A + -(σ * Real.sin φ) * B) / ρ * (Real.sin φ * a i + σ * Real.cos φ * b i + 0)
      = σ / ρ * (a i * B - A * b i) := by
    linear_combination (σ / ρ * (a i * B - A * b i)) * Real.sin_sq_add_cos_sq φ
  rw [e2, mul_div_assoc]

/-- The direction of a mapped vector. -/
theorem arctan2_map {a b : ℝ} (h : a ≠ 0 ∨ b ≠ 0) (hσ : σ = 1 ∨ σ = -1) :
    ∃ k : ℤ, arctan2 (Real.sin φ * a + σ * Real.cos φ * b) (Real.cos φ * a - σ * Real.sin φ * b)
      = σ * arctan2 b a + (φ + 2 * Real.pi * k) := by
  have main (a b : ℝ) (h : a ≠ 0 ∨ b ≠ 0) : ((arctan2 (Real.sin φ * a + Real.cos φ * b) (Real.cos φ * a - Real.sin φ * b) : ℝ) : Real.Angle)
      = (φ : Real.Angle) + (arctan2 b a : ℝ) := by
    have hz : (⟨a, b⟩ : ℂ) ≠ 0 := by
      intro h'
      have h1 := congrArg Complex.re h'
      have h2 := congrArg Complex.im h'
      simp at h1 h2
      tauto
    have hw : (Complex.cos φ + Complex.sin φ * Complex.I : ℂ) ≠ 0 := by
      rw [← Complex.exp_mul_I]; exact Complex.exp_ne_zero _
    unfold arctan2
    have e : (⟨Real.cos φ * a - Real.sin φ * b, Real.sin φ * a + Real.cos φ * b⟩ : ℂ)
        = (Complex.cos φ + Complex.sin φ * Complex.I) * ⟨a, b⟩ := by
      apply Complex.ext <;> simp [Complex.cos_ofReal_re, Complex.sin_ofReal_re, Complex.cos_ofReal_im, Complex.sin_ofReal_im]
      ring
    rw [e, Complex.arg_mul_coe_angle hw hz]
    congr 1
    have := Complex.arg_cos_add_sin_mul_I_coe_angle (φ : Real.Angle)
    simpa using this
  rcases hσ with rfl | rfl
  · have := main a b h
    rw [← Real.Angle.coe_add, Real.Angle.angle_eq_iff_two_pi_dvd_sub] at this
    obtain ⟨k, hk⟩ := this
    refine ⟨k, ?_⟩
    rw [one_mul, one_mul, one_mul]
    linarith
  · have := main a (-b) (by simpa using h)
    have c : (arctan2 (-b) a : Real.Angle) = ((-arctan2 b a : ℝ) : Real.Angle) := by
      have := Complex.arg_conj_coe_angle ⟨a, b⟩
      rw [Real.Angle.coe_neg]
      exact this
    rw [c, ← Real.Angle.coe_add, Real.Angle.angle_eq_iff_two_pi_dvd_sub] at this
    obtain ⟨k, hk⟩ := this
    refine ⟨k, ?_⟩
    have e1 : Real.sin φ * a + -1 * Real.cos φ * b = Real.sin φ * a + Real.cos φ * -b := by ring
    have e2 : Real.cos φ * a - -1 * Real.sin φ * b = Real.cos φ * a - Real.sin φ * -b := by ring
    rw [e1, e2]
    linarith

theorem first_ne {x y : List ℝ} (h : x.length = y.length) (hn : 2 ≤ x.length) (hd : Distinct x y) :
    gradient x.length (at_ x) (arcLength (at_ x) (at_ y)) 0 ≠ 0 ∨ gradient x.length (at_ y) (arcLength (at_ x) (at_ y)) 0 ≠ 0 := by
  have inc := (arcLength_inc h hd).lt (Nat.zero_lt_one) (by rw [length_arr]; omega)
  rw [at_arr (by omega), at_arr (by omega)] at inc
  have s0 : arcLength (at_ x) (at_ y) 1 - arcLength (at_ x) (at_ y) 0 ≠ 0 := by linarith
  unfold gradient
  rw [if_pos rfl, if_pos rfl]
  rcases hd 0 (by omega) (by omega) with g | g
  · left
    refine div_ne_zero (sub_ne_zero.mpr ?_) s0
    rw [at_eq (by omega), at_eq (by omega)]; exact g.symm
  · right
    refine div_ne_zero (sub_ne_zero.mpr ?_) s0
    rw [at_eq (by omega), at_eq (by omega)]; exact g.symm

theorem cartesian_mk {x y : List ℝ} (hl : x.length = y.length) (hn : 2 ≤ x.length) (l r : Option (List ℝ)) :
    RaceTrack.fromCartesian x y l r = RaceTrack.mk' x y (arr x.length (arcLength (at_ x) (at_ y)))
      (arr x.length (curvatureOf x.length (at_ x) (at_ y) (arcLength (at_ x) (at_ y))))
      (arr x.length (headingOf x.length (at_ x) (at_ y) (arcLength (at_ x) (at_ y))
        (curvatureOf x.length (at_ x) (at_ y) (arcLength (at_ x) (at_ y))))) l r := by
  unfold RaceTrack.fromCartesian cartesianToCurvilinear
  rw [if_neg (by omega), if_neg (by omega)]
  rfl

theorem mk_ok {x y s κ θ x' y' s' κ' θ' : List ℝ} {l r : Option (List ℝ)} {t : RaceTrack}
    (h : RaceTrack.mk' x y s κ θ l r = .ok t) (hs : s'.length = s.length) (hκ : κ'.length = κ.length) :
    RaceTrack.mk' x' y' s' κ' θ' l r = .ok ⟨s'.map fun v => v - at_ s' 0, κ', θ', x', y', l.getD (s'.map fun _ => 1 * 5),
      r.getD (s'.map fun _ => 1 * 5)⟩ := by
  unfold RaceTrack.mk' at h ⊢
  dsimp only at h ⊢
  split_ifs at h with g1 g2 g3
  rw [if_neg, if_neg, if_neg (by omega)]
  · refine (not_not.mpr ?_)
    unfold Broadcast at g2 ⊢
    cases r <;> simpa [hs, hκ] using g2
  · refine (not_not.mpr ?_)
    unfold Broadcast at g1 ⊢
    cases l <;> simpa [hs, hκ] using g1

/-- **C65.** Scaling, reflecting, rotating and shifting the points of a track scales its length, divides its curvature by the
scale, rotates its heading (up to whole turns) and mirrors both when the points are mirrored. -/
theorem C65_similarity {l r : Option (List ℝ)} {t : RaceTrack} (h : RaceTrack.fromCartesian x y l r = .ok t) (hd : Distinct x y)
    (hρ : 0 < ρ) (hσ : σ = 1 ∨ σ = -1) :
    ∃ t', RaceTrack.fromCartesian (mapX ρ σ φ b1 x y) (mapY ρ σ φ b2 x y) l r = .ok t' ∧
      t'.totalDistance = ρ * t.totalDistance ∧
      (∀ s κ, t.curvatureAt s = .ok κ → t'.curvatureAt (ρ * s) = .ok (σ * κ / ρ)) ∧
      (∃ turns : ℤ, ∀ s θ, t.headingAt s = .ok θ → t'.headingAt (ρ * s) = .ok (σ * θ + φ + 2 * Real.pi * turns)) ∧
      (∀ s d, t.leftDistanceAt s = .ok d → t'.leftDistanceAt (ρ * s) = .ok d) ∧
      (∀ s d, t.rightDistanceAt s = .ok d → t'.rightDistanceAt (ρ * s) = .ok d) := by
  obtain ⟨hl, hn, h⟩ := cartesian_inv h
  have hσ2 : σ ^ 2 = 1 := by rcases hσ with rfl | rfl <;> norm_num
  have lX : (mapX ρ σ φ b1 x y).length = x.length := by simp [mapX]; omega
  have lY : (mapY ρ σ φ b2 x y).length = x.length := by simp [mapY]; omega
  obtain ⟨k, hk⟩ := arctan2_map (φ := φ) (first_ne hl hn hd) hσ
  have K (i : ℕ) (hi : i < x.length) := curvature_map (b1 := b1) (b2 := b2) (φ := φ) hl hn hd hρ hσ2 hi
  have inc := arcLength_inc hl hd
  have step := (cartesian_mk (lX.trans lY.symm) (lX.symm ▸ hn) l r).trans
    (mk_ok (x' := mapX ρ σ φ b1 x y) (y' := mapY ρ σ φ b2 x y)
      (s' := arr (mapX ρ σ φ b1 x y).length (arcLength (at_ (mapX ρ σ φ b1 x y)) (at_ (mapY ρ σ φ b2 x y))))
      (κ' := arr (mapX ρ σ φ b1 x y).length (curvatureOf (mapX ρ σ φ b1 x y).length (at_ (mapX ρ σ φ b1 x y))
        (at_ (mapY ρ σ φ b2 x y)) (arcLength (at_ (mapX ρ σ φ b1 x y)) (at_ (mapY ρ σ φ b2 x y)))))
      (θ' := arr (mapX ρ σ φ b1 x y).length (headingOf (mapX ρ σ φ b1 x y).length (at_ (mapX ρ σ φ b1 x y))
        (at_ (mapY ρ σ φ b2 x y)) (arcLength (at_ (mapX ρ σ φ b1 x y)) (at_ (mapY ρ σ φ b2 x y)))
        (curvatureOf (mapX ρ σ φ b1 x y).length (at_ (mapX ρ σ φ b1 x y)) (at_ (mapY ρ σ φ b2 x y))
          (arcLength (at_ (mapX ρ σ φ b1 x y)) (at_ (mapY ρ σ φ b2 x y)))))) h
      (by rw [length_arr, length_arr, lX]) (by rw [length_arr, length_arr, lX]))
  obtain ⟨h0, rfl⟩ := mk_inv h
  have z : at_ (arr x.length (arcLength (at_ x) (at_ y))) 0 = 0 := by
    rw [at_arr (by omega)]; simp [arcLength, cumsum0]
  have z' : at_ (arr (mapX ρ σ φ b1 x y).length (arcLength (at_ (mapX ρ σ φ b1 x y)) (at_ (mapY ρ σ φ b2 x y)))) 0 = 0 := by
    rw [at_arr (by omega)]; simp [arcLength, cumsum0]
  simp only [z, z', sub_zero, List.map_id'] at step ⊢
  rw [lX] at step
  have ex : ∀ i < (arr x.length (arcLength (at_ x) (at_ y))).length,
      at_ (arr x.length (arcLength (at_ (mapX ρ σ φ b1 x y)) (at_ (mapY ρ σ φ b2 x y)))) i
        = ρ * at_ (arr x.length (arcLength (at_ x) (at_ y))) i := by
    intro i hi
    rw [length_arr] at hi
    rw [at_arr hi, at_arr hi, arcLength_map hl hρ hσ2 hi]
  have widths (o : Option (List ℝ)) (s d : ℝ)
      (hs : interp (arr x.length (arcLength (at_ x) (at_ y))) (o.getD ((arr x.length (arcLength (at_ x) (at_ y))).map fun _ => 1 * 5)) s
        = .ok d) :
      interp (arr x.length (arcLength (at_ (mapX ρ σ φ b1 x y)) (at_ (mapY ρ σ φ b2 x y))))
        (o.getD ((arr x.length (arcLength (at_ (mapX ρ σ φ b1 x y)) (at_ (mapY ρ σ φ b2 x y)))).map fun _ => 1 * 5)) (ρ * s)
        = .ok d := by
    have len : (arr x.length (arcLength (at_ x) (at_ y))).length
        = (o.getD ((arr x.length (arcLength (at_ x) (at_ y))).map fun _ => 1 * 5)).length := by
      by_contra hc
      unfold interp at hs
      rw [if_pos (Or.inl hc)] at hs
      cases hs
    have := interp_scale (α := 1) (β := 0) inc len h0 (by rw [length_arr, length_arr])
      (fp' := o.getD ((arr x.length (arcLength (at_ (mapX ρ σ φ b1 x y)) (at_ (mapY ρ σ φ b2 x y)))).map fun _ => 1 * 5))
      (by cases o <;> simp [length_arr]) hρ ex ?_ hs
    · simpa using this
    · intro i hi
      rw [add_zero]
      cases o with
      | some w => exact (one_mul _).symm
      | none =>
        rw [length_arr] at hi
        rw [at_eq (by simpa [length_arr] using hi), at_eq (by simpa [length_arr] using hi)]
        simp
  refine ⟨_, step, ?_, ?_, ⟨k, ?_⟩, ?_, ?_⟩
  · unfold RaceTrack.totalDistance
    simp only [length_arr]
    rw [at_arr (by omega), at_arr (by omega), arcLength_map hl hρ hσ2 (by omega)]
  · intro s κ hκ
    have := interp_scale (α := σ / ρ) (β := 0) inc (by rw [length_arr, length_arr]) h0
      (xp' := arr x.length (arcLength (at_ (mapX ρ σ φ b1 x y)) (at_ (mapY ρ σ φ b2 x y))))
      (fp' := arr x.length (curvatureOf x.length (at_ (mapX ρ σ φ b1 x y)) (at_ (mapY ρ σ φ b2 x y))
        (arcLength (at_ (mapX ρ σ φ b1 x y)) (at_ (mapY ρ σ φ b2 x y)))))
      (by rw [length_arr, length_arr]) (by rw [length_arr, length_arr]) hρ ex ?_ hκ
    · rw [add_zero, div_mul_eq_mul_div] at this
      exact this
    · intro i hi
      rw [length_arr] at hi
      rw [at_arr hi, at_arr hi, (K i hi).2.2, add_zero]
  · intro s θ hθ
    have := interp_scale (α := σ) (β := φ + 2 * Real.pi * k) inc (by rw [length_arr, length_arr]) h0
      (xp' := arr x.length (arcLength (at_ (mapX ρ σ φ b1 x y)) (at_ (mapY ρ σ φ b2 x y))))
      (fp' := arr x.length (headingOf x.length (at_ (mapX ρ σ φ b1 x y)) (at_ (mapY ρ σ φ b2 x y))
        (arcLength (at_ (mapX ρ σ φ b1 x y)) (at_ (mapY ρ σ φ b2 x y)))
        (curvatureOf x.length (at_ (mapX ρ σ φ b1 x y)) (at_ (mapY ρ σ φ b2 x y))
          (arcLength (at_ (mapX ρ σ φ b1 x y)) (at_ (mapY ρ σ φ b2 x y))))))
      (by rw [length_arr, length_arr]) (by rw [length_arr, length_arr]) hρ ex ?_ hθ
    · rw [← add_assoc] at this
      exact this
    · intro i hi
      rw [length_arr] at hi
      rw [at_arr hi, at_arr hi]
      unfold headingOf
      rw [(K 0 (by omega)).1, (K 0 (by omega)).2.1, hk, mul_add, ← add_assoc]
      congr 2
      unfold trapz cumsum0
      rw [mul_sum]
      apply sum_congr rfl
      intro m hm
      have := mem_range.mp hm
      unfold diff
      dsimp only
      rw [(K m (by omega)).2.2, (K (m + 1) (by omega)).2.2, arcLength_map hl hρ hσ2 (by omega), arcLength_map hl hρ hσ2 (by omega)]
      field_simp
  · intro s d hs; exact widths l s d hs
  · intro s d hs; exact widths r s d hs

end

end Lumos.Track
