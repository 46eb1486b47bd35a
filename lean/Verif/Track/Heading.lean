import Verif.Track.Lookup
/-!
# Heading against curvature (C64)
-/

namespace Lumos.Track

open Lumos Finset

theorem integral_linear (m c a v : ℝ) : ∫ u in a..v, (m * (u - a) + c) = m * (v - a) ^ 2 / 2 + c * (v - a) := by
  rw [intervalIntegral.integral_eq_sub_of_hasDerivAt (f := fun u => m * (u - a) ^ 2 / 2 + c * (u - a))]
  · simp
  · intro u _
    have h1 : HasDerivAt (fun u => u - a) 1 u := (hasDerivAt_id u).sub_const a
    have := (((h1.fun_pow 2).const_mul m).div_const 2).fun_add (h1.const_mul c)
    refine this.congr_deriv ?_
    push_cast
    ring
  · exact Continuous.intervalIntegrable (by fun_prop) _ _

theorem integral_seg {xp fp : List ℝ} (hx : Inc xp) {j : ℕ} (hj : j + 1 < xp.length) {v : ℝ} (h1 : at_ xp j ≤ v) (h2 : v ≤ at_ xp (j + 1)) :
    ∫ u in at_ xp j..v, poly xp fp u = (at_ fp (j + 1) - at_ fp j) / (at_ xp (j + 1) - at_ xp j) * (v - at_ xp j) ^ 2 / 2
      + at_ fp j * (v - at_ xp j) := by
  rw [← integral_linear]
  apply intervalIntegral.integral_congr
  intro u hu
  rw [Set.uIcc_of_le h1] at hu
  exact poly_seg hx hj hu.1 (hu.2.trans h2)

theorem integral_nodes {xp fp : List ℝ} (hx : Inc xp) {i : ℕ} (hi : i < xp.length) :
    ∫ u in at_ xp 0..at_ xp i, poly xp fp u = trapz (at_ fp) (at_ xp) i := by
  induction i with
  | zero => simp [trapz, cumsum0]
  | succ i ih =>
    have int (a b : ℝ) : IntervalIntegrable (poly xp fp) MeasureTheory.volume a b := (poly_continuous xp fp).intervalIntegrable a b
    rw [← intervalIntegral.integral_add_adjacent_intervals (int _ (at_ xp i)) (int _ _), ih (by omega),
      integral_seg hx hi (hx.lt (Nat.lt_succ_self i) hi).le le_rfl]
    have := hx.lt (Nat.lt_succ_self i) hi
    have : at_ xp (i + 1) - at_ xp i ≠ 0 := by linarith
    unfold trapz cumsum0 diff
    rw [sum_range_succ]
    field_simp
    ring

theorem trapz_shift {s : List ℝ} (c : ℝ) (f : ℕ → ℝ) {i : ℕ} (hi : i < s.length) :
    trapz f (at_ (s.map fun v => v - c)) i = trapz f (at_ s) i := by
  unfold trapz cumsum0
  apply sum_congr rfl
  intro k hk
  have := mem_range.mp hk
  unfold diff
  dsimp only
  rw [at_shift _ (by omega), at_shift _ (by omega), at_eq (by omega), at_eq (by omega)]
  ring

/-- Specification: the heading turns by the integral of the curvature, exactly at the nodes and within the curvature's variation
between them. -/
def Turns (nodes : List ℝ) (κ θ : ℝ → ℝ) : Prop :=
  (∀ v ∈ nodes, θ v = θ 0 + ∫ u in 0..v, κ u) ∧
  ∀ i (hi : i + 1 < nodes.length) (v : ℝ), nodes[i] ≤ v → v ≤ nodes[i + 1] →
    |θ v - (θ 0 + ∫ u in 0..v, κ u)| ≤ |κ nodes[i + 1] - κ nodes[i]| * (nodes[i + 1] - nodes[i]) / 8

theorem turns {s κ θ : List ℝ} (hs : Inc s) (h0 : 0 < s.length) (hκ : s.length = κ.length) (hθ : s.length = θ.length) {c : ℝ}
    (e : ∀ i, i < s.length → at_ θ i = trapz (at_ κ) (at_ s) i + c) :
    Turns (s.map fun v => v - at_ s 0) (poly (s.map fun v => v - at_ s 0) κ) (poly (s.map fun v => v - at_ s 0) θ) := by
  obtain ⟨X, hX⟩ : ∃ X, X = s.map fun v => v - at_ s 0 := ⟨_, rfl⟩
  have hx : Inc X := hX ▸ hs.shift _
  have hl : X.length = s.length := by simp [hX]
  have z : at_ X 0 = 0 := by rw [hX, at_shift _ h0, at_eq h0, sub_self]
  have node (fp : List ℝ) (hf : X.length = fp.length) (i : ℕ) (hi : i < X.length) : poly X fp (at_ X i) = at_ fp i := by
    have := (poly_eq hx hf (by omega) (at_ X i)).symm.trans (interp_node hx hf hi)
    exact Except.ok.inj this
  rw [← hX]
  have t (i : ℕ) (hi : i < X.length) : at_ θ i = trapz (at_ κ) (at_ X) i + c := by
    rw [hX, trapz_shift _ _ (by omega)]; exact e i (by omega)
  have t0 : poly X θ 0 = c := by
    have := node θ (by omega) 0 (by omega)
    rw [z] at this
    rw [this, t 0 (by omega)]; simp [trapz, cumsum0]
  have N (i : ℕ) (hi : i < X.length) : poly X θ (at_ X i) = poly X θ 0 + ∫ u in 0..at_ X i, poly X κ u := by
    rw [node θ (by omega) i hi, t0, t i hi, ← integral_nodes hx hi, z]; ring
  constructor
  · intro v hv
    obtain ⟨i, hi, rfl⟩ := List.mem_iff_getElem.mp hv
    rw [← at_eq hi]; exact N i hi
  · intro i hi v h1 h2
    rw [← at_eq (by omega)] at h1
    rw [← at_eq hi] at h2
    rw [← at_eq hi, ← at_eq (show i < X.length by omega), node κ (by omega) i (by omega), node κ (by omega) (i + 1) hi]
    have int (a b : ℝ) : IntervalIntegrable (poly X κ) MeasureTheory.volume a b := (poly_continuous X κ).intervalIntegrable a b
    have lt := hx.lt (Nat.lt_succ_self i) hi
    rw [← intervalIntegral.integral_add_adjacent_intervals (int 0 (at_ X i)) (int _ v), integral_seg hx hi h1 h2,
      poly_seg hx hi h1 h2]
    have eN := N i (by omega)
    rw [node θ (by omega) i (by omega)] at eN
    have eN' : poly X θ 0 + ∫ u in 0..at_ X i, poly X κ u = at_ θ i := eN.symm
    have es : at_ θ (i + 1) - at_ θ i = (at_ κ i + at_ κ (i + 1)) / 2 * (at_ X (i + 1) - at_ X i) := by
      rw [t (i + 1) hi, t i (by omega)]
      unfold trapz cumsum0
      rw [sum_range_succ]
      unfold diff
      ring
    obtain ⟨d, hd⟩ : ∃ d, d = v - at_ X i := ⟨_, rfl⟩
    obtain ⟨w, hw⟩ : ∃ w, w = at_ X (i + 1) - at_ X i := ⟨_, rfl⟩
    have w0 : 0 < w := by linarith
    have d0 : 0 ≤ d := by linarith
    have dw : d ≤ w := by linarith
    rw [← add_assoc, eN', es, ← hd, ← hw]
    have : (at_ κ i + at_ κ (i + 1)) / 2 * w / w * d + at_ θ i
        - (at_ θ i + ((at_ κ (i + 1) - at_ κ i) / w * d ^ 2 / 2 + at_ κ i * d))
        = (at_ κ (i + 1) - at_ κ i) * (d * (w - d) / (2 * w)) := by
      field_simp
      ring
    rw [this, abs_mul, mul_div_assoc (|at_ κ (i + 1) - at_ κ i|)]
    apply mul_le_mul_of_nonneg_left _ (abs_nonneg _)
    rw [abs_of_nonneg (by have := sub_nonneg.mpr dw; positivity), div_le_div_iff₀ (by positivity) (by norm_num)]
    nlinarith [sq_nonneg (w - 2 * d)]

/-- **C64.** The heading of a track from points turns with its curvature. -/
theorem C64_cartesian {x y : List ℝ} {l r : Option (List ℝ)} {t : RaceTrack} (h : RaceTrack.fromCartesian x y l r = .ok t)
    (hd : Distinct x y) :
    ∃ κ θ : ℝ → ℝ, (∀ s, t.curvatureAt s = .ok (κ s)) ∧ (∀ s, t.headingAt s = .ok (θ s)) ∧ Continuous κ ∧ Continuous θ ∧
      Turns t.s κ θ := by
  obtain ⟨hl, hn, h⟩ := cartesian_inv h
  obtain ⟨h0, rfl⟩ := mk_inv h
  have hs := arcLength_inc hl hd
  refine ⟨_, _, poly_eq (hs.shift _) (by simp [length_arr]) (by simpa using h0),
    poly_eq (hs.shift _) (by simp [length_arr]) (by simpa using h0), poly_continuous _ _, poly_continuous _ _, ?_⟩
  refine turns hs h0 (by simp [length_arr]) (by simp [length_arr])
    (c := arctan2 (gradient x.length (at_ y) (arcLength (at_ x) (at_ y)) 0)
      (gradient x.length (at_ x) (arcLength (at_ x) (at_ y)) 0)) ?_
  intro i hi
  rw [length_arr] at hi
  rw [at_arr hi, headingOf]
  congr 1
  unfold trapz cumsum0
  apply sum_congr rfl
  intro k hk
  have := mem_range.mp hk
  unfold diff
  dsimp only
  rw [at_arr (by omega), at_arr (by omega), at_arr (by omega), at_arr (by omega)]

theorem curvilinear_inv {s κ : List ℝ} {c : ℝ} {l r : Option (List ℝ)} {t : RaceTrack}
    (h : RaceTrack.fromCurvilinear s κ c l r = .ok t) :
    s.length = κ.length ∧ 0 < s.length ∧
    RaceTrack.mk' (arr s.length fun i => trapz (fun k => Real.cos (trapz (at_ κ) (at_ s) k + c)) (at_ s) i + 0)
      (arr s.length fun i => trapz (fun k => Real.sin (trapz (at_ κ) (at_ s) k + c)) (at_ s) i + 0) s κ
      (arr s.length fun i => trapz (at_ κ) (at_ s) i + c) l r = .ok t := by
  unfold RaceTrack.fromCurvilinear curvilinearToCartesian at h
  split_ifs at h with h1
  · cases h
  · have h' := h
    simp only [bind, Except.bind] at h'
    have h0 := (mk_inv h').1
    rw [max_eq_left (by omega)] at h'
    exact ⟨not_not.mp h1, h0, h'⟩

/-- **C64.** The heading of a track from a curvature profile turns with the given curvature and starts at the given heading. -/
theorem C64_curvilinear {s κ : List ℝ} {c : ℝ} {l r : Option (List ℝ)} {t : RaceTrack}
    (h : RaceTrack.fromCurvilinear s κ c l r = .ok t) (hs : Inc s) :
    IsLookup s κ t.curvatureAt ∧ t.headingAt 0 = .ok c ∧
    ∃ k θ : ℝ → ℝ, (∀ s, t.curvatureAt s = .ok (k s)) ∧ (∀ s, t.headingAt s = .ok (θ s)) ∧ Continuous k ∧ Continuous θ ∧
      Turns t.s k θ := by
  obtain ⟨hl, h0, h⟩ := curvilinear_inv h
  have L := C63_lookup h hs hl (by simp [length_arr])
  obtain ⟨-, rfl⟩ := mk_inv h
  refine ⟨L.1, ?_, _, _, poly_eq (hs.shift _) (by simp [hl]) (by simpa using h0),
    poly_eq (hs.shift _) (by simp [length_arr]) (by simpa using h0), poly_continuous _ _, poly_continuous _ _,
    turns hs h0 hl (by simp [length_arr]) fun i hi => at_arr hi⟩
  have := L.2.1.nodes 0 h0 (by rwa [length_arr])
  rw [sub_self, getElem_arr] at this
  simpa [trapz, cumsum0] using this

/-- **C64.** The heading of a track of constant curvature has that curvature as its derivative. -/
theorem C64_constant (t : ConstCurvTrack) (s : ℝ) : HasDerivAt t.headingAt (t.curvatureAt s) s := by
  have := ((hasDerivAt_id s).const_mul t.curvature).const_add t.start_heading
  rw [mul_one] at this
  exact this

end Lumos.Track
