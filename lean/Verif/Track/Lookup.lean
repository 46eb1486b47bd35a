import Verif.Track.Interp
import Mathlib.Analysis.SpecialFunctions.Integrals.Basic
import Mathlib.MeasureTheory.Integral.IntervalIntegral.FundThmCalculus
/-!
# Lookups (C63) and heading against curvature (C64)
-/

namespace Lumos.Track

open Lumos Finset

/-- Specification: `f` looks up, by distance from the start, the data given at the distances `s`. -/
structure IsLookup (s data : List ℝ) (f : ℝ → Py ℝ) : Prop where
  nodes : ∀ i (hi : i < s.length) (hd : i < data.length), f (s[i] - s[0]) = .ok data[i]
  between : ∀ i (hi : i + 1 < s.length) (hd : i + 1 < data.length) (w : ℝ), 0 ≤ w → w ≤ 1 →
    f ((1 - w : ℝ) * (s[i] - s[0]) + w * (s[i + 1] - s[0])) = .ok ((1 - w : ℝ) * data[i] + w * data[i + 1])
  before : ∀ v ≤ 0, f v = f 0
  after : ∀ (h : 0 < s.length) (v : ℝ), s[s.length - 1] - s[0] ≤ v → f v = f (s[s.length - 1] - s[0])
  continuous : ∃ g : ℝ → ℝ, (∀ v, f v = .ok (g v)) ∧ Continuous g
  range : ∀ a b, (∀ d ∈ data, a ≤ d ∧ d ≤ b) → ∀ v, ∃ d, f v = .ok d ∧ a ≤ d ∧ d ≤ b

theorem at_shift {s : List ℝ} (c : ℝ) {i : ℕ} (hi : i < s.length) : at_ (s.map fun v => v - c) i = s[i] - c := by
  rw [at_eq (by simpa using hi)]; simp

theorem Inc.shift {s : List ℝ} (h : Inc s) (c : ℝ) : Inc (s.map fun v => v - c) :=
  List.Pairwise.map _ (fun _ _ hab => sub_lt_sub_right hab c) h

theorem isLookup {s data : List ℝ} (hs : Inc s) (h0 : 0 < s.length) (hl : s.length = data.length) :
    IsLookup s data (interp (s.map fun v => v - at_ s 0) data) := by
  have e0 : at_ s 0 = s[0] := at_eq h0
  have hx := hs.shift (at_ s 0)
  have hl' : (s.map fun v => v - at_ s 0).length = data.length := by simpa using hl
  have h0' : 0 < (s.map fun v => v - at_ s 0).length := by simpa using h0
  refine ⟨?_, ?_, ?_, ?_, ⟨_, poly_eq hx hl' h0', poly_continuous _ _⟩, ?_⟩
  · intro i hi hd
    have := interp_node hx hl' (i := i) (by simpa using hi)
    rw [at_shift _ hi, at_eq hd] at this
    rw [← e0]; exact this
  · intro i hi hd w hw0 hw1
    have hlt := hx.lt (Nat.lt_succ_self i) (show i + 1 < _ by simpa using hi)
    rw [at_shift _ hi, at_shift _ (by omega), e0] at hlt
    obtain ⟨v, hv⟩ : ∃ v : ℝ, v = (1 - w : ℝ) * (s[i] - s[0]) + w * (s[i + 1] - s[0]) := ⟨_, rfl⟩
    have := poly_seg (fp := data) hx (j := i) (by simpa using hi) (v := v)
      (by rw [at_shift _ (by omega), e0, hv]; nlinarith [mul_nonneg hw0 (sub_nonneg.mpr hlt.le)])
      (by rw [at_shift _ hi, e0, hv]; nlinarith [mul_nonneg (sub_nonneg.mpr hw1) (sub_nonneg.mpr hlt.le)])
    rw [← hv, poly_eq hx hl' h0', this, hv]
    rw [at_shift _ hi, at_shift _ (by omega), at_eq hd, at_eq (by omega), e0]
    congr 1
    have : s[i + 1] - s[0] - (s[i] - s[0]) ≠ 0 := by linarith
    field_simp
    ring
  · intro v hv
    have z : at_ (s.map fun v => v - at_ s 0) 0 = 0 := by rw [at_shift _ h0, e0, sub_self]
    rw [interp_left hx hl' h0' (z ▸ hv), interp_left hx hl' h0' z.ge]
  · intro _ v hv
    have z : at_ (s.map fun v => v - at_ s 0) ((s.map fun v => v - at_ s 0).length - 1) = s[s.length - 1] - s[0] := by
      rw [List.length_map, at_shift _ (by omega), e0]
    rw [interp_right hx hl' h0' (z ▸ hv), interp_right hx hl' h0' z.le]
  · intro a b hab v
    exact ⟨_, poly_eq hx hl' h0' v, interp_between hx (poly_eq hx hl' h0' v) hab⟩

theorem mk_inv {x y s κ θ : List ℝ} {l r : Option (List ℝ)} {t : RaceTrack} (h : RaceTrack.mk' x y s κ θ l r = .ok t) :
    0 < s.length ∧ t = ⟨s.map fun v => v - at_ s 0, κ, θ, x, y, l.getD (s.map fun _ => 1 * 5), r.getD (s.map fun _ => 1 * 5)⟩ := by
  unfold RaceTrack.mk' at h
  dsimp only at h
  split_ifs at h with h1 h2 h3
  cases h
  exact ⟨by omega, rfl⟩

theorem lookup_const {s : List ℝ} (hs : Inc s) (h0 : 0 < s.length) (c v : ℝ) :
    interp (s.map fun v => v - at_ s 0) (s.map fun _ => c) v = .ok c := by
  have L := isLookup (data := s.map fun _ => c) hs h0 (by simp)
  obtain ⟨d, h, h1, h2⟩ := L.range c c (by simp) v
  rw [h, le_antisymm h2 h1]

/-- **C63.** Every lookup of a track reads the data it was given by the distance from the start: exactly at the nodes, linearly
between them, the first value before the start and the last value after the end. -/
theorem C63_lookup {x y s κ θ : List ℝ} {l r : Option (List ℝ)} {t : RaceTrack} (h : RaceTrack.mk' x y s κ θ l r = .ok t)
    (hs : Inc s) (hκ : s.length = κ.length) (hθ : s.length = θ.length) :
    IsLookup s κ t.curvatureAt ∧ IsLookup s θ t.headingAt ∧
    (∀ L, l = some L → s.length = L.length → IsLookup s L t.leftDistanceAt) ∧
    (∀ R, r = some R → s.length = R.length → IsLookup s R t.rightDistanceAt) ∧
    (l = none → ∀ v, t.leftDistanceAt v = .ok 5) ∧ (r = none → ∀ v, t.rightDistanceAt v = .ok 5) ∧
    ∃ h0 : 0 < s.length, t.totalDistance = s[s.length - 1] - s[0] := by
  obtain ⟨h0, rfl⟩ := mk_inv h
  refine ⟨isLookup hs h0 hκ, isLookup hs h0 hθ, ?_, ?_, ?_, ?_, h0, ?_⟩
  · rintro L rfl hL; exact isLookup hs h0 hL
  · rintro R rfl hR; exact isLookup hs h0 hR
  · rintro rfl v
    have := lookup_const hs h0 (1 * 5) v
    rw [one_mul] at this
    simpa [RaceTrack.leftDistanceAt] using this
  · rintro rfl v
    have := lookup_const hs h0 (1 * 5) v
    rw [one_mul] at this
    simpa [RaceTrack.rightDistanceAt] using this
  · unfold RaceTrack.totalDistance
    simp only [List.length_map]
    rw [at_shift _ (by omega), at_eq h0]

theorem length_arr (n : ℕ) (f : ℕ → ℝ) : (arr n f).length = n := by simp [arr]

theorem at_arr {n : ℕ} {f : ℕ → ℝ} {i : ℕ} (h : i < n) : at_ (arr n f) i = f i := by
  rw [at_eq (by rwa [length_arr])]; simp [arr]

theorem getElem_arr {n : ℕ} {f : ℕ → ℝ} {i : ℕ} (h : i < (arr n f).length) : (arr n f)[i] = f i := by simp [arr]

theorem cartesian_inv {x y : List ℝ} {l r : Option (List ℝ)} {t : RaceTrack} (h : RaceTrack.fromCartesian x y l r = .ok t) :
    x.length = y.length ∧ 2 ≤ x.length ∧
    RaceTrack.mk' x y (arr x.length (arcLength (at_ x) (at_ y)))
      (arr x.length (curvatureOf x.length (at_ x) (at_ y) (arcLength (at_ x) (at_ y))))
      (arr x.length (headingOf x.length (at_ x) (at_ y) (arcLength (at_ x) (at_ y))
        (curvatureOf x.length (at_ x) (at_ y) (arcLength (at_ x) (at_ y))))) l r = .ok t := by
  unfold RaceTrack.fromCartesian cartesianToCurvilinear at h
  split_ifs at h with h1 h2
  · cases h
  · cases h
  · exact ⟨not_not.mp h1, by omega, h⟩

/-- Consecutive points are different. -/
def Distinct (x y : List ℝ) : Prop :=
  ∀ i (h : i + 1 < x.length) (h' : i + 1 < y.length), x[i] ≠ x[i + 1] ∨ y[i] ≠ y[i + 1]

theorem step_pos {x y : List ℝ} (hd : Distinct x y) {i : ℕ} (h : i + 1 < x.length) (h' : i + 1 < y.length) :
    0 < Real.sqrt (diff (at_ x) i ^ 2 + diff (at_ y) i ^ 2) := by
  apply Real.sqrt_pos.mpr
  unfold diff
  rw [at_eq h, at_eq h', at_eq (by omega), at_eq (by omega)]
  rcases hd i h h' with g | g
  · have : 0 < (x[i + 1] - x[i]) ^ 2 := by
      have : x[i + 1] - x[i] ≠ 0 := sub_ne_zero.mpr g.symm
      positivity
    nlinarith [sq_nonneg (y[i + 1] - y[i])]
  · have : 0 < (y[i + 1] - y[i]) ^ 2 := by
      have : y[i + 1] - y[i] ≠ 0 := sub_ne_zero.mpr g.symm
      positivity
    nlinarith [sq_nonneg (x[i + 1] - x[i])]

theorem arcLength_inc {x y : List ℝ} (hl : x.length = y.length) (hd : Distinct x y) :
    Inc (arr x.length (arcLength (at_ x) (at_ y))) := by
  apply List.pairwise_iff_getElem.mpr
  intro i j hi hj hij
  rw [getElem_arr, getElem_arr]
  rw [length_arr] at hj
  unfold arcLength cumsum0
  obtain ⟨k, rfl⟩ := Nat.exists_eq_add_of_lt hij
  rw [add_assoc, sum_range_add, lt_add_iff_pos_right]
  exact sum_pos (fun m hm => step_pos hd (by have := mem_range.mp hm; omega) (by have := mem_range.mp hm; omega)) (by simp)

/-- **C63.** The distance of a track from points is the length of the polygon through them, measured from the first point. -/
theorem C63_distance {x y : List ℝ} {l r : Option (List ℝ)} {t : RaceTrack} (h : RaceTrack.fromCartesian x y l r = .ok t) :
    t.s.length = x.length ∧ t.s[0]? = some 0 ∧
    (∀ i (hx : i + 1 < x.length) (hy : i + 1 < y.length) (hs : i + 1 < t.s.length),
      t.s[i + 1] - t.s[i] = Real.sqrt ((x[i + 1] - x[i]) ^ 2 + (y[i + 1] - y[i]) ^ 2)) ∧
    (Distinct x y → Inc t.s) ∧ t.s.getLast? = some t.totalDistance := by
  obtain ⟨hl, hn, h⟩ := cartesian_inv h
  obtain ⟨h0, rfl⟩ := mk_inv h
  have z : at_ (arr x.length (arcLength (at_ x) (at_ y))) 0 = 0 := by
    rw [at_arr (by omega)]; simp [arcLength, cumsum0]
  refine ⟨by simp [length_arr], ?_, ?_, ?_, ?_⟩
  · rw [List.getElem?_eq_getElem (by simpa using h0)]
    simp only [z, sub_zero, List.map_id']
    rw [getElem_arr]; simp [arcLength, cumsum0]
  · intro i hx hy hs
    simp only [z, sub_zero, List.map_id']
    rw [getElem_arr, getElem_arr]
    unfold arcLength cumsum0
    rw [sum_range_succ, add_sub_cancel_left]
    unfold diff
    rw [at_eq hx, at_eq hy, at_eq (by omega), at_eq (by omega)]
  · intro hd
    simp only [z, sub_zero, List.map_id']
    exact arcLength_inc hl hd
  · unfold RaceTrack.totalDistance
    simp only [z, sub_zero, List.map_id']
    rw [List.getLast?_eq_getElem?, List.getElem?_eq_getElem (by omega), at_eq (by omega)]

end Lumos.Track
