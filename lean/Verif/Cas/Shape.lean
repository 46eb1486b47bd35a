import Verif.Cas.Num
import Verif.Track.Interp
import Mathlib.Analysis.Convex.SpecificFunctions.Basic
/-!
# C90: reshaping, rolling, spacing and interpolation under casadi, against numpy
-/

namespace Lumos.Cas

open Lumos Lumos.Cas.Np

/-! ### `reshape` -/

/-- `reshape` fills column by column: it is numpy's reshaping of the transposed array to the transposed shape, transposed. -/
theorem C90_reshape {r' c' : Nat} {f : Nat → Nat → ℝ} {x : Mx} (h : Shows (.mat r' c' f) x) (r c : Nat) :
    ∀ y, Np.reshape c r (tr (.mat r' c' f)) = .ok y → ∃ w, reshape x r c = .ok w ∧ Shows (tr y) w := by
  intro y hy
  obtain ⟨h1, h2, h3⟩ := h
  by_cases hn : c' * r' = c * r
  · rw [tr, Np.reshape, if_pos hn] at hy
    cases hy
    refine ⟨_, if_pos (by rw [h1, h2]; linarith), rfl, rfl, fun i hi j hj => ?_⟩
    have hlt : i + j * r < r' * c' := by
      calc i + j * r < r + j * r := by omega
        _ = (j + 1) * r := by ring
        _ ≤ c * r := Nat.mul_le_mul_right _ hj
        _ = r' * c' := by rw [← hn, Nat.mul_comm]
    have hr : 0 < r' := Nat.pos_of_ne_zero fun h0 => by rw [h0] at hlt; simp at hlt
    show x.at' ((i + j * r) % x.rows) ((i + j * r) / x.rows) = f ((j * r + i) % r') ((j * r + i) / r')
    rw [h1, h3 _ (Nat.mod_lt _ hr) _ (Nat.div_lt_of_lt_mul hlt), Nat.add_comm i]
  · rw [tr, Np.reshape, if_neg hn] at hy
    cases hy

/-- Finding: a vector is put into a matrix column by column, numpy does it row by row; so the result differs from numpy's whenever the entries
are different and there are at least two rows and two columns. -/
theorem C90_reshape_vector {n : Nat} {f : Nat → ℝ} {x : Mx} (h : Shows (.vec n f) x) (r c : Nat) (hn : n = r * c) :
    ∃ w, reshape x r c = .ok w ∧ Shows (.mat r c fun i j => f (i + j * r)) w ∧
      (2 ≤ r → 2 ≤ c → f 1 ≠ f r → ∃ y, Np.reshape r c (.vec n f) = .ok y ∧ ¬ Shows y w) := by
  obtain ⟨h1, h2, h3⟩ := h
  have key : ∀ i < r, ∀ j < c, x.at' ((i + j * r) % x.rows) ((i + j * r) / x.rows) = f (i + j * r) := by
    intro i hi j hj
    have hlt : i + j * r < n := by
      calc i + j * r < r + j * r := by omega
        _ = (j + 1) * r := by ring
        _ ≤ c * r := Nat.mul_le_mul_right _ hj
        _ = n := by rw [hn, Nat.mul_comm]
    rw [h1, Nat.mod_eq_of_lt hlt, Nat.div_eq_of_lt hlt, h3 _ hlt]
  refine ⟨_, if_pos (by rw [h1, h2, hn, Nat.mul_one]), ⟨rfl, rfl, key⟩, fun hr hc hf => ⟨_, if_pos hn, fun hs => hf ?_⟩⟩
  have e1 := hs.2.2 0 (by omega) 1 (by omega)
  have e2 := key 0 (by omega) 1 (by omega)
  rw [← show f (0 * c + 1) = f 1 by simp, ← show f (0 + 1 * r) = f r by simp]
  exact e1.symm.trans e2

/-! ### `roll` -/

/-- Rolling by one place works for vectors and along the columns of a matrix. -/
theorem C90_roll {n : Nat} {f : Nat → ℝ} {x : Mx} (h : Shows (.vec n f) x) (hn : 0 < n) {r c : Nat} {g : Nat → Nat → ℝ} {z : Mx}
    (hz : Shows (.mat r c g) z) (hc : 0 < c) :
    Same (Np.roll 1 (.vec n f)) (roll x 1 none) ∧ Same (Np.roll 1 (.vec n f)) (roll x 1 (some 0)) ∧
    Same (Np.rollAxis 1 1 (.mat r c g)) (roll z 1 (some 1)) := by
  have key : Same (Np.roll 1 (.vec n f)) (roll x 1 (some 0)) := by
    rintro _ ⟨⟩
    obtain ⟨h1, h2, h3⟩ := h
    have er : rowAt x (-1) = .ok (x.slice (n - 1) (n - 1 + 1)) := by
      unfold rowAt
      rw [if_neg (by omega), if_pos (by omega), h1, show ((n : Int) + -1).toNat = n - 1 by omega]
    have eu : upTo x (-1) = x.slice 0 (n - 1) := by
      unfold upTo
      rw [if_pos (by omega), h1, show ((n : Int) + -1).toNat = n - 1 by omega]
    have e : roll x 1 (some 0) = above (x.slice (n - 1) (n - 1 + 1)) (x.slice 0 (n - 1)) := by
      unfold roll
      simp only [Option.getD_some]
      rw [if_pos ⟨.inr h2, trivial⟩, er, eu]
      rfl
    refine ⟨_, e.trans (if_pos rfl), by simp [Mx.slice]; omega, h2, fun i hi => ?_⟩
    show (if i < n - 1 + 1 - (n - 1) then x.at' (n - 1 + i) 0 else x.at' (0 + (i - (n - 1 + 1 - (n - 1)))) 0) = f (((i : Int) - 1) % n).toNat
    by_cases hi0 : i = 0
    · subst hi0
      rw [if_pos (by omega), h3 _ (by omega)]
      congr 1
      rw [show ((0 : Nat) : Int) - 1 = (n : Int) - 1 + n * (-1) by omega, Int.add_mul_emod_self_left, Int.emod_eq_of_lt (by omega) (by omega)]
      omega
    · rw [if_neg (by omega), h3 _ (by omega), Int.emod_eq_of_lt (by omega) (by omega)]
      congr 1
      omega
  refine ⟨key, key, ?_⟩
  rintro _ ⟨⟩
  obtain ⟨h1, h2, h3⟩ := hz
  have er : rowAt z.T (-1) = .ok (z.T.slice (c - 1) (c - 1 + 1)) := by
    unfold rowAt
    have : z.T.rows = c := h2
    rw [if_neg (by omega), if_pos (by omega), this, show ((c : Int) + -1).toNat = c - 1 by omega]
  have eu : upTo z.T (-1) = z.T.slice 0 (c - 1) := by
    unfold upTo
    have : z.T.rows = c := h2
    rw [if_pos (by omega), this, show ((c : Int) + -1).toNat = c - 1 by omega]
  have e : roll z 1 (some 1) = (above (z.T.slice (c - 1) (c - 1 + 1)) (z.T.slice 0 (c - 1))).bind fun x => .ok x.T := by
    unfold roll
    simp only [Option.getD_some]
    rw [if_neg (by simp), if_neg (by simp), if_pos trivial, er, eu]
    rfl
  have e2 : above (z.T.slice (c - 1) (c - 1 + 1)) (z.T.slice 0 (c - 1)) = .ok _ := if_pos rfl
  rw [e2] at e
  refine ⟨_, e, h1, by simp [Mx.T, Mx.slice]; omega, fun i hi j hj => ?_⟩
  show (if j < c - 1 + 1 - (c - 1) then z.at' i (c - 1 + j) else z.at' i (0 + (j - (c - 1 + 1 - (c - 1))))) = g i (((j : Int) - 1) % c).toNat
  by_cases hj0 : j = 0
  · subst hj0
    rw [if_pos (by omega), h3 _ hi _ (by omega)]
    congr 1
    rw [show ((0 : Nat) : Int) - 1 = (c : Int) - 1 + c * (-1) by omega, Int.add_mul_emod_self_left, Int.emod_eq_of_lt (by omega) (by omega)]
    omega
  · rw [if_neg (by omega), h3 _ hi _ (by omega), Int.emod_eq_of_lt (by omega) (by omega)]
    congr 1
    omega

/-- Finding: rolling a vector by no place or by two or more loses entries (the result has another length), and rolling the rows of a matrix
raises or returns a row. -/
theorem C90_roll_loses {n : Nat} {f : Nat → ℝ} {x : Mx} (h : Shows (.vec n f) x) (hn : 2 ≤ n) (s : Nat) (hs : s ≤ n) (h1 : s ≠ 1) {r c : Nat}
    {g : Nat → Nat → ℝ} {z : Mx} (hz : Shows (.mat r c g) z) (hr : 2 ≤ r) (hc : 2 ≤ c) :
    (∃ y w, Np.roll s (.vec n f) = .ok y ∧ roll x s none = .ok w ∧ w.rows = (if s = 0 then 1 else n - s + 1) ∧ ¬ Shows y w) ∧
    ∃ y, Np.rollAxis 1 0 (.mat r c g) = .ok y ∧ ∀ w, roll z 1 (some 0) = .ok w → ¬ Shows y w := by
  refine ⟨?_, ?_⟩
  · obtain ⟨k1, k2, k3⟩ := h
    by_cases h0 : s = 0
    · subst h0
      have er : rowAt x (-((0 : Nat) : Int)) = .ok (x.slice 0 1) := by
        unfold rowAt
        rw [if_pos (by omega)]
        rfl
      have eu : upTo x (-((0 : Nat) : Int)) = x.slice 0 0 := by
        unfold upTo
        rw [if_neg (by omega)]
        simp
      have e : roll x ((0 : Nat) : Int) none = above (x.slice 0 1) (x.slice 0 0) := by
        unfold roll
        simp only [Option.getD_none]
        rw [if_pos ⟨.inr k2, trivial⟩, er, eu]
        rfl
      refine ⟨_, _, rfl, e.trans (if_pos rfl), rfl, fun hh => ?_⟩
      have : 1 - 0 + (0 - 0) = n := hh.1
      omega
    · have er : rowAt x (-(s : Int)) = .ok (x.slice (n - s) (n - s + 1)) := by
        unfold rowAt
        rw [if_neg (by omega), if_pos (by omega), k1, show ((n : Int) + -s).toNat = n - s by omega]
      have eu : upTo x (-(s : Int)) = x.slice 0 (n - s) := by
        unfold upTo
        rw [if_pos (by omega), k1, show ((n : Int) + -s).toNat = n - s by omega]
      have e : roll x (s : Int) none = above (x.slice (n - s) (n - s + 1)) (x.slice 0 (n - s)) := by
        unfold roll
        simp only [Option.getD_none]
        rw [if_pos ⟨.inr k2, trivial⟩, er, eu]
        rfl
      refine ⟨_, _, rfl, e.trans (if_pos rfl), ?_, fun hh => ?_⟩
      · rw [if_neg h0]
        show n - s + 1 - (n - s) + (n - s - 0) = _
        omega
      · have : n - s + 1 - (n - s) + (n - s - 0) = n := hh.1
        omega
  · refine ⟨_, rfl, fun w hw hh => ?_⟩
    obtain ⟨k1, k2, k3⟩ := hz
    have e : roll z 1 (some 0) = (rowAt z (-1)).bind fun a => (vertcat [a.T, (upTo z (-1)).T]).bind fun y => .ok y.T := by
      unfold roll
      simp only [Option.getD_some]
      rw [if_neg (by omega), if_pos trivial]
    rw [e] at hw
    have er : rowAt z (-1) = .ok (z.slice (r - 1) (r - 1 + 1)) := by
      unfold rowAt
      rw [if_neg (by omega), if_pos (by omega), k1, show ((r : Int) + -1).toNat = r - 1 by omega]
    rw [er] at hw
    change (above _ _).bind _ = _ at hw
    by_cases hcs : ((z.slice (r - 1) (r - 1 + 1)).T).cols = ((upTo z (-1)).T).cols
    · have : above ((z.slice (r - 1) (r - 1 + 1)).T) ((upTo z (-1)).T) = .ok _ := if_pos hcs
      rw [this] at hw
      have hw := Except.ok.inj hw
      rw [← hw] at hh
      have : r - 1 + 1 - (r - 1) = r := hh.1
      omega
    · have : above ((z.slice (r - 1) (r - 1 + 1)).T) ((upTo z (-1)).T) = .error .runtimeError := if_neg hcs
      rw [this] at hw
      cases hw

/-! ### Spacing -/

/-- `linspace` and `logspace` do what numpy's do; `cosspace` starts and ends where it should, and is symmetric about the middle. -/
theorem C90_spacing (a b : ℝ) (n : Nat) (hn : 2 ≤ n) :
    Shows (Np.linspace a b n) (linspace a b n) ∧ Shows (Np.logspace a b n) (logspace a b n) ∧
    (cosspace a b n).at' 0 0 = a ∧ (cosspace a b n).at' (n - 1) 0 = b ∧
    ∀ i < n, (cosspace a b n).at' i 0 + (cosspace a b n).at' (n - 1 - i) 0 = a + b := by
  have h1 : (n : ℝ) - 1 ≠ 0 := by
    have : (2 : ℝ) ≤ n := by exact_mod_cast hn
    linarith
  have e : ∀ i : Nat, a + i * ((b - a) / (n - 1)) = a + (b - a) * i / (n - 1) := fun i => by ring
  have c : ∀ i : Nat, (cosspace a b n).at' i 0 = (b + a) / 2 + (b - a) / 2 * Real.cos (Real.pi + i * ((0 - Real.pi) / (n - 1))) := fun i => rfl
  refine ⟨⟨rfl, rfl, fun i _ => e i⟩, ⟨rfl, rfl, fun i _ => ?_⟩, ?_, ?_, fun i hi => ?_⟩
  · show (10 : ℝ) ^ (a + i * ((b - a) / (n - 1))) = _
    rw [e]
  · rw [c]
    simp
    ring
  · rw [c, Nat.cast_sub (by omega), Nat.cast_one, mul_div_cancel₀ _ h1]
    simp
    ring
  · rw [c, c, Nat.cast_sub (by omega), Nat.cast_sub (by omega), Nat.cast_one]
    have : Real.pi + ((n : ℝ) - 1 - i) * ((0 - Real.pi) / (n - 1)) = -(Real.pi + i * ((0 - Real.pi) / (n - 1)) - Real.pi) := by
      field_simp
      ring
    rw [this, Real.cos_neg, Real.cos_sub_pi]
    ring

/-- Finding: `geomspace` is not a geometric progression: it is `linspace`. -/
theorem C90_geomspace (a b : ℝ) (n : Nat) (ha : 0 < a) (hab : a < b) (hn : 3 ≤ n) :
    ∃ x, geomspace a b n = .ok x ∧ Shows (Np.linspace a b n) x ∧ ¬ Shows (Np.geomspace a b n) x := by
  have h10 : ∀ t : ℝ, Real.logb 10 ((10 : ℝ) ^ t) = t := fun t => Real.logb_rpow (by norm_num) (by norm_num)
  have hs := (C90_spacing a b n (by omega)).1
  refine ⟨_, if_neg (by push Not; exact ⟨ha, ha.trans hab⟩), ⟨hs.1, hs.2.1, fun i hi => (h10 _).trans (hs.2.2 i hi)⟩, fun hg => ?_⟩
  have e1 := (h10 _).symm.trans (hg.2.2 1 (by omega))
  have e2 := hs.2.2 1 (by omega)
  rw [e2] at e1
  have hn' : (3 : ℝ) ≤ n := by exact_mod_cast hn
  set t : ℝ := ((1 : Nat) : ℝ) / (n - 1) with ht
  have t0 : 0 < t := by rw [ht]; exact div_pos (by norm_num) (by linarith)
  have t1 : t < 1 := by rw [ht, div_lt_one (by linarith)]; push_cast; linarith
  have key := rpow_one_add_lt_one_add_mul_self (s := (b - a) / a) (by have : 0 < (b - a) / a := div_pos (by linarith) ha; linarith)
    (by have : 0 < (b - a) / a := div_pos (by linarith) ha; exact ne_of_gt this) t0 t1
  have e3 : 1 + (b - a) / a = b / a := by field_simp; ring
  rw [e3] at key
  have := mul_lt_mul_of_pos_left key ha
  have e4 : a * (1 + t * ((b - a) / a)) = a + (b - a) * ((1 : Nat) : ℝ) / (n - 1) := by
    rw [ht]
    field_simp
  rw [e4] at this
  change a + (b - a) * ((1 : Nat) : ℝ) / (n - 1) = a * (b / a) ^ t at e1
  rw [e1] at this
  exact lt_irrefl _ this

/-! ### Interpolation -/

open Lumos.Track (Inc at_)

theorem filter_count {xp : List ℝ} (hx : Inc xp) {j : Nat} (hj : j + 1 < xp.length) {v : ℝ} (h1 : at_ xp j ≤ v) (h2 : v < at_ xp (j + 1)) :
    (xp.filter (· ≤ v)).length = j + 1 := by
  have e : xp = xp.take (j + 1) ++ xp.drop (j + 1) := (List.take_append_drop _ _).symm
  rw [e, List.filter_append, List.length_append]
  have a : (xp.take (j + 1)).filter (· ≤ v) = xp.take (j + 1) := by
    rw [List.filter_eq_self]
    intro y hy
    obtain ⟨i, hi, rfl⟩ := List.getElem_of_mem hy
    rw [List.length_take] at hi
    rw [List.getElem_take, decide_eq_true_iff, ← Track.at_eq]
    exact (hx.le (by omega) (by omega)).trans h1
  have b : (xp.drop (j + 1)).filter (· ≤ v) = [] := by
    rw [List.filter_eq_nil_iff]
    intro y hy
    obtain ⟨i, hi, rfl⟩ := List.getElem_of_mem hy
    rw [List.length_drop] at hi
    rw [List.getElem_drop, decide_eq_true_iff, ← Track.at_eq]
    exact not_le.mpr (h2.trans_le (hx.le (by omega) (by omega)))
  rw [a, b, List.length_take]
  simp
  omega

/-- `interp` under casadi is `numpy.interp` (the lookup of a track) for an increasing grid, with the values given for outside put there. -/
theorem C90_interp {xp fp : List ℝ} (hx : Inc xp) (hl : xp.length = fp.length) (h2 : 2 ≤ xp.length) (v : ℝ) (left right : Option ℝ) :
    (∃ f, interp v xp fp left right none = .ok f ∧
      (v < at_ xp 0 → f = left.getD (at_ fp 0)) ∧
      (at_ xp (xp.length - 1) < v → f = right.getD (at_ fp (fp.length - 1))) ∧
      (at_ xp 0 ≤ v → v ≤ at_ xp (xp.length - 1) → Track.interp xp fp v = .ok f)) ∧
    (interp v xp fp none none none = Track.interp xp fp v) ∧
    ∀ p, interp v xp fp left right (some p) = .error .typeError := by
  have inside : at_ xp 0 ≤ v → v ≤ at_ xp (xp.length - 1) → Track.interp xp fp v = .ok (interpolant xp fp v) := by
    intro ha hb
    rcases hb.lt_or_eq with hb | hb
    · have : ∃ j, j + 1 < xp.length ∧ at_ xp j ≤ v ∧ v < at_ xp (j + 1) := by
        rcases Track.place (xp := xp) (by omega) v with h | h | h
        · exact ⟨0, by omega, ha, h.trans_lt (hx.lt (by omega) (by omega))⟩
        · exact h
        · exact absurd h (not_le.mpr hb)
      obtain ⟨j, hj, k1, k2⟩ := this
      rw [Track.interp_seg hx hl hj k1 k2]
      unfold interpolant
      simp only [filter_count hx hj k1 k2]
      rw [show min (j + 1 - 1) (xp.length - 2) = j by omega]
      congr 1
      show _ = at_ fp j + (v - at_ xp j) * ((at_ fp (j + 1) - at_ fp j) / (at_ xp (j + 1) - at_ xp j))
      ring
    · rw [Track.interp_right hx hl (by omega) hb.ge]
      unfold interpolant
      have : (xp.filter (· ≤ v)) = xp := by
        rw [List.filter_eq_self]
        intro y hy
        obtain ⟨i, hi, rfl⟩ := List.getElem_of_mem hy
        rw [decide_eq_true_iff, ← Track.at_eq, hb]
        exact hx.le (by omega) (by omega)
      simp only [this]
      rw [show min (xp.length - 1) (xp.length - 2) = xp.length - 2 by omega]
      congr 1
      show _ = at_ fp (xp.length - 2) + (v - at_ xp (xp.length - 2)) * ((at_ fp (xp.length - 2 + 1) - at_ fp (xp.length - 2)) / (at_ xp (xp.length - 2 + 1) - at_ xp (xp.length - 2)))
      rw [show xp.length - 2 + 1 = xp.length - 1 by omega, hb]
      have : at_ xp (xp.length - 1) - at_ xp (xp.length - 2) ≠ 0 := by
        have := hx.lt (show xp.length - 2 < xp.length - 1 by omega) (by omega)
        linarith
      field_simp
      ring
  have e : ∀ left right, interp v xp fp left right none = .ok (if v > at_ xp (xp.length - 1) then right.getD (at_ fp (fp.length - 1)) else
      if v < at_ xp 0 then left.getD (at_ fp 0) else interpolant xp fp v) := fun _ _ => rfl
  have h0 : at_ xp 0 < at_ xp (xp.length - 1) := hx.lt (by omega) (by omega)
  refine ⟨⟨_, e left right, fun h => ?_, fun h => ?_, fun ha hb => ?_⟩, ?_, fun _ => rfl⟩
  · rw [if_neg (by linarith), if_pos h]
  · rw [if_pos h]
  · rw [if_neg (by linarith), if_neg (by linarith)]
    exact inside ha hb
  · rw [e]
    by_cases ha : v < at_ xp 0
    · rw [if_neg (by linarith), if_pos ha, Track.interp_left hx hl (by omega) ha.le]
      rfl
    · by_cases hb : at_ xp (xp.length - 1) < v
      · rw [if_pos hb, Track.interp_right hx hl (by omega) hb.le, hl]
        rfl
      · rw [if_neg (by linarith), if_neg (by linarith)]
        exact (inside (by linarith) (by linarith)).symm

/-- A lookup between two points of a grid that is not uniform. -/
example : Inc [0, 1, 3] ∧ interp 2 [0, 1, 3] [5, 7, 13] none none none = .ok 10 := by
  have hx : Inc [0, 1, 3] := by simp [Inc]
  refine ⟨hx, ?_⟩
  rw [(C90_interp (fp := [5, 7, 13]) hx rfl (by simp) 2 none none).2.1, Track.interp_seg (fp := [5, 7, 13]) hx rfl (j := 1) (by simp) (by norm_num [at_]) (by norm_num [at_])]
  norm_num [at_]

/-- Four numbers as a matrix of two rows. -/
example : ∃ w, reshape ⟨4, 1, fun i _ => i⟩ 2 2 = .ok w ∧ w.at' 0 1 = 2 ∧
    ∃ y, Np.reshape 2 2 (.vec 4 fun i => i) = .ok y ∧ entry y 0 1 = 1 ∧ ¬ Shows y w := by
  obtain ⟨w, hw, hs, hd⟩ := C90_reshape_vector (n := 4) (f := fun i => (i : ℝ)) (x := ⟨4, 1, fun i _ => i⟩) ⟨rfl, rfl, fun _ _ => rfl⟩ 2 2 rfl
  obtain ⟨y, hy, hn⟩ := hd le_rfl le_rfl (by norm_num)
  refine ⟨w, hw, (hs.2.2 0 (by norm_num) 1 (by norm_num)).trans (by norm_num), y, hy, ?_, hn⟩
  rw [← Except.ok.inj hy]
  norm_num [entry]

end Lumos.Cas
