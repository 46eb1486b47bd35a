import Verif.Cas.Split
import Mathlib.Analysis.SpecialFunctions.Pow.Real
/-!
# C90: the numeric functions of the casadi backend against numpy

Sums and means, element by element functions, `where`, products, norms, differences, `diag`, tiling; and where they differ from numpy.
-/

namespace Lumos.Cas

open Lumos Lumos.Cas.Np

/-! ### Sums and means -/

/-- `sum` does what numpy's does for the axes 0 and 1 and without axis. -/
theorem C90_sum {a : Nd} {x : Mx} (h : Shows a x) {axis : Option Int} (hk : axis = none ∨ axis = some 0 ∨ axis = some 1) :
    Same (Np.sum a axis) (sum x axis) := by
  intro y hy
  cases a with
  | num z =>
    obtain ⟨h1, h2, h3⟩ := h
    rcases hk with rfl | rfl | rfl
    · cases hy
      exact ⟨_, rfl, rfl, rfl, by simp [sum1, Mx.T, h1, h2, h3]⟩
    · cases hy
    · cases hy
  | vec n f =>
    obtain ⟨h1, h2, h3⟩ := h
    have hs : ∑ i ∈ Finset.range x.rows, x.at' i 0 = ∑ i ∈ Finset.range n, f i := by
      rw [h1]
      exact Finset.sum_congr rfl fun i hi => h3 i (Finset.mem_range.mp hi)
    rcases hk with rfl | rfl | rfl
    · rw [Np.sum, if_pos (Or.inl rfl)] at hy
      cases hy
      exact ⟨_, rfl, rfl, rfl, by simp [sum1, Mx.T, h2, hs]⟩
    · rw [Np.sum, if_pos (Or.inr (Or.inl rfl))] at hy
      cases hy
      exact ⟨_, rfl, h2, rfl, by simp [sum1, Mx.T, hs]⟩
    · rw [Np.sum, if_neg (by simp)] at hy
      cases hy
  | mat r c f =>
    obtain ⟨h1, h2, h3⟩ := h
    rcases hk with rfl | rfl | rfl
    · cases hy
      refine ⟨_, rfl, rfl, rfl, ?_⟩
      simp only [sum1, Mx.T, h1, h2]
      rw [Finset.sum_comm]
      exact Finset.sum_congr rfl fun i hi => Finset.sum_congr rfl fun j hj => h3 i (Finset.mem_range.mp hi) j (Finset.mem_range.mp hj)
    · cases hy
      refine ⟨_, rfl, h2, rfl, fun j hj => ?_⟩
      simp only [sum1, Mx.T, h1]
      exact Finset.sum_congr rfl fun i hi => h3 i (Finset.mem_range.mp hi) j hj
    · cases hy
      refine ⟨_, rfl, h1, rfl, fun i hi => ?_⟩
      simp only [sum2, h2]
      exact Finset.sum_congr rfl fun j hj => h3 i hi j (Finset.mem_range.mp hj)

/-- Finding: the last axis cannot be called -1, and a vector can be summed along an axis 1 that numpy does not know (nothing is added up). -/
theorem C90_sum_axis {n : Nat} {f : Nat → ℝ} {x : Mx} (h : Shows (.vec n f) x) :
    sum x (some (-1)) = .error .valueError ∧ Np.sum (.vec n f) (some (-1)) = .ok (.num (∑ i ∈ Finset.range n, f i)) ∧
    Np.sum (.vec n f) (some 1) = .error .valueError ∧ ∃ y, sum x (some 1) = .ok y ∧ Shows (.vec n f) y := by
  obtain ⟨h1, h2, h3⟩ := h
  refine ⟨rfl, by simp [Np.sum], by simp [Np.sum], _, rfl, h1, rfl, fun i hi => ?_⟩
  simp [sum2, h2, h3 i hi]

theorem shows_map {a : Nd} {x : Mx} (h : Shows a x) (g : ℝ → ℝ) : Shows (Np.map g a) (x.map g) := by
  cases a with
  | num z => exact ⟨h.1, h.2.1, congrArg g h.2.2⟩
  | vec n f => exact ⟨h.1, h.2.1, fun i hi => congrArg g (h.2.2 i hi)⟩
  | mat r c f => exact ⟨h.1, h.2.1, fun i hi j hj => congrArg g (h.2.2 i hi j hj)⟩

/-- `mean` does what numpy's does along the axes 0 and 1, and without axis for a vector. -/
theorem C90_mean {a : Nd} {x : Mx} (h : Shows a x) {axis : Option Int} (hk : axis = some 0 ∨ axis = some 1 ∨ (axis = none ∧ isMat a = false)) :
    Same (Np.mean a axis) (mean x axis) := by
  intro y hy
  cases hs : Np.sum a axis with
  | error e => rw [Np.mean, hs] at hy; cases hy
  | ok s =>
    rw [Np.mean, hs] at hy
    cases hy
    rcases hk with rfl | rfl | ⟨rfl, hm⟩
    · obtain ⟨t, ht, hst⟩ := C90_sum h (.inr (.inl rfl)) _ hs
      refine ⟨t.map (· / x.rows), by simp [mean, meanAlong, ht, Except.bind], ?_⟩
      have : (count a (some 0) : ℝ) = x.rows := by
        cases a with
        | num z => cases hs
        | vec n f => simp [count, h.1]
        | mat r c f => simp [count, h.1]
      rw [this]
      exact shows_map hst _
    · obtain ⟨t, ht, hst⟩ := C90_sum h (.inr (.inr rfl)) _ hs
      refine ⟨t.map (· / x.cols), by simp [mean, meanAlong, ht, Except.bind], ?_⟩
      have : (count a (some 1) : ℝ) = x.cols := by
        cases a with
        | num z => cases hs
        | vec n f => rw [Np.sum, if_neg (by simp)] at hs; cases hs
        | mat r c f => simp [count, h.2.1]
      rw [this]
      exact shows_map hst _
    · cases a with
      | num z =>
        cases hs
        obtain ⟨h1, h2, h3⟩ := h
        exact ⟨_, rfl, h2, rfl, by simp [count, sum1, sum2, Mx.T, Mx.map, h1, h3]⟩
      | vec n f =>
        rw [Np.sum, if_pos (Or.inl rfl)] at hs
        cases hs
        obtain ⟨h1, h2, h3⟩ := h
        refine ⟨_, rfl, h2, rfl, ?_⟩
        have hs : ∑ i ∈ Finset.range x.rows, x.at' i 0 = ∑ i ∈ Finset.range n, f i := by
          rw [h1]
          exact Finset.sum_congr rfl fun i hi => h3 i (Finset.mem_range.mp hi)
        simp only [count, sum1, sum2, Mx.T, Mx.map, Finset.sum_range_one, h1, h2, Nat.cast_one, div_one]
        rw [← hs, h1]
      | mat r c f => cases hm

/-- Finding: without axis `mean` of a matrix does not average over all entries, it returns the means of the columns. -/
theorem C90_mean_matrix {r c : Nat} {f : Nat → Nat → ℝ} {x : Mx} (h : Shows (.mat r c f) x) :
    ∃ y, mean x none = .ok y ∧ Shows (.vec c fun j => (∑ i ∈ Finset.range r, f i j) / r) y ∧
      (c ≠ 1 → ∃ z, Np.mean (.mat r c f) none = .ok z ∧ ¬ Shows z y) := by
  obtain ⟨h1, h2, h3⟩ := h
  refine ⟨_, rfl, ⟨h2, rfl, fun j hj => ?_⟩, fun hc => ⟨_, rfl, fun hh => hc (h2 ▸ hh.1)⟩⟩
  simp only [sum1, sum2, Mx.T, Mx.map, h1, Finset.sum_range_one, Nat.cast_one, div_one]
  congr 1
  exact Finset.sum_congr rfl fun i hi => h3 i (Finset.mem_range.mp hi) j hj

/-! ### Element by element -/

/-- A function of two arrays element by element. -/
theorem C90_elementwise {a b : Nd} {x y : Mx} (ha : Shows a x) (hb : Shows b y) (g : ℝ → ℝ → ℝ) :
    Same (Np.zip g a b) (elementwise g x y) := by
  intro z hz
  cases a with
  | num u =>
    obtain ⟨h1, h2, h3⟩ := ha
    have hz' : z = Np.map (g u) b := by cases b <;> exact (Except.ok.inj hz).symm
    subst hz'
    by_cases hc : x.rows = y.rows ∧ x.cols = y.cols
    · refine ⟨_, if_pos hc, ?_⟩
      have e : ∀ i j, i < x.rows → j < x.cols → x.at' i j = u := by
        intro i j hi hj
        rw [show i = 0 by omega, show j = 0 by omega, h3]
      cases b with
      | num v => exact ⟨h1, h2, by show g (x.at' 0 0) (y.at' 0 0) = g u v; rw [h3, hb.2.2]⟩
      | vec n f => exact ⟨hc.1.trans hb.1, hc.2.trans hb.2.1, fun i hi => by
          show g (x.at' i 0) (y.at' i 0) = g u (f i)
          rw [e i 0 (by rw [hc.1, hb.1]; exact hi) (by omega), hb.2.2 i hi]⟩
      | mat r c f => exact ⟨hc.1.trans hb.1, hc.2.trans hb.2.1, fun i hi j hj => by
          show g (x.at' i j) (y.at' i j) = g u (f i j)
          rw [e i j (by rw [hc.1, hb.1]; exact hi) (by rw [hc.2, hb.2.1]; exact hj), hb.2.2 i hi j hj]⟩
    · refine ⟨_, (if_neg hc).trans (if_pos ⟨h1, h2⟩), ?_⟩
      rw [h3]
      exact shows_map hb _
  | vec n f =>
    cases b with
    | num v =>
      cases hz
      obtain ⟨h1, h2, h3⟩ := ha
      obtain ⟨k1, k2, k3⟩ := hb
      by_cases hc : x.rows = y.rows ∧ x.cols = y.cols
      · refine ⟨_, if_pos hc, h1, h2, fun i hi => ?_⟩
        have : i = 0 := by omega
        subst this
        show g (x.at' 0 0) (y.at' 0 0) = g (f 0) v
        rw [k3, h3 0 hi]
      · refine ⟨_, (if_neg hc).trans ((if_neg fun hh => hc ⟨hh.1.trans k1.symm, hh.2.trans k2.symm⟩).trans (if_pos ⟨k1, k2⟩)), ?_⟩
        rw [k3]
        exact shows_map (a := .vec n f) ⟨h1, h2, h3⟩ (g · v)
    | vec m k =>
      by_cases hn : n = m
      · rw [Np.zip, if_pos hn] at hz
        cases hz
        refine ⟨_, if_pos ⟨ha.1.trans (hn.trans hb.1.symm), ha.2.1.trans hb.2.1.symm⟩, ha.1, ha.2.1, fun i hi => ?_⟩
        show g (x.at' i 0) (y.at' i 0) = _
        rw [ha.2.2 i hi, hb.2.2 i (hn ▸ hi)]
      · rw [Np.zip, if_neg hn] at hz
        cases hz
    | mat r c k => cases hz
  | mat r c f =>
    cases b with
    | num v =>
      cases hz
      obtain ⟨h1, h2, h3⟩ := ha
      obtain ⟨k1, k2, k3⟩ := hb
      by_cases hc : x.rows = y.rows ∧ x.cols = y.cols
      · refine ⟨_, if_pos hc, h1, h2, fun i hi j hj => ?_⟩
        have : i = 0 := by omega
        subst this
        have : j = 0 := by omega
        subst this
        show g (x.at' 0 0) (y.at' 0 0) = g (f 0 0) v
        rw [k3, h3 0 hi 0 hj]
      · refine ⟨_, (if_neg hc).trans ((if_neg fun hh => hc ⟨hh.1.trans k1.symm, hh.2.trans k2.symm⟩).trans (if_pos ⟨k1, k2⟩)), ?_⟩
        rw [k3]
        exact shows_map (a := .mat r c f) ⟨h1, h2, h3⟩ (g · v)
    | vec m k => cases hz
    | mat r' c' k =>
      by_cases hn : r = r' ∧ c = c'
      · rw [Np.zip, if_pos hn] at hz
        cases hz
        refine ⟨_, if_pos ⟨ha.1.trans (hn.1.trans hb.1.symm), ha.2.1.trans (hn.2.trans hb.2.1.symm)⟩, ha.1, ha.2.1, fun i hi j hj => ?_⟩
        show g (x.at' i j) (y.at' i j) = _
        rw [ha.2.2 i hi j hj, hb.2.2 i (hn.1 ▸ hi) j (hn.2 ▸ hj)]
      · rw [Np.zip, if_neg hn] at hz
        cases hz

theorem zip_fits (g : ℝ → ℝ → ℝ) {a b : Nd} (h : Fits b a) : Np.zip g a b = .ok (like (fun i j => g (entry a i j) (entry b i j)) a) := by
  cases a <;> cases b
  all_goals first
    | rfl
    | exact h.elim
    | exact if_pos (Eq.symm h)
    | exact if_pos ⟨h.1.symm, h.2.symm⟩

theorem entry_like (g : Nat → Nat → ℝ) (a b : Nd) (h : Fits b a) : Fits b (like g a) := by
  cases a <;> cases b <;> exact h

theorem shows_like_congr {g k : Nat → Nat → ℝ} {a : Nd} {x : Mx} (e : ∀ i j, entry (like g a) i j = entry (like k a) i j) (h : Shows (like g a) x) : Shows (like k a) x := by
  cases a with
  | num z => exact ⟨h.1, h.2.1, h.2.2.trans (e 0 0)⟩
  | vec n f => exact ⟨h.1, h.2.1, fun i hi => (h.2.2 i hi).trans (e i 0)⟩
  | mat r c f => exact ⟨h.1, h.2.1, fun i hi j hj => (h.2.2 i hi j hj).trans (e i j)⟩

theorem like_like (g k : Nat → Nat → ℝ) (a : Nd) : like g (like k a) = like g a := by cases a <;> rfl

theorem fits_like (g : Nat → Nat → ℝ) (a : Nd) : Fits (like g a) a := by
  cases a <;> simp [Fits, like]

/-- `abs`, `minimum`, `maximum`, `clip` and `where` do what numpy's do, whenever the arguments have the shape of the first or are numbers. -/
theorem C90_entries {c a b : Nd} {z x y : Mx} (hc : Shows c z) (ha : Shows a x) (hb : Shows b y) (fa : Fits a c) (fb : Fits b c) :
    Shows (Np.map (fun t => |t|) c) (abs z) ∧
    (∃ w, minimum z x = .ok w ∧ Shows (like (fun i j => min (entry c i j) (entry a i j)) c) w) ∧
    (∃ w, maximum z x = .ok w ∧ Shows (like (fun i j => max (entry c i j) (entry a i j)) c) w) ∧
    (∃ w, clip z x y = .ok w ∧ Shows (Np.clip c a b) w) ∧
    ∃ w, where' z x y = .ok w ∧ Shows (choose c a b) w := by
  refine ⟨shows_map hc _, C90_elementwise hc ha min _ (zip_fits _ fa), C90_elementwise hc ha max _ (zip_fits _ fa), ?_, ?_⟩
  · obtain ⟨w, hw, hs⟩ := C90_elementwise hc ha max _ (zip_fits _ fa)
    obtain ⟨v, hv, ht⟩ := C90_elementwise hs hb min _ (zip_fits _ (entry_like _ _ _ fb))
    refine ⟨v, by simp [clip, hw, Except.bind, hv], ?_⟩
    rw [like_like] at ht
    refine shows_like_congr ?_ ht
    intro i j
    cases c <;> rfl
  · obtain ⟨w, hw, hs⟩ := C90_elementwise hc ha (fun c a => if c ≠ 0 then a else 0) _ (zip_fits _ fa)
    obtain ⟨v, hv, ht⟩ := C90_elementwise hc hb (fun c a => if c ≠ 0 then 0 else a) _ (zip_fits _ fb)
    obtain ⟨u, hu, hr⟩ := C90_elementwise hs ht (· + ·) _ (zip_fits _ (entry_like _ _ _ (fits_like _ _)))
    refine ⟨u, ?_, ?_⟩
    · unfold where'
      rw [hw]
      show Except.bind (.ok w) _ = _
      simp only [Except.bind]
      rw [hv]
      exact hu
    · rw [like_like] at hr
      refine shows_like_congr ?_ hr
      intro i j
      cases c with
      | num z => by_cases hh : z = 0 <;> simp [entry, like, hh]
      | vec n f => by_cases hh : f i = 0 <;> simp [entry, like, hh]
      | mat r d f => by_cases hh : f i j = 0 <;> simp [entry, like, hh]

/-! ### Products -/

/-- `dot`, `inner` and `outer` of vectors and `cross` of vectors with three entries or row by row do what numpy's do. -/
theorem C90_products {a b : Nd} {x y : Mx} (ha : Shows a x) (hb : Shows b y) :
    (isVec a = true → Same (Np.dot a b) (dot x y) ∧ Same (Np.dot a b) (inner x y)) ∧
    Same (Np.outer a b) (outer x y) ∧ Same (Np.cross a b) (cross x y none) := by
  refine ⟨fun hv => ?_, ?_, ?_⟩
  · have : Same (Np.dot a b) (casDot x y) := by
      intro z hz
      cases a with
      | num _ => cases hv
      | mat _ _ _ => cases hv
      | vec n f =>
        cases b with
        | num _ => cases hz
        | mat _ _ _ => cases hz
        | vec m g =>
          by_cases hn : n = m
          · rw [Np.dot, if_pos hn] at hz
            cases hz
            refine ⟨_, if_pos ⟨ha.1.trans (hn.trans hb.1.symm), ha.2.1.trans hb.2.1.symm⟩, rfl, rfl, ?_⟩
            simp only [scalar, ha.1, ha.2.1, Finset.sum_range_one]
            refine Finset.sum_congr rfl fun i hi => ?_
            rw [ha.2.2 i (Finset.mem_range.mp hi), hb.2.2 i (hn ▸ Finset.mem_range.mp hi)]
          · rw [Np.dot, if_neg hn] at hz
            cases hz
    exact ⟨this, this⟩
  · intro z hz
    cases a with
    | num _ => cases hz
    | mat _ _ _ => cases hz
    | vec n f =>
      cases b with
      | num _ => cases hz
      | mat _ _ _ => cases hz
      | vec m g =>
        cases hz
        refine ⟨_, if_pos (ha.2.1.trans hb.2.1.symm), ha.1, hb.1, fun i hi j hj => ?_⟩
        simp [Mx.T, ha.2.1, ha.2.2 i hi, hb.2.2 j hj]
  · intro z hz
    cases a with
    | num _ => cases hz
    | vec n f =>
      cases b with
      | num _ => cases hz
      | mat _ _ _ => cases hz
      | vec m g =>
        by_cases hn : n = 3 ∧ m = 3
        · rw [Np.cross, if_pos hn] at hz
          cases hz
          obtain ⟨rfl, rfl⟩ := hn
          have e : casCross x.T y.T = .ok ⟨1, 3, fun i j => cross3 (x.T.at' i) (y.T.at' i) j⟩ := by
            rw [casCross, if_pos ⟨ha.2.1.trans hb.2.1.symm, ha.1.trans hb.1.symm⟩, if_neg (by simp [Mx.T, ha.2.1]), if_pos (by exact ha.1)]
            simp [Mx.T, ha.2.1]
          refine ⟨_, by show (casCross x.T y.T).bind _ = _; rw [e]; rfl, rfl, rfl, fun i hi => ?_⟩
          have : ∀ k, k % 3 < 3 := fun k => Nat.mod_lt _ (by norm_num)
          simp [cross3, Mx.T, ha.2.2 _ (this _), hb.2.2 _ (this _)]
        · rw [Np.cross, if_neg hn] at hz
          cases hz
    | mat r c f =>
      cases b with
      | num _ => cases hz
      | vec _ _ => cases hz
      | mat r' c' g =>
        by_cases hn : r = r' ∧ c = 3 ∧ c' = 3
        · rw [Np.cross, if_pos hn] at hz
          cases hz
          obtain ⟨rfl, rfl, rfl⟩ := hn
          have e : casCross x.T y.T = .ok ⟨3, x.rows, fun i j => cross3 (fun k => x.T.at' k j) (fun k => y.T.at' k j) i⟩ := by
            rw [casCross, if_pos ⟨ha.2.1.trans hb.2.1.symm, ha.1.trans hb.1.symm⟩, if_pos (by exact ha.2.1)]
            rfl
          have e' : cross x y none = .ok (Mx.T ⟨3, x.rows, fun i j => cross3 (fun k => x.T.at' k j) (fun k => y.T.at' k j) i⟩) := by
            show (casCross x.T y.T).bind (fun c => turn c (-1)) = _
            rw [e]
            rfl
          refine ⟨_, e', ha.1, rfl, fun i hi j hj => ?_⟩
          have : ∀ k, k % 3 < 3 := fun k => Nat.mod_lt _ (by norm_num)
          simp [cross3, Mx.T, ha.2.2 i hi _ (this _), hb.2.2 i hi _ (this _)]
        · rw [Np.cross, if_neg hn] at hz
          cases hz

/-- Finding: `dot` and `inner` of two square matrices are not products of matrices: they return one number. -/
theorem C90_dot_matrices {n : Nat} {f g : Nat → Nat → ℝ} {x y : Mx} (ha : Shows (.mat n n f) x) (hb : Shows (.mat n n g) y) (hn : 2 ≤ n) :
    ∃ z w, Np.dot (.mat n n f) (.mat n n g) = .ok z ∧ dot x y = .ok w ∧ inner x y = .ok w ∧ ¬ Shows z w ∧
      Shows (.num (∑ i ∈ Finset.range n, ∑ j ∈ Finset.range n, f i j * g i j)) w := by
  have e : dot x y = .ok _ := if_pos ⟨ha.1.trans hb.1.symm, ha.2.1.trans hb.2.1.symm⟩
  refine ⟨_, _, if_pos rfl, e, e, fun h => ?_, rfl, rfl, ?_⟩
  · have : 1 = n := h.1
    omega
  · simp only [scalar, ha.1, ha.2.1]
    refine Finset.sum_congr rfl fun i hi => Finset.sum_congr rfl fun j hj => ?_
    rw [ha.2.2 i (Finset.mem_range.mp hi) j (Finset.mem_range.mp hj), hb.2.2 i (Finset.mem_range.mp hi) j (Finset.mem_range.mp hj)]

/-! ### Norms -/

/-- `norm` without further arguments is the root of the sum of the squares of all entries, for vectors and for matrices. -/
theorem C90_norm {a : Nd} {x : Mx} (h : Shows a x) : ∃ y, norm x none none = .ok y ∧
    Shows (.num (Real.sqrt (∑ i ∈ Finset.range x.rows, ∑ j ∈ Finset.range x.cols, entry a i j ^ 2))) y := by
  have hs : (∑ i ∈ Finset.range x.rows, ∑ j ∈ Finset.range x.cols, entry a i j ^ 2) =
      ∑ i ∈ Finset.range x.rows, ∑ j ∈ Finset.range x.cols, x.at' i j ^ 2 := by
    refine Finset.sum_congr rfl fun i hi => Finset.sum_congr rfl fun j hj => ?_
    rw [Finset.mem_range] at hi hj
    cases a with
    | num z => rw [show i = 0 by have := h.1; omega, show j = 0 by have := h.2.1; omega, h.2.2]; rfl
    | vec n f => rw [show j = 0 by have := h.2.1; omega, h.2.2 i (h.1 ▸ hi)]; rfl
    | mat r c f => rw [h.2.2 i (h.1 ▸ hi) j (h.2.1 ▸ hj)]; rfl
  rw [hs]
  by_cases h1 : x.rows = 1
  · refine ⟨((sum2 (x.map (· ^ 2))).map fun a => a ^ (0.5 : ℝ)), by simp [norm, normAxis, normOf, h1, sum, Except.bind], by simp [Mx.map, sum2, h1], rfl, ?_⟩
    simp only [Mx.map, sum2, h1, Finset.sum_range_one]
    rw [Real.sqrt_eq_rpow]
    norm_num
  · by_cases h2 : x.cols = 1
    · refine ⟨((sum1 (x.map (· ^ 2))).T.map fun a => a ^ (0.5 : ℝ)), by simp [norm, normAxis, normOf, h1, h2, sum, Except.bind], by simp [Mx.map, sum1, Mx.T, h2], rfl, ?_⟩
      simp only [Mx.map, sum1, Mx.T, h2, Finset.sum_range_one]
      rw [Real.sqrt_eq_rpow]
      norm_num
    · exact ⟨_, by simp [norm, normAxis, normOf, h1, h2, Except.bind]; rfl, rfl, rfl, rfl⟩

/-- Findings: an infinite or other order raises NameError, the last axis cannot be called -1, and the 1-norm of a matrix is not numpy's (the
largest sum of a column) but the sum over everything. -/
theorem C90_norm_orders {r c : Nat} {f : Nat → Nat → ℝ} {x : Mx} (h : Shows (.mat r c f) x) (axis : Option Int)
    (hk : axis = none ∨ axis = some 0 ∨ axis = some 1) (hr : r ≠ 1) (hc : c ≠ 1) :
    norm x (some .other) axis = .error .nameError ∧ norm x (some .two) (some (-1)) = .error .valueError ∧
    ∃ y, norm x (some .one) none = .ok y ∧ Shows (.num (∑ i ∈ Finset.range r, ∑ j ∈ Finset.range c, |f i j|)) y := by
  refine ⟨?_, rfl, ?_⟩
  · rcases hk with rfl | rfl | rfl <;> rfl
  · obtain ⟨y, hy, hs⟩ := C90_sum (shows_map h fun t => |t|) (axis := none) (.inl rfl) _ rfl
    refine ⟨y, ?_, hs⟩
    rw [← hy]
    simp [norm, normAxis, normOf, h.1, hr, h.2.1, hc, Except.bind]
    rfl

/-! ### Differences, diagonals, tiles -/

/-- One difference (or none), the diagonal matrix of a vector and its tiling do what numpy's do. -/
theorem C90_vector {n : Nat} {f : Nat → ℝ} {x : Mx} (h : Shows (.vec n f) x) (m : Nat) :
    Same (Np.diff (.vec n f) 0) (diff x 0 (-1)) ∧ Same (Np.diff (.vec n f) 1) (diff x 1 (-1)) ∧ Same (Np.diag (.vec n f)) (diag x 0) ∧
    Same (Np.tile m (.vec n f)) (.ok (vectorTile x m)) := by
  obtain ⟨h1, h2, h3⟩ := h
  refine ⟨?_, ?_, ?_, ?_⟩
  · rintro _ ⟨⟩
    exact ⟨_, rfl, h1, h2, h3⟩
  · rintro _ ⟨⟩
    refine ⟨_, rfl, by simp [casDiff, h1], h2, fun i hi => ?_⟩
    show x.at' (i + 1) 0 - x.at' i 0 = _
    rw [h3 (i + 1) (by omega), h3 i (by omega)]
  · rintro _ ⟨⟩
    have e : casDiag x = ⟨x.rows, x.rows, fun i j => if i = j then x.at' i 0 else 0⟩ := if_pos h2
    refine ⟨casDiag x, by simp [diag, h2], by rw [e]; exact h1, by rw [e]; exact h1, fun i hi j _ => ?_⟩
    rw [e]
    show (if i = j then x.at' i 0 else 0) = _
    rw [h3 i hi]
  · rintro _ ⟨⟩
    refine ⟨_, rfl, by simp [vectorTile, repmatRows, Mx.T, h2], h1, fun i _ j hj => ?_⟩
    simp [vectorTile, repmatRows, Mx.T, h2, Nat.mod_one, h3 j hj]

/-- Theorem (C90). What `diag` does with the other arguments: an offset raises NotImplementedError; a matrix of one row or one column gives the square
matrix with its entries on the diagonal (numpy gives the one entry on the diagonal); any other square matrix raises NotImplementedError where numpy
gives the diagonal, and any other matrix ValueError. -/
theorem C90_diag {r c : Nat} {f : Nat → Nat → ℝ} {x : Mx} (h : Shows (.mat r c f) x) (k : Int) :
    (k ≠ 0 → diag x k = .error .notImplementedError) ∧
    (r = 1 → c ≠ 1 → ∃ y, diag x 0 = .ok y ∧ Shows (.mat c c fun i j => if i = j then f 0 i else 0) y) ∧
    (c = 1 → ∃ y, diag x 0 = .ok y ∧ Shows (.mat r r fun i j => if i = j then f i 0 else 0) y) ∧
    (r ≠ 1 → r = c → diag x 0 = .error .notImplementedError) ∧
    (r ≠ 1 → c ≠ 1 → r ≠ c → diag x 0 = .error .valueError) := by
  obtain ⟨h1, h2, h3⟩ := h
  refine ⟨fun hk => by simp [diag, hk], fun hr hc => ?_, fun hc => ?_, fun hr he => ?_, fun hr hc he => ?_⟩
  · have hx : ¬ x.cols = 1 := by rw [h2]; exact hc
    have e : casDiag x = ⟨x.cols, x.cols, fun i j => if i = j then x.at' 0 i else 0⟩ := if_neg hx
    refine ⟨casDiag x, by simp [diag, h1, hr], by rw [e]; exact h2, by rw [e]; exact h2, fun i hi j _ => ?_⟩
    rw [e]
    show (if i = j then x.at' 0 i else 0) = _
    rw [h3 0 (by omega) i hi]
  · have e : casDiag x = ⟨x.rows, x.rows, fun i j => if i = j then x.at' i 0 else 0⟩ := if_pos (by rw [h2]; exact hc)
    refine ⟨casDiag x, by simp [diag, h2, hc], by rw [e]; exact h1, by rw [e]; exact h1, fun i hi j _ => ?_⟩
    rw [e]
    show (if i = j then x.at' i 0 else 0) = _
    rw [h3 i hi 0 (by omega)]
  · simp [diag, h1, h2, ← he, hr]
  · simp [diag, h1, h2, hr, hc, he]

/-- A row of three becomes a matrix of nine. -/
example : diag ⟨1, 3, fun _ j => j⟩ 0 = .ok ⟨3, 3, fun i j => if i = j then (i : ℝ) else 0⟩ := by simp [diag, casDiag]

theorem foldl_const {α β : Type} (c : β) : ∀ (l : List α) (b : β), l ≠ [] → l.foldl (fun _ _ => c) b = c := by
  intro l
  induction l with
  | nil => intro b h; exact absurd rfl h
  | cons a l ih =>
    intro b _
    by_cases hl : l = []
    · subst hl; rfl
    · exact ih c hl

theorem diff_len (n : Nat) (f : Nat → ℝ) : ∀ k, ∃ g, Np.diff (.vec n f) k = .ok (.vec (n - k) g) := by
  intro k
  induction k with
  | zero => exact ⟨f, rfl⟩
  | succ k ih =>
    obtain ⟨g, hg⟩ := ih
    exact ⟨_, by rw [Np.diff, hg]; show Except.ok (Nd.vec (n - k - 1) _) = _; rw [Nat.sub_sub]⟩

/-- Finding: every higher difference is only the first difference. -/
theorem C90_diff_twice {n : Nat} {f : Nat → ℝ} {x : Mx} (h : Shows (.vec n f) x) (k : Nat) (hk : 2 ≤ k) (hn : 2 ≤ n) :
    diff x k (-1) = diff x 1 (-1) ∧ ∃ y z, Np.diff (.vec n f) k = .ok y ∧ diff x k (-1) = .ok z ∧ ¬ Shows y z := by
  have e : diff x k (-1) = .ok (casDiff x) := by
    unfold diff
    rw [if_neg (by simp), foldl_const (casDiff x) (List.range k) x (by simp; omega)]
  obtain ⟨g, hg⟩ := diff_len n f k
  refine ⟨by rw [e]; rfl, _, _, hg, e, fun hs => ?_⟩
  have h1 : x.rows = n := h.1
  have : x.rows - 1 = n - k := hs.1
  omega

/-- A vector of three numbers, its sum, its norm and its product with itself. -/
example : ∃ x : Mx, Shows (.vec 3 fun i => i) x ∧ (∃ y, sum x none = .ok y ∧ Shows (.num 3) y) ∧
    (∃ y, dot x x = .ok y ∧ Shows (.num 5) y) ∧ (∃ y, norm x none none = .ok y ∧ Shows (.num (Real.sqrt 5)) y) ∧
    ∃ y, diff x 1 (-1) = .ok y ∧ Shows (.vec 2 fun _ => 1) y := by
  have hx : Shows (.vec 3 fun i => (i : ℝ)) ⟨3, 1, fun i _ => i⟩ := ⟨rfl, rfl, fun _ _ => rfl⟩
  refine ⟨_, hx, ?_, ?_, ?_, ?_⟩
  · obtain ⟨y, hy, hs⟩ := C90_sum hx (axis := none) (.inl rfl) (.num (∑ i ∈ Finset.range 3, (i : ℝ))) (by rw [Np.sum, if_pos (Or.inl rfl)])
    refine ⟨y, hy, hs.1, hs.2.1, hs.2.2.trans ?_⟩
    norm_num [Finset.sum_range_succ]
  · obtain ⟨y, hy, hs⟩ := ((C90_products hx hx).1 rfl).1 (.num (∑ i ∈ Finset.range 3, (i : ℝ) * i)) (by rw [Np.dot, if_pos rfl])
    refine ⟨y, hy, hs.1, hs.2.1, hs.2.2.trans ?_⟩
    norm_num [Finset.sum_range_succ]
  · obtain ⟨y, hy, hs⟩ := C90_norm hx
    refine ⟨y, hy, hs.1, hs.2.1, hs.2.2.trans ?_⟩
    norm_num [Finset.sum_range_succ, entry]
  · obtain ⟨y, hy, hs⟩ := (C90_vector hx 0).2.1 _ rfl
    exact ⟨y, hy, hs.1, hs.2.1, fun i hi => (hs.2.2 i hi).trans (by push_cast; ring)⟩

end Lumos.Cas
