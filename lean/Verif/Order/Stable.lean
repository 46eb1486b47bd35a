import Verif.Order.Exist
/-!
# Stability on meshes of any coarseness (C92)
-/

namespace Lumos.Order

open Lumos Lumos.Trans Polynomial

/-! ### Radau quadrature from above -/

/-- The Radau quadrature is at least the integral of a polynomial of the next degree with a non-negative leading coefficient. -/
theorem radau_le {n : Nat} {c : List ℝ} (h2 : c.length = n + 1) (h3 : c.Pairwise (· < ·)) (h5 : c.getD n 0 = 1)
    (h6 : ∀ l, l < n + 1 → (radauNode n).eval (pt c l) = 0) (g : ℝ[X]) (hg : g.natDegree ≤ 2 * n + 1) (ha : 0 ≤ g.coeff (2 * n + 1)) :
    integral 0 1 g ≤ ∑ l ∈ Finset.range (n + 1), weight c l * g.eval (pt c l) := by
  obtain ⟨P, hP⟩ : ∃ P : ℝ[X], P = ∏ l ∈ Finset.range n, (X - C (pt c l)) := ⟨_, rfl⟩
  have hPm : P.Monic := by rw [hP]; exact monic_prod_of_monic _ _ fun _ _ => monic_X_sub_C _
  have hPd : P.natDegree = n := by rw [hP, natDegree_prod_of_monic _ _ fun _ _ => monic_X_sub_C _]; simp
  obtain ⟨R, hR⟩ : ∃ R : ℝ[X], R = (X - C 1) * P ^ 2 := ⟨_, rfl⟩
  have hRm : R.Monic := by rw [hR]; exact (monic_X_sub_C 1).mul (hPm.pow 2)
  have hRd : R.natDegree = 2 * n + 1 := by
    rw [hR, (monic_X_sub_C 1).natDegree_mul (hPm.pow 2), natDegree_X_sub_C, hPm.natDegree_pow, hPd]
    omega
  have hRz : ∀ l, l < n + 1 → R.eval (pt c l) = 0 := by
    intro l hl
    rw [hR, eval_mul, eval_pow]
    rcases Nat.lt_or_ge l n with h | h
    · have : P.eval (pt c l) = 0 := by
        rw [hP, eval_prod]
        exact Finset.prod_eq_zero (Finset.mem_range.mpr h) (by simp)
      rw [this]
      simp
    · rw [show l = n by omega, show pt c n = 1 from h5]
      simp
  have hRi : integral 0 1 R ≤ 0 := by
    have : 0 ≤ ∫ s in (0 : ℝ)..1, -(R.eval s) := by
      refine intervalIntegral.integral_nonneg zero_le_one fun s hs => ?_
      rw [hR, eval_mul, eval_pow, eval_sub, eval_X, eval_C]
      have := sq_nonneg (P.eval s)
      have := hs.2
      nlinarith
    rw [intervalIntegral.integral_neg] at this
    unfold integral
    linarith
  set a := g.coeff (2 * n + 1) with hadef
  have hd : (g - C a * R).natDegree ≤ 2 * n := by
    rw [natDegree_le_iff_coeff_eq_zero]
    intro N hN
    rw [coeff_sub, coeff_C_mul]
    rcases Nat.lt_or_ge (2 * n + 1) N with h | h
    · rw [coeff_eq_zero_of_natDegree_lt (by omega), coeff_eq_zero_of_natDegree_lt (p := R) (by omega)]
      simp
    · rw [show N = 2 * n + 1 by omega, ← hadef]
      have : R.coeff (2 * n + 1) = 1 := by rw [← hRd]; exact hRm.coeff_natDegree
      rw [this]
      ring
  have ex := radau_exact h2 h3 h6 (g - C a * R) hd
  rw [integral_sub, integral_C_mul] at ex
  have e : ∑ l ∈ Finset.range (n + 1), weight c l * (g - C a * R).eval (pt c l) = ∑ l ∈ Finset.range (n + 1), weight c l * g.eval (pt c l) :=
    Finset.sum_congr rfl fun l hl => by rw [eval_sub, eval_mul, hRz l (Finset.mem_range.mp hl), mul_zero, sub_zero]
  rw [e] at ex
  nlinarith

/-! ### The energy of one interval -/

/-- The polynomial through the stages of an interval. -/
theorem lgr_poly {m : Int} {c : Colloc} (h : mkColloc m = .ok c) {n : Nat} (h1 : c.numStages = n + 2) {X Xd : Nat → ℝ} {hh : ℝ}
    (hs : Steps (.lgr c) X Xd hh) : ∃ q : ℝ[X], q.natDegree ≤ n + 1 ∧ q.eval 0 = X 0 ∧ q.eval 1 = X (n + 1) ∧
      ∀ l, l < n + 1 → q.eval (pt c.collocationPoints l) = X (l + 1) ∧ (derivative q).eval (pt c.collocationPoints l) = hh * Xd (l + 1) := by
  obtain ⟨n', h1', h2, h3, h4, h5, h6, h7, h8, h9⟩ := mkColloc_radau h
  obtain rfl : n' = n := by omega
  obtain ⟨q, hq1, hq2, hq3⟩ := lgr_primitive h2 h3 (X 0) (fun l => hh * Xd (l + 1))
  have tab := ((lgr_tableau h).iff X Xd hh).mp hs
  have val : ∀ l, l < n' + 1 → q.eval (pt c.collocationPoints l) = X (l + 1) := by
    intro l hl
    rw [tab (l + 1) (show l + 1 < c.numStages by omega), hq3]
    have e : ∑ j' ∈ Finset.range (n' + 2), lgrTab c (l + 1) j' * Xd j' = ∑ j' ∈ Finset.range (n' + 1),
        (∫ s in (0 : ℝ)..(pt c.collocationPoints l), (makeLagrange c.collocationPoints j').eval s) * Xd (j' + 1) := by
      rw [Finset.sum_range_succ' _ (n' + 1)]
      simp only [lgrTab, zero_mul, add_zero, h7, pt_cons_succ]
    show _ = X 0 + hh * ∑ j' ∈ Finset.range c.numStages, lgrTab c (l + 1) j' * Xd j'
    rw [h1, e, Finset.mul_sum]
    congr 1
    exact Finset.sum_congr rfl fun _ _ => by ring
  refine ⟨q, hq1, by rw [hq3]; simp, ?_, fun l hl => ⟨val l hl, hq2 l hl⟩⟩
  have := val n' (by omega)
  rwa [show pt c.collocationPoints n' = 1 from h5] at this

/-- The sum of the squares at the end of an LGR interval. -/
theorem lgr_energy {m : Int} {c : Colloc} (h : mkColloc m = .ok c) {n : Nat} (h1 : c.numStages = n + 2) {d : Nat} {X Xd : Nat → Fin d → ℝ} {hh : ℝ}
    (hs : ∀ k, Steps (.lgr c) (fun j => X j k) (fun j => Xd j k) hh) :
    ∑ k, X (n + 1) k ^ 2 ≤ ∑ k, X 0 k ^ 2 +
      2 * hh * ∑ l ∈ Finset.range (n + 1), weight c.collocationPoints l * ∑ k, Xd (l + 1) k * X (l + 1) k := by
  obtain ⟨n', h1', h2, h3, h4, h5, h6, h7, h8, h9⟩ := mkColloc_radau h
  obtain rfl : n' = n := by omega
  choose q hd h0 hend hq using fun k => lgr_poly h h1 (hs k)
  obtain ⟨φ, hφ⟩ : ∃ φ : ℝ[X], φ = ∑ k, q k * q k := ⟨_, rfl⟩
  have hφd : φ.natDegree ≤ 2 * n' + 2 := by
    rw [hφ]
    refine natDegree_sum_le_of_forall_le _ _ fun k _ => natDegree_mul_le.trans ?_
    have := hd k
    omega
  have hc : 0 ≤ (derivative φ).coeff (2 * n' + 1) := by
    rw [coeff_derivative, hφ, finsetSum_coeff]
    refine mul_nonneg (Finset.sum_nonneg fun k _ => ?_) (by positivity)
    rw [show 2 * n' + 1 + 1 = (n' + 1) + (n' + 1) by ring, coeff_mul_add_eq_of_natDegree_le (hd k) (hd k)]
    exact mul_self_nonneg _
  have main := radau_le h2 h3 h5 h6 (derivative φ) ((natDegree_derivative_le φ).trans (by omega)) hc
  rw [integral_deriv] at main
  have e1 : φ.eval 1 = ∑ k, X (n' + 1) k ^ 2 := by
    rw [hφ, eval_finsetSum]
    exact Finset.sum_congr rfl fun k _ => by rw [eval_mul, hend k, sq]
  have e0 : φ.eval 0 = ∑ k, X 0 k ^ 2 := by
    rw [hφ, eval_finsetSum]
    exact Finset.sum_congr rfl fun k _ => by rw [eval_mul, h0 k, sq]
  have ed : ∀ l, l < n' + 1 → (derivative φ).eval (pt c.collocationPoints l) = 2 * hh * ∑ k, Xd (l + 1) k * X (l + 1) k := by
    intro l hl
    rw [hφ, derivative_sum, eval_finsetSum, Finset.mul_sum]
    refine Finset.sum_congr rfl fun k _ => ?_
    rw [derivative_mul, eval_add, eval_mul, eval_mul, (hq k l hl).1, (hq k l hl).2]
    ring
  rw [e1, e0] at main
  rw [Finset.mul_sum]
  have : ∑ l ∈ Finset.range (n' + 1), weight c.collocationPoints l * (derivative φ).eval (pt c.collocationPoints l) =
      ∑ l ∈ Finset.range (n' + 1), 2 * hh * (weight c.collocationPoints l * ∑ k, Xd (l + 1) k * X (l + 1) k) :=
    Finset.sum_congr rfl fun l hl => by rw [ed l (Finset.mem_range.mp hl)]; ring
  linarith

/-! ### Specification -/

/-- The sum of the squares of the differences. -/
def dist2 {d : Nat} (y z : Fin d → ℝ) : ℝ := ∑ k, (y k - z k) ^ 2

/-- The dynamics do not drive two states apart: the component of the difference of the velocities along the difference of the states is at most
`-ν` times the distance. -/
def Dissipative {d : Nat} (F : ℝ → (Fin d → ℝ) → Fin d → ℝ) (ν : ℝ) : Prop :=
  0 ≤ ν ∧ ∀ s y z, ∑ k, (F s y k - F s z k) * (y k - z k) ≤ -ν * dist2 y z

/-- A mesh in increasing order, of any coarseness. -/
def Increasing (n : Nat) (ts : Nat → ℝ) : Prop := ∀ i, i < n → ts i < ts (i + 1)

theorem dist2_nonneg {d : Nat} (y z : Fin d → ℝ) : 0 ≤ dist2 y z := Finset.sum_nonneg fun _ _ => sq_nonneg _

theorem dist2_zero {d : Nat} {y z : Fin d → ℝ} (h : dist2 y z ≤ 0) : y = z := by
  have h0 : dist2 y z = 0 := le_antisymm h (dist2_nonneg y z)
  unfold dist2 at h0
  rw [Finset.sum_eq_zero_iff_of_nonneg fun _ _ => sq_nonneg _] at h0
  funext k
  have := pow_eq_zero_iff (two_ne_zero) |>.mp (h0 k (Finset.mem_univ k))
  linarith

/-! ### LGR -/

/-- One interval of two points that satisfy the LGR constraints. -/
theorem lgr_interval {m : Int} {c : Colloc} (hc : mkColloc m = .ok c) {q : Nat} (h1 : c.numStages = q + 2) {d n : Nat} {ts : Nat → ℝ}
    {F : ℝ → (Fin d → ℝ) → Fin d → ℝ} {ν : ℝ} (hF : Dissipative F ν) {x xd y yd : Nat → Fin d → ℝ} (hx : Discrete (.lgr c) n ts F x xd)
    (hy : Discrete (.lgr c) n ts F y yd) {i : Nat} (hi : i < n) (hh : 0 ≤ ts (i + 1) - ts i) :
    (∀ l, l < q + 1 → 0 < weight c.collocationPoints l) ∧
    dist2 (x (i * (q + 1) + (q + 1))) (y (i * (q + 1) + (q + 1))) +
      2 * ν * (ts (i + 1) - ts i) * ∑ l ∈ Finset.range (q + 1), weight c.collocationPoints l * dist2 (x (i * (q + 1) + (l + 1))) (y (i * (q + 1) + (l + 1))) ≤
      dist2 (x (i * (q + 1))) (y (i * (q + 1))) := by
  obtain ⟨n', h1', h2, h3, h4, h5, h6, h7, h8, h9⟩ := mkColloc_radau hc
  obtain rfl : n' = q := by omega
  have hst : (Transcription.lgr c).stages = n' + 2 := h1
  have hst1 : (Transcription.lgr c).stages - 1 = n' + 1 := by omega
  have pos : ∀ l, l < n' + 1 → 0 < weight c.collocationPoints l := fun l hl => radau_pos h2 h3 h4 h6 hl
  refine ⟨pos, ?_⟩
  have sx := hx.steps i hi
  have sy := hy.steps i hi
  have dx := hx.dyn i hi
  have dy := hy.dyn i hi
  rw [hst1] at sx sy dx dy
  have sd : ∀ k, Steps (.lgr c) (fun j => (fun j k => x (i * (n' + 1) + j) k - y (i * (n' + 1) + j) k) j k)
      (fun j => (fun j k => xd (i * (n' + 1) + j) k - yd (i * (n' + 1) + j) k) j k) (ts (i + 1) - ts i) := by
    intro k
    refine ((lgr_tableau hc).iff _ _ _).mpr fun j hj => ?_
    have e1 := ((lgr_tableau hc).iff _ _ _).mp (sx k) j hj
    have e2 := ((lgr_tableau hc).iff _ _ _).mp (sy k) j hj
    simp only [mul_sub, Finset.sum_sub_distrib]
    linarith
  have en := lgr_energy hc h1 sd
  have bound : ∀ l ∈ Finset.range (n' + 1), weight c.collocationPoints l * ∑ k, (xd (i * (n' + 1) + (l + 1)) k - yd (i * (n' + 1) + (l + 1)) k) *
      (x (i * (n' + 1) + (l + 1)) k - y (i * (n' + 1) + (l + 1)) k) ≤
      weight c.collocationPoints l * (-ν * dist2 (x (i * (n' + 1) + (l + 1))) (y (i * (n' + 1) + (l + 1)))) := by
    intro l hl
    rw [Finset.mem_range] at hl
    rw [dx (l + 1) (by omega), dy (l + 1) (by omega)]
    exact mul_le_mul_of_nonneg_left (hF.2 _ _ _) (pos l hl).le
  have sum := Finset.sum_le_sum bound
  have e : ∑ l ∈ Finset.range (n' + 1), weight c.collocationPoints l * (-ν * dist2 (x (i * (n' + 1) + (l + 1))) (y (i * (n' + 1) + (l + 1)))) =
      -ν * ∑ l ∈ Finset.range (n' + 1), weight c.collocationPoints l * dist2 (x (i * (n' + 1) + (l + 1))) (y (i * (n' + 1) + (l + 1))) := by
    rw [Finset.mul_sum]
    exact Finset.sum_congr rfl fun _ _ => by ring
  rw [e] at sum
  have h2h : 0 ≤ 2 * (ts (i + 1) - ts i) := by linarith
  have fin := mul_le_mul_of_nonneg_left sum h2h
  unfold dist2 at *
  simp only [Nat.add_zero] at en
  linarith

/-- **C92 (LGR).** For dynamics that do not drive states apart, the LGR constraints do not either, on every mesh however coarse: the distance of two
points that satisfy the constraints does not grow from one interval to the next. If the dynamics contract, it shrinks by a factor that depends on
the step and the transcription only. -/
theorem C92_lgr {kwargs : List (String × Int)} {t : Transcription} (ht : makeTranscription "LGR" kwargs = .ok t) :
    ∃ β, 0 < β ∧ ∀ (d n : Nat) (ts : Nat → ℝ), Increasing n ts → ∀ (F : ℝ → (Fin d → ℝ) → Fin d → ℝ) (ν : ℝ), Dissipative F ν →
      ∀ x xd y yd, Discrete t n ts F x xd → Discrete t n ts F y yd → ∀ i, i < n →
      dist2 (x ((i + 1) * (t.stages - 1))) (y ((i + 1) * (t.stages - 1))) * (1 + 2 * ν * β * (ts (i + 1) - ts i)) ≤
        dist2 (x (i * (t.stages - 1))) (y (i * (t.stages - 1))) := by
  obtain ⟨m, c, hc, h | h⟩ := make_lgr (Or.inl rfl) ht
  swap
  · exact absurd h.1 (by decide)
  obtain ⟨_, rfl⟩ := h
  obtain ⟨q, h1, h2, h3, h4, h5, h6, h7, h8, h9⟩ := mkColloc_radau hc
  have hst : (Transcription.lgr c).stages - 1 = q + 1 := by show c.numStages - 1 = _; omega
  refine ⟨weight c.collocationPoints q, radau_pos h2 h3 h4 h6 (by omega), ?_⟩
  intro d n ts hts F ν hF x xd y yd hx hy i hi
  have hh : 0 ≤ ts (i + 1) - ts i := by have := hts i hi; linarith
  obtain ⟨pos, main⟩ := lgr_interval hc h1 hF hx hy hi hh
  rw [hst, show (i + 1) * (q + 1) = i * (q + 1) + (q + 1) by ring]
  have one : weight c.collocationPoints q * dist2 (x (i * (q + 1) + (q + 1))) (y (i * (q + 1) + (q + 1))) ≤
      ∑ l ∈ Finset.range (q + 1), weight c.collocationPoints l * dist2 (x (i * (q + 1) + (l + 1))) (y (i * (q + 1) + (l + 1))) :=
    Finset.single_le_sum (f := fun l => weight c.collocationPoints l * dist2 (x (i * (q + 1) + (l + 1))) (y (i * (q + 1) + (l + 1))))
      (fun l hl => mul_nonneg (pos l (Finset.mem_range.mp hl)).le (dist2_nonneg _ _)) (Finset.mem_range.mpr (by omega))
  have := mul_le_mul_of_nonneg_left one (show 0 ≤ 2 * ν * (ts (i + 1) - ts i) by have := hF.1; positivity)
  linarith

/-- **C92 (no growth).** The distance at every interval point is at most the distance at the start. -/
theorem C92_no_growth {kwargs : List (String × Int)} {t : Transcription} (ht : makeTranscription "LGR" kwargs = .ok t) {d n : Nat} {ts : Nat → ℝ}
    (hts : Increasing n ts) {F : ℝ → (Fin d → ℝ) → Fin d → ℝ} {ν : ℝ} (hF : Dissipative F ν) {x xd y yd : Nat → Fin d → ℝ}
    (hx : Discrete t n ts F x xd) (hy : Discrete t n ts F y yd) : ∀ i, i ≤ n → dist2 (x (i * (t.stages - 1))) (y (i * (t.stages - 1))) ≤ dist2 (x 0) (y 0) := by
  obtain ⟨β, hβ, main⟩ := C92_lgr ht
  intro i
  induction i with
  | zero => intro _; simp
  | succ i ih =>
    intro hi
    have h := main d n ts hts F ν hF x xd y yd hx hy i (by omega)
    have hh := hts i (by omega)
    have : 0 ≤ 2 * ν * β * (ts (i + 1) - ts i) := by
      have := hF.1
      have : 0 ≤ ts (i + 1) - ts i := by linarith
      positivity
    have p := mul_nonneg (dist2_nonneg (x ((i + 1) * (t.stages - 1))) (y ((i + 1) * (t.stages - 1)))) this
    have := ih (by omega)
    linarith

/-- **C92 (at most one).** If the dynamics contract, there is at most one point from a given start that satisfies the LGR constraints, on every mesh
however coarse. -/
theorem C92_unique {kwargs : List (String × Int)} {t : Transcription} (ht : makeTranscription "LGR" kwargs = .ok t) {d n : Nat} {ts : Nat → ℝ}
    (hts : Increasing n ts) {F : ℝ → (Fin d → ℝ) → Fin d → ℝ} {ν : ℝ} (hF : Dissipative F ν) (hν : 0 < ν) {x xd y yd : Nat → Fin d → ℝ}
    (hx : Discrete t n ts F x xd) (hy : Discrete t n ts F y yd) (h0 : x 0 = y 0) :
    ∀ i, i < n → ∀ j, j < t.stages → x (i * (t.stages - 1) + j) = y (i * (t.stages - 1) + j) := by
  have start : ∀ i, i ≤ n → dist2 (x (i * (t.stages - 1))) (y (i * (t.stages - 1))) ≤ 0 := by
    intro i hi
    have := C92_no_growth ht hts hF hx hy i hi
    rw [h0] at this
    simpa [dist2] using this
  obtain ⟨m, c, hc, h | h⟩ := make_lgr (Or.inl rfl) ht
  swap
  · exact absurd h.1 (by decide)
  obtain ⟨_, rfl⟩ := h
  obtain ⟨q, h1, h2, h3, h4, h5, h6, h7, h8, h9⟩ := mkColloc_radau hc
  have hst : (Transcription.lgr c).stages = q + 2 := h1
  have hst1 : (Transcription.lgr c).stages - 1 = q + 1 := by omega
  rw [hst1] at start ⊢
  intro i hi j hj
  have hh := hts i hi
  obtain ⟨pos, main⟩ := lgr_interval hc h1 hF hx hy hi (by linarith)
  have s0 := start i hi.le
  cases j with
  | zero => exact dist2_zero s0
  | succ l =>
    have hl : l < q + 1 := by omega
    refine dist2_zero ?_
    have one : weight c.collocationPoints l * dist2 (x (i * (q + 1) + (l + 1))) (y (i * (q + 1) + (l + 1))) ≤
        ∑ l ∈ Finset.range (q + 1), weight c.collocationPoints l * dist2 (x (i * (q + 1) + (l + 1))) (y (i * (q + 1) + (l + 1))) :=
      Finset.single_le_sum (f := fun l => weight c.collocationPoints l * dist2 (x (i * (q + 1) + (l + 1))) (y (i * (q + 1) + (l + 1))))
        (fun l hl => mul_nonneg (pos l (Finset.mem_range.mp hl)).le (dist2_nonneg _ _)) (Finset.mem_range.mpr hl)
    have hpos : 0 < 2 * ν * (ts (i + 1) - ts i) := by
      have : 0 < ts (i + 1) - ts i := by linarith
      positivity
    have k := mul_le_mul_of_nonneg_left one hpos.le
    have e := dist2_nonneg (x (i * (q + 1) + (q + 1))) (y (i * (q + 1) + (q + 1)))
    have : 2 * ν * (ts (i + 1) - ts i) * (weight c.collocationPoints l * dist2 (x (i * (q + 1) + (l + 1))) (y (i * (q + 1) + (l + 1)))) ≤ 0 := by linarith
    have w := pos l hl
    by_contra hne
    push Not at hne
    have := mul_pos hpos (mul_pos w hne)
    linarith

end Lumos.Order
