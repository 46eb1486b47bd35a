import Verif.Trans.Quad
import Verif.Trans.OcpLink
/-!
# C76: the quadrature rules of the transcriptions

Every transcription moves a state over an interval by `h` times a weighted mean of its derivatives at the stages, with weights
that are not negative and add up to one.
-/

namespace Lumos.Trans

open Polynomial Lumos Lumos.Ocp DecVar DecVar.Layout

/-! ## Specification -/

/-- Degree up to which the quadrature of a transcription with `m` stages is exact. -/
def quadDegree (name : String) (m : Nat) : Nat :=
  if name = "ForwardEuler" then 0 else if name = "Trapezoidal" then 1
  else if name = "LGR" then 2 * m - 4 else max (m - 1) (2 * m - 4)

/-- `w` is a quadrature rule on `[0, 1]` at the stages of `t`, with non-negative weights, exact up to degree `deg`. -/
structure IsRule (t : Transcription) (w : Nat → ℝ) (deg : Nat) : Prop where
  nonneg : ∀ j, j < t.stages → 0 ≤ w j
  total : ∑ j ∈ Finset.range t.stages, w j = 1
  exact : ∀ p : ℝ[X], p.natDegree ≤ deg → ∑ j ∈ Finset.range t.stages, w j * p.eval (t.tau j) = ∫ s in (0 : ℝ)..1, p.eval s

/-! ## The LGR points -/

theorem mkColloc_radau {m : Int} {c : Colloc} (h : mkColloc m = .ok c) :
    ∃ n : Nat, c.numStages = n + 2 ∧ c.collocationPoints.length = n + 1 ∧ c.collocationPoints.Pairwise (· < ·)
      ∧ (∀ t ∈ c.collocationPoints, 0 < t ∧ t ≤ 1) ∧ c.collocationPoints.getD n 0 = 1
      ∧ (∀ l, l < n + 1 → (radauNode n).eval (pt c.collocationPoints l) = 0)
      ∧ c.interpPoints = 0 :: c.collocationPoints ∧ c.dMatrix = diffMatrix c.interpPoints c.collocationPoints
      ∧ c.interpPoints.Pairwise (· < ·) := by
  by_cases hm : m < 2
  · rw [mkColloc_error m hm] at h; cases h
  obtain ⟨n, rfl⟩ : ∃ n : Nat, m = (n : Int) + 2 := ⟨(m - 2).toNat, by omega⟩
  obtain ⟨c', h1, h2, h3, h4, h5, h6⟩ := mkColloc_ok ((n : Int) + 2) (by omega)
  rw [h, Except.ok.injEq] at h1
  subst h1
  obtain ⟨pts, hpts, hlen, hpw, hin, hlast, hz⟩ := C37_lgr_points ((n : Int) + 2 - 1) (by omega)
  have hc : c.collocationPoints = pts.map fun t => (t + 1) / 2 := by
    unfold mkColloc at h
    rw [hpts] at h
    simp only [bind, Except.bind, pure, Except.pure, Except.ok.injEq] at h
    rw [← h]
  have hl : pts.length = n + 1 := by omega
  have hlc : c.collocationPoints.length = n + 1 := by rw [hc, List.length_map, hl]
  refine ⟨n, by omega, hlc, ?_, ?_, ?_, ?_, h4, h5, h6.incr⟩
  · rw [hc, List.pairwise_map]
    exact hpw.imp fun h => by linarith
  · intro t ht
    rw [hc] at ht
    obtain ⟨s, hs, rfl⟩ := List.mem_map.mp ht
    have := hin s hs
    constructor <;> linarith
  · rw [hc, List.getD_eq_getElem?_getD, List.getElem?_map]
    have : pts[n]? = some 1 := by
      rw [List.getLast?_eq_getElem?, hl] at hlast
      exact hlast
    rw [this]; norm_num
  · intro l hl'
    have hlp : l < pts.length := by omega
    have hp : pt c.collocationPoints l = (pts[l] + 1) / 2 := by
      rw [hc]; simp [pt, hlp]
    rw [hp]
    have := (hz pts[l]).mp (List.getElem_mem hlp)
    have e1 : ((n : Int) + 2 - 1 - 1).toNat = n := by omega
    have e2 : ((n : Int) + 2 - 1).toNat = n + 1 := by omega
    rw [e1, e2] at this
    unfold radauNode
    simp only [eval_comp, eval_add, eval_sub, eval_C, eval_mul, eval_X]
    rw [show (1 : ℝ) - 2 * ((pts[l] + 1) / 2) = -pts[l] by ring]
    exact this

theorem make_lgr {name : String} {kwargs : List (String × Int)} {t : Transcription} (hn : name = "LGR" ∨ name = "LGRIntegral")
    (h : makeTranscription name kwargs = .ok t) : ∃ m c, mkColloc m = .ok c ∧
      ((name = "LGR" ∧ t = .lgr c) ∨ (name = "LGRIntegral" ∧ t = .lgrIntegral c (integMatrix c.interpPoints c.collocationPoints))) := by
  have key : ∀ {α : Type} (f : Int → Py α) (a : α), callNumStages f kwargs = .ok a → ∃ m, f m = .ok a := by
    intro α f a h
    unfold callNumStages at h
    split_ifs at h
    exact ⟨_, h⟩
  rcases hn with rfl | rfl
  · have h' : callNumStages mkLGR kwargs = .ok t := by simpa [makeTranscription] using h
    obtain ⟨m, hm⟩ := key _ _ h'
    unfold mkLGR at hm
    rcases hc : mkColloc m with e | c
    · rw [hc] at hm; cases hm
    · rw [hc] at hm
      exact ⟨m, c, hc, Or.inl ⟨rfl, (Except.ok.inj hm).symm⟩⟩
  · have h' : callNumStages mkLGRIntegral kwargs = .ok t := by simpa [makeTranscription] using h
    obtain ⟨m, hm⟩ := key _ _ h'
    unfold mkLGRIntegral at hm
    rcases hc : mkColloc m with e | c
    · rw [hc] at hm; cases hm
    · rw [hc] at hm
      exact ⟨m, c, hc, Or.inr ⟨rfl, (Except.ok.inj hm).symm⟩⟩

theorem eval_deg_one (p : ℝ[X]) (hp : p.natDegree ≤ 1) (t : ℝ) : p.eval t = p.coeff 0 + p.coeff 1 * t := by
  rw [eval_eq_sum_range' (n := 2) (by omega)]
  simp [Finset.sum_range_succ]

theorem integral_deg_one (p : ℝ[X]) (hp : p.natDegree ≤ 1) : ∫ s in (0 : ℝ)..1, p.eval s = p.coeff 0 + p.coeff 1 / 2 := by
  have h := integ_eval p 0 1
  have e : p = C (p.coeff 0) + C (p.coeff 1) * X := by
    rw [add_comm]
    exact eq_X_add_C_of_natDegree_le_one hp
  have h2 : integral 0 1 p = p.coeff 0 + p.coeff 1 / 2 := by
    have h3 : derivative (C (p.coeff 0) * X + C (p.coeff 1 / 2) * X ^ 2) = p := by
      conv_rhs => rw [e]
      simp only [derivative_add, derivative_mul, derivative_C, derivative_X, derivative_X_pow]
      rw [show C (p.coeff 1) = C (p.coeff 1 / 2) * C 2 by rw [← C_mul]; congr 1; ring]
      simp
      ring
    conv_lhs => rw [← h3]
    rw [integral_deriv]
    simp
  exact h2

/-- The weights at the stages of the LGR scheme. -/
noncomputable def lgrWeights (c : List ℝ) : Nat → ℝ
  | 0 => 0
  | l + 1 => weight c l

theorem sum_lgrWeights (c : List ℝ) (n : Nat) (f : Nat → ℝ) :
    ∑ j ∈ Finset.range (n + 2), lgrWeights c j * f j = ∑ l ∈ Finset.range (n + 1), weight c l * f (l + 1) := by
  rw [Finset.sum_range_succ']
  simp [lgrWeights]

theorem pt_cons_succ (a : ℝ) (c : List ℝ) (l : Nat) : pt (a :: c) (l + 1) = pt c l := by simp [pt]

/-- LGR: the rule. -/
theorem lgr_rule {m : Int} {c : Colloc} (h : mkColloc m = .ok c) :
    IsRule (.lgr c) (lgrWeights c.collocationPoints) (2 * c.numStages - 4) := by
  obtain ⟨n, h1, h2, h3, h4, h5, h6, h7, h8, h9⟩ := mkColloc_radau h
  have tau : ∀ l, Transcription.tau (.lgr c) (l + 1) = pt c.collocationPoints l := by
    intro l
    simp only [Transcription.tau, Transcription.interp, relPoints, Option.getD_some, h7, pt_cons_succ]
  have ex : ∀ p : ℝ[X], p.natDegree ≤ 2 * c.numStages - 4 →
      ∑ j ∈ Finset.range (Transcription.lgr c).stages, lgrWeights c.collocationPoints j * p.eval (Transcription.tau (.lgr c) j)
        = ∫ s in (0 : ℝ)..1, p.eval s := by
    intro p hp
    show ∑ j ∈ Finset.range c.numStages, _ = integral 0 1 p
    rw [h1, sum_lgrWeights, radau_exact h2 h3 h6 p (by omega)]
    exact Finset.sum_congr rfl fun l _ => by rw [tau]
  refine ⟨?_, ?_, ex⟩
  · intro j hj
    have hj : j < c.numStages := hj
    cases j with
    | zero => exact le_refl _
    | succ l => exact (radau_pos h2 h3 h4 h6 (by omega)).le
  · have := ex 1 (by simp)
    simpa using this

/-- LGR: the change of a state over an interval. -/
theorem lgr_step {m : Int} {c : Colloc} (h : mkColloc m = .ok c) (X Xd : Nat → ℝ) (hh : ℝ)
    (hz : ∀ l, l < c.numStages - 1 → ∑ j ∈ Finset.range c.numStages, entry (Transcription.lgr c).A l j * X j
      = hh * ∑ j ∈ Finset.range c.numStages, entry (Transcription.lgr c).B l j * Xd j) :
    X (c.numStages - 1) - X 0 = hh * ∑ j ∈ Finset.range c.numStages, lgrWeights c.collocationPoints j * Xd j := by
  obtain ⟨n, h1, h2, h3, h4, h5, h6, h7, h8, h9⟩ := mkColloc_radau h
  have hs : c.interpPoints.length = n + 2 := by rw [h7, List.length_cons, h2]
  obtain ⟨p, hp⟩ : ∃ p : ℝ[X], p = ∑ j ∈ Finset.range (n + 2), C (X j) * makeLagrange c.interpPoints j := ⟨_, rfl⟩
  have pv : ∀ j, j < n + 2 → p.eval (pt c.interpPoints j) = X j := by
    intro j hj
    rw [hp, eval_finsetSum, Finset.sum_eq_single j]
    · rw [eval_mul, eval_C, basis_eval h9 (by omega) (by omega), if_pos rfl, mul_one]
    · intro i hi hne
      rw [eval_mul, basis_eval h9 (by have := Finset.mem_range.mp hi; omega) (by omega), if_neg hne, mul_zero]
    · intro hn; exact absurd (Finset.mem_range.mpr hj) hn
  have pd : p.natDegree ≤ n + 1 := by
    rw [hp]
    refine natDegree_sum_le_of_forall_le _ _ fun j hj => (natDegree_C_mul_le _ _).trans ?_
    rw [basis_degree h9 (by have := Finset.mem_range.mp hj; omega), hs]
    omega
  have der : ∀ l, l < n + 1 → (derivative p).eval (pt c.collocationPoints l) = hh * Xd (l + 1) := by
    intro l hl
    rw [← diffMatrix_exact h9 c.collocationPoints p (by omega) (by omega), hs]
    have e := hz l (by omega)
    rw [h1] at e
    have eB : ∑ j ∈ Finset.range (n + 2), entry (Transcription.lgr c).B l j * Xd j = Xd (l + 1) := by
      rw [Finset.sum_eq_single (l + 1)]
      · simp only [Transcription.B, Transcription.numCons, Transcription.stages]
        rw [diags_entry _ _ (by omega) (by omega)]
        simp
      · intro j hj hne
        simp only [Transcription.B, Transcription.numCons, Transcription.stages]
        rw [diags_entry _ _ (by omega) (by have := Finset.mem_range.mp hj; omega)]
        simp [hne]
      · intro hn
        exact absurd (Finset.mem_range.mpr (by omega)) hn
    rw [eB] at e
    rw [← e]
    refine Finset.sum_congr rfl fun j hj => ?_
    rw [pv j (Finset.mem_range.mp hj)]
    simp only [entry, Transcription.A, h8]
  have last : pt c.interpPoints (n + 1) = 1 := by rw [h7, pt_cons_succ]; exact h5
  have first : pt c.interpPoints 0 = 0 := by rw [h7]; rfl
  have hi : integral 0 1 (derivative p) = X (n + 1) - X 0 := by
    rw [integral_deriv]
    conv_lhs => rw [← first, ← last]
    rw [pv _ (by omega), pv _ (by omega)]
  rw [interpolatory h3 _ (by have := natDegree_derivative_le p; omega), h2] at hi
  rw [h1, sum_lgrWeights, show n + 2 - 1 = n + 1 by omega, ← hi, Finset.mul_sum]
  refine Finset.sum_congr rfl fun l hl => ?_
  rw [der l (Finset.mem_range.mp hl)]
  ring

/-- LGRIntegral: the rule. -/
theorem lgri_rule {m : Int} {c : Colloc} (h : mkColloc m = .ok c) :
    IsRule (.lgrIntegral c (integMatrix c.interpPoints c.collocationPoints)) (weight c.interpPoints)
      (max (c.numStages - 1) (2 * c.numStages - 4)) := by
  obtain ⟨n, h1, h2, h3, h4, h5, h6, h7, h8, h9⟩ := mkColloc_radau h
  have hs : c.interpPoints.length = n + 2 := by rw [h7, List.length_cons, h2]
  have first : pt c.interpPoints 0 = 0 := by rw [h7]; rfl
  have tau : ∀ j, Transcription.tau (.lgrIntegral c (integMatrix c.interpPoints c.collocationPoints)) j = pt c.interpPoints j := by
    intro j
    simp only [Transcription.tau, Transcription.interp, relPoints, Option.getD_some]
  -- with at least two collocation points the start of the interval has weight zero
  have w0 : 0 < n → weight c.interpPoints 0 = 0 := by
    intro hn
    unfold weight
    rw [radau_exact h2 h3 h6 _ (by rw [basis_degree h9 (by omega), hs]; omega)]
    refine Finset.sum_eq_zero fun l hl => ?_
    have := basis_eval h9 (i := 0) (j := l + 1) (by omega) (by have := Finset.mem_range.mp hl; omega)
    rw [h7, pt_cons_succ, ← h7] at this
    rw [this, if_neg (by omega), mul_zero]
  have ws : 0 < n → ∀ l, l < n + 1 → weight c.interpPoints (l + 1) = weight c.collocationPoints l := by
    intro hn l hl
    conv_lhs => unfold weight
    rw [radau_exact h2 h3 h6 _ (by rw [basis_degree h9 (by omega), hs]; omega), Finset.sum_eq_single l]
    · have := basis_eval h9 (i := l + 1) (j := l + 1) (by omega) (by omega)
      rw [h7, pt_cons_succ, ← h7] at this
      rw [this, if_pos rfl, mul_one]
    · intro j hj hne
      have := basis_eval h9 (i := l + 1) (j := j + 1) (by omega) (by have := Finset.mem_range.mp hj; omega)
      rw [h7, pt_cons_succ, ← h7] at this
      rw [this, if_neg (by omega), mul_zero]
    · intro hn; exact absurd (Finset.mem_range.mpr hl) hn
  have ex : ∀ p : ℝ[X], p.natDegree ≤ max (c.numStages - 1) (2 * c.numStages - 4) →
      ∑ j ∈ Finset.range c.numStages, weight c.interpPoints j * p.eval (pt c.interpPoints j) = integral 0 1 p := by
    intro p hp
    rw [h1] at hp ⊢
    by_cases hd : p.natDegree ≤ n + 1
    · rw [interpolatory h9 p (by omega), hs]
    · have hn : 0 < n := by
        rcases Nat.eq_zero_or_pos n with h0 | h0
        · subst h0; simp at hp; omega
        · exact h0
      rw [radau_exact h2 h3 h6 p (by
        rcases le_max_iff.mp hp with h | h <;> omega), Finset.sum_range_succ', w0 hn]
      simp only [zero_mul, add_zero]
      refine Finset.sum_congr rfl fun l hl => ?_
      rw [ws hn l (Finset.mem_range.mp hl), h7, pt_cons_succ]
  refine ⟨?_, ?_, ?_⟩
  · intro j hj
    have hj : j < c.numStages := hj
    rcases Nat.eq_zero_or_pos n with h0 | h0
    · -- two stages: the trapezoidal rule
      subst h0
      have hpt1 : pt c.interpPoints 1 = 1 := by rw [h7, pt_cons_succ]; exact h5
      have e1 := ex X (by rw [natDegree_X, h1]; simp)
      have e2 := ex (1 - X) (by
        rw [h1]
        refine (natDegree_sub_le _ _).trans ?_
        simp)
      rw [h1] at e1 e2
      simp only [Finset.sum_range_succ, Finset.sum_range_zero, eval_sub, eval_one, eval_X, first, hpt1] at e1 e2
      have i1 : integral 0 1 (X : ℝ[X]) = 1 / 2 := by
        have := integral_deg_one X (by simp)
        simp [coeff_X] at this
        unfold integral
        simpa using this
      have i2 : integral 0 1 (1 - X : ℝ[X]) = 1 / 2 := by
        rw [integral_sub, i1]
        unfold integral
        norm_num
      rw [i1] at e1
      rw [i2] at e2
      have : j = 0 ∨ j = 1 := by omega
      rcases this with rfl | rfl <;> linarith
    · cases j with
      | zero => rw [w0 h0]
      | succ l => rw [ws h0 l (by omega)]; exact (radau_pos h2 h3 h4 h6 (by omega)).le
  · have := ex 1 (by simp)
    simp only [eval_one, mul_one] at this
    show ∑ j ∈ Finset.range c.numStages, weight c.interpPoints j = 1
    rw [this]
    unfold integral
    simp
  · intro p hp
    refine Eq.trans (Finset.sum_congr rfl fun j _ => by rw [tau]) (ex p hp)

/-- LGRIntegral: the change of a state over an interval. -/
theorem lgri_step {m : Int} {c : Colloc} (h : mkColloc m = .ok c) (X Xd : Nat → ℝ) (hh : ℝ)
    (hz : ∀ l, l < c.numStages - 1 → ∑ j ∈ Finset.range c.numStages,
        entry (Transcription.lgrIntegral c (integMatrix c.interpPoints c.collocationPoints)).A l j * X j
      = hh * ∑ j ∈ Finset.range c.numStages,
        entry (Transcription.lgrIntegral c (integMatrix c.interpPoints c.collocationPoints)).B l j * Xd j) :
    X (c.numStages - 1) - X 0 = hh * ∑ j ∈ Finset.range c.numStages, weight c.interpPoints j * Xd j := by
  obtain ⟨n, h1, h2, h3, h4, h5, h6, h7, h8, h9⟩ := mkColloc_radau h
  have hs : c.interpPoints.length = n + 2 := by rw [h7, List.length_cons, h2]
  have first : pt c.interpPoints 0 = 0 := by rw [h7]; rfl
  have e := hz n (by omega)
  rw [h1] at e ⊢
  have eA : ∑ j ∈ Finset.range (n + 2),
      entry (Transcription.lgrIntegral c (integMatrix c.interpPoints c.collocationPoints)).A n j * X j = X (n + 1) - X 0 := by
    rw [Finset.sum_range_succ']
    have ent0 : entry (Transcription.lgrIntegral c (integMatrix c.interpPoints c.collocationPoints)).A n 0 = -1 := by
      simp [entry, Transcription.A, eye, h1]
    have ents : ∀ j, j < n + 1 →
        entry (Transcription.lgrIntegral c (integMatrix c.interpPoints c.collocationPoints)).A n (j + 1)
          = if n = j then 1 else 0 := by
      intro j hj
      simp [entry, Transcription.A, eye, h1, hj]
    rw [ent0, Finset.sum_congr rfl (fun j hj => by rw [ents j (Finset.mem_range.mp hj)])]
    rw [Finset.sum_eq_single n]
    · rw [if_pos rfl]; ring
    · intro j _ hne
      rw [if_neg (Ne.symm hne), zero_mul]
    · intro hn; exact absurd (Finset.mem_range.mpr (by omega)) hn
  have eB : ∀ j, j < n + 2 → entry (Transcription.lgrIntegral c (integMatrix c.interpPoints c.collocationPoints)).B n j
      = weight c.interpPoints j := by
    intro j hj
    have hent := integMatrix_entry c.interpPoints c.collocationPoints (i := n) (j := j) (by omega) (by omega)
    show ((integMatrix c.interpPoints c.collocationPoints).getD n []).getD j 0 = _
    rw [hent, integ_eval, first]
    unfold weight integral
    rw [show pt c.collocationPoints n = 1 from h5]
  rw [eA] at e
  rw [show n + 2 - 1 = n + 1 by omega, e]
  congr 1
  exact Finset.sum_congr rfl fun j hj => by rw [eB j (Finset.mem_range.mp hj)]

/-! ## C76 -/

/-- The step equations of a transcription, for one state. -/
def Steps (t : Transcription) (X Xd : Nat → ℝ) (h : ℝ) : Prop :=
  ∀ l, l < t.stages - 1 → ∑ j ∈ Finset.range t.stages, entry t.A l j * X j
    = h * ∑ j ∈ Finset.range t.stages, entry t.B l j * Xd j

theorem rule_exists {name : String} {kwargs : List (String × Int)} {t : Transcription} (ht : makeTranscription name kwargs = .ok t) :
    ∃ w : Nat → ℝ, IsRule t w (quadDegree name t.stages) ∧
      ∀ (X Xd : Nat → ℝ) (h : ℝ), Steps t X Xd h →
        X (t.stages - 1) - X 0 = h * ∑ j ∈ Finset.range t.stages, w j * Xd j := by
  by_cases h1 : name ∈ ["ForwardEuler", "Trapezoidal", "LGR", "LGRIntegral"]
  · simp only [List.mem_cons, List.not_mem_nil, or_false] at h1
    rcases h1 with rfl | rfl | rfl | rfl
    · have he : t = .forwardEuler := by
        have hk : kwargs = [] := by
          by_contra hne
          rw [C38_low_order.2.2.2.2 "ForwardEuler" (by simp) kwargs hne] at ht
          cases ht
        subst hk
        exact (Except.ok.inj (C38_low_order.1.symm.trans ht)).symm
      subst he
      refine ⟨fun j => if j = 0 then 1 else 0, ⟨?_, ?_, ?_⟩, ?_⟩
      · intro j _; split_ifs <;> norm_num
      · simp [Transcription.stages]
      · intro p hp
        have hp0 : p.natDegree ≤ 0 := by simpa [quadDegree] using hp
        rw [eq_C_of_natDegree_le_zero hp0]
        simp [Transcription.stages]
      · intro X Xd h hz
        have := hz 0 (by simp [Transcription.stages])
        simp only [Transcription.stages, Finset.sum_range_succ, Finset.sum_range_zero, Transcription.A, Transcription.B,
          Transcription.numCons] at this ⊢
        rw [diags_entry _ _ (by omega) (by omega), diags_entry _ _ (by omega) (by omega),
          diags_entry _ _ (by omega) (by omega), diags_entry _ _ (by omega) (by omega)] at this
        simp at this ⊢
        linarith
    · have he : t = .trapezoidal := by
        have hk : kwargs = [] := by
          by_contra hne
          rw [C38_low_order.2.2.2.2 "Trapezoidal" (by simp) kwargs hne] at ht
          cases ht
        subst hk
        exact (Except.ok.inj (C38_low_order.2.2.1.symm.trans ht)).symm
      subst he
      refine ⟨fun _ => 1 / 2, ⟨fun _ _ => by norm_num, ?_, ?_⟩, ?_⟩
      · simp [Transcription.stages]
      · intro p hp
        have hp1 : p.natDegree ≤ 1 := by simpa [quadDegree] using hp
        rw [integral_deg_one p hp1]
        have t0 : Transcription.trapezoidal.tau 0 = 0 := rfl
        have t1 : Transcription.trapezoidal.tau 1 = 1 := rfl
        simp only [Transcription.stages, Finset.sum_range_succ, Finset.sum_range_zero, t0, t1, eval_deg_one p hp1]
        ring
      · intro X Xd h hz
        have := hz 0 (by simp [Transcription.stages])
        simp only [Transcription.stages, Finset.sum_range_succ, Finset.sum_range_zero, Transcription.A, Transcription.B,
          Transcription.numCons] at this ⊢
        rw [diags_entry _ _ (by omega) (by omega), diags_entry _ _ (by omega) (by omega),
          diags_entry _ _ (by omega) (by omega), diags_entry _ _ (by omega) (by omega)] at this
        norm_num at this ⊢
        linarith
    · obtain ⟨m, c, hc, ⟨_, rfl⟩ | ⟨h0, _⟩⟩ := make_lgr (Or.inl rfl) ht
      · exact ⟨_, lgr_rule hc, fun X Xd h hz => lgr_step hc X Xd h hz⟩
      · exact absurd h0 (by decide)
    · obtain ⟨m, c, hc, ⟨h0, _⟩ | ⟨_, rfl⟩⟩ := make_lgr (Or.inr rfl) ht
      · exact absurd h0 (by decide)
      · exact ⟨_, lgri_rule hc, fun X Xd h hz => lgri_step hc X Xd h hz⟩
  · rw [C38_unknown_name name kwargs h1] at ht
    cases ht

/-- **C76**: every transcription has one quadrature rule, with weights that are not negative and add up to one: wherever its
continuity constraint is zero, every state changes over the interval by the length times the weighted mean of its derivatives. The
rule is exact to degree 0 (ForwardEuler), 1 (Trapezoidal), `2m - 4` (LGR with `m` stages) and the larger of `m - 1` and `2m - 4`
(LGRIntegral). -/
theorem C76_quadrature {name : String} {kwargs : List (String × Int)} {t : Transcription}
    (ht : makeTranscription name kwargs = .ok t) :
    ∃ w : Nat → ℝ, IsRule t w (quadDegree name t.stages) ∧
      ∀ (d : Nat) (X Xd : Nat → Nat → ℝ) (h : ℝ),
        t.continuityCon (grid t.stages d X) (grid t.stages d Xd) h = .ok (grid (t.stages - 1) d fun _ _ => 0) →
        ∀ k, k < d → X (t.stages - 1) k - X 0 k = h * ∑ j ∈ Finset.range t.stages, w j * Xd j k := by
  obtain ⟨w, hw, hstep⟩ := rule_exists ht
  refine ⟨w, hw, fun d X Xd h hz k hk => hstep (fun j => X j k) (fun j => Xd j k) h fun l hl => ?_⟩
  rw [con_eq ht, Except.ok.injEq] at hz
  have := grid_inj hz hl hk
  linarith

/-- **C76 (rates)**: if the derivative of a state is between `lo` and `hi` at every stage, the state changes over the interval by at
least `h lo` and at most `h hi`. -/
theorem C76_rate {name : String} {kwargs : List (String × Int)} {t : Transcription}
    (ht : makeTranscription name kwargs = .ok t) (d : Nat) (X Xd : Nat → Nat → ℝ) {h : ℝ} (hh : 0 ≤ h)
    (hz : t.continuityCon (grid t.stages d X) (grid t.stages d Xd) h = .ok (grid (t.stages - 1) d fun _ _ => 0))
    {k : Nat} (hk : k < d) {lo hi : ℝ} (hb : ∀ j, j < t.stages → lo ≤ Xd j k ∧ Xd j k ≤ hi) :
    h * lo ≤ X (t.stages - 1) k - X 0 k ∧ X (t.stages - 1) k - X 0 k ≤ h * hi := by
  obtain ⟨w, hw, hs⟩ := C76_quadrature ht
  rw [hs d X Xd h hz k hk]
  have hlo : lo = ∑ j ∈ Finset.range t.stages, w j * lo := by rw [← Finset.sum_mul, hw.total, one_mul]
  have hhi : hi = ∑ j ∈ Finset.range t.stages, w j * hi := by rw [← Finset.sum_mul, hw.total, one_mul]
  constructor
  · conv_lhs => rw [hlo]
    exact mul_le_mul_of_nonneg_left (Finset.sum_le_sum fun j hj =>
      mul_le_mul_of_nonneg_left (hb j (Finset.mem_range.mp hj)).1 (hw.nonneg j (Finset.mem_range.mp hj))) hh
  · conv_rhs => rw [hhi]
    exact mul_le_mul_of_nonneg_left (Finset.sum_le_sum fun j hj =>
      mul_le_mul_of_nonneg_left (hb j (Finset.mem_range.mp hj)).2 (hw.nonneg j (Finset.mem_range.mp hj))) hh

/-- **C76 (integrals)**: if the derivatives of a state at the stages are those of a function of time that is a polynomial `g` of
degree up to that of the rule on the interval, the state changes over the interval by exactly its integral, whatever happens at the
stages between. For LGR this is nearly twice the degree for which the stages themselves are exact (C34). -/
theorem C76_integral {name : String} {kwargs : List (String × Int)} {t : Transcription}
    (ht : makeTranscription name kwargs = .ok t) (d : Nat) (X Xd : Nat → Nat → ℝ) {h : ℝ}
    (hz : t.continuityCon (grid t.stages d X) (grid t.stages d Xd) h = .ok (grid (t.stages - 1) d fun _ _ => 0))
    {k : Nat} (hk : k < d) (g : ℝ[X]) (hg : g.natDegree ≤ quadDegree name t.stages) (t0 : ℝ)
    (hx : ∀ j, j < t.stages → Xd j k = g.eval (t0 + h * t.tau j)) :
    X (t.stages - 1) k - X 0 k = ∫ s in t0..(t0 + h), g.eval s := by
  obtain ⟨w, hw, hs⟩ := C76_quadrature ht
  rw [hs d X Xd h hz k hk]
  have e := hw.exact (toRel g t0 h) ((toRel_degree g t0 h).trans hg)
  simp only [toRel_eval] at e
  rw [Finset.sum_congr rfl fun j hj => by rw [hx j (Finset.mem_range.mp hj)], e, ← smul_eq_mul,
    intervalIntegral.smul_integral_comp_add_mul (fun s => g.eval s)]
  simp

end Lumos.Trans
