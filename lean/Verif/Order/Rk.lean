import Verif.Trans.RuleOcp
/-!
# Every transcription is a Runge-Kutta method (C91)
-/

namespace Lumos.Order

open Lumos Lumos.Trans Polynomial

/-- `a` is the tableau of the transcription: the continuity constraints of an interval hold exactly if every stage is the first one plus the
step times a weighted sum of the derivatives at the stages. -/
structure Tableau (t : Transcription) (a : Nat → Nat → ℝ) : Prop where
  first : ∀ j', a 0 j' = 0
  iff : ∀ (X Xd : Nat → ℝ) (h : ℝ), Steps t X Xd h ↔
    ∀ j, j < t.stages → X j = X 0 + h * ∑ j' ∈ Finset.range t.stages, a j j' * Xd j'

/-- The tableau of the LGR method: integrals of the Lagrange polynomials of the collocation points. -/
noncomputable def lgrTab (c : Colloc) (j : Nat) : Nat → ℝ
  | 0 => 0
  | l + 1 => ∫ s in (0 : ℝ)..(pt c.interpPoints j), (makeLagrange c.collocationPoints l).eval s

theorem lgr_B {m : Int} {c : Colloc} (h : mkColloc m = .ok c) (Xd : Nat → ℝ) {l : Nat} (hl : l < c.numStages - 1) :
    ∑ j ∈ Finset.range c.numStages, entry (Transcription.lgr c).B l j * Xd j = Xd (l + 1) := by
  obtain ⟨n, h1, h2, h3, h4, h5, h6, h7, h8, h9⟩ := mkColloc_radau h
  rw [h1] at hl ⊢
  rw [Finset.sum_eq_single (l + 1)]
  · simp only [Transcription.B, Transcription.numCons, Transcription.stages]
    rw [diags_entry _ _ (by omega) (by omega)]
    simp
  · intro j hj hne
    simp only [Transcription.B, Transcription.numCons, Transcription.stages]
    rw [diags_entry _ _ (by omega) (by have := Finset.mem_range.mp hj; omega)]
    simp [hne]
  · intro hn
    exact absurd (Finset.mem_range.mpr (by omega)) hn

/-- A polynomial whose derivative has given values at the collocation points. -/
theorem lgr_primitive {n : Nat} {c : Colloc} (h2 : c.collocationPoints.length = n + 1) (h3 : c.collocationPoints.Pairwise (· < ·)) (v : ℝ) (G : Nat → ℝ) :
    ∃ q : ℝ[X], q.natDegree ≤ n + 1 ∧ (∀ l, l < n + 1 → (derivative q).eval (pt c.collocationPoints l) = G l) ∧
      ∀ τ, q.eval τ = v + ∑ l ∈ Finset.range (n + 1), G l * ∫ s in (0 : ℝ)..τ, (makeLagrange c.collocationPoints l).eval s := by
  obtain ⟨g, hg⟩ : ∃ g : ℝ[X], g = ∑ l ∈ Finset.range (n + 1), C (G l) * makeLagrange c.collocationPoints l := ⟨_, rfl⟩
  have hgd : g.natDegree ≤ n := by
    rw [hg]
    refine natDegree_sum_le_of_forall_le _ _ fun l hl => (natDegree_C_mul_le _ _).trans ?_
    rw [basis_degree h3 (by have := Finset.mem_range.mp hl; omega), h2]
    omega
  have hd : derivative (integ g + C (v - (integ g).eval 0)) = g := by simp [derivative_integ]
  refine ⟨integ g + C (v - (integ g).eval 0), ?_, ?_, ?_⟩
  · refine (natDegree_add_le _ _).trans (max_le ?_ (by simp))
    unfold integ
    rw [Polynomial.sum_def]
    refine natDegree_sum_le_of_forall_le _ _ fun k hk => (natDegree_monomial_le _).trans ?_
    have := le_natDegree_of_mem_supp k hk
    omega
  · intro l hl
    rw [hd, hg, eval_finsetSum, Finset.sum_eq_single l]
    · rw [eval_mul, eval_C, basis_eval h3 (by omega) (by omega), if_pos rfl, mul_one]
    · intro i hi hne
      rw [eval_mul, basis_eval h3 (by have := Finset.mem_range.mp hi; omega) (by omega), if_neg hne, mul_zero]
    · intro hn
      exact absurd (Finset.mem_range.mpr hl) hn
  · intro τ
    rw [eval_add, eval_C]
    have : (integ g).eval τ - (integ g).eval 0 = ∑ l ∈ Finset.range (n + 1), G l * ∫ s in (0 : ℝ)..τ, (makeLagrange c.collocationPoints l).eval s := by
      rw [integ_eval, hg]
      show integral 0 τ _ = _
      rw [integral_sum]
      exact Finset.sum_congr rfl fun l _ => integral_C_mul _ _ _ _
    rw [← this]
    ring

theorem lgr_tableau {m : Int} {c : Colloc} (h : mkColloc m = .ok c) : Tableau (.lgr c) (lgrTab c) := by
  obtain ⟨n, h1, h2, h3, h4, h5, h6, h7, h8, h9⟩ := mkColloc_radau h
  have hs : c.interpPoints.length = n + 2 := by rw [h7, List.length_cons, h2]
  have first : pt c.interpPoints 0 = 0 := by rw [h7]; rfl
  refine ⟨fun j' => ?_, fun X Xd hh => ?_⟩
  · cases j' with
    | zero => rfl
    | succ l => simp [lgrTab, first]
  have eA : ∀ (q : ℝ[X]), q.natDegree ≤ n + 1 → ∀ Y : Nat → ℝ, (∀ j, j < n + 2 → Y j = q.eval (pt c.interpPoints j)) → ∀ l, l < n + 1 →
      ∑ j ∈ Finset.range c.numStages, entry (Transcription.lgr c).A l j * Y j = (derivative q).eval (pt c.collocationPoints l) := by
    intro q hq Y hY l hl
    rw [← diffMatrix_exact h9 c.collocationPoints q (by omega) (by omega), hs, h1]
    refine Finset.sum_congr rfl fun j hj => ?_
    rw [hY j (Finset.mem_range.mp hj)]
    simp only [entry, Transcription.A, h8]
  have tab : ∀ j, ∑ j' ∈ Finset.range c.numStages, lgrTab c j j' * Xd j' =
      ∑ l ∈ Finset.range (n + 1), Xd (l + 1) * ∫ s in (0 : ℝ)..(pt c.interpPoints j), (makeLagrange c.collocationPoints l).eval s := by
    intro j
    rw [h1, Finset.sum_range_succ']
    simp only [lgrTab, zero_mul, add_zero]
    exact Finset.sum_congr rfl fun l _ => mul_comm _ _
  show (∀ l, l < c.numStages - 1 → _) ↔ ∀ j, j < c.numStages → X j = X 0 + hh * ∑ j' ∈ Finset.range c.numStages, _
  constructor
  · intro hz j hj
    obtain ⟨q, hq1, hq2, hq3⟩ := lgr_primitive h2 h3 (X 0) (fun l => hh * Xd (l + 1))
    -- the interpolant of `X` and `q` have the same derivative at the collocation points
    obtain ⟨p, hp⟩ : ∃ p : ℝ[X], p = ∑ j ∈ Finset.range (n + 2), C (X j) * makeLagrange c.interpPoints j := ⟨_, rfl⟩
    have pv : ∀ j, j < n + 2 → p.eval (pt c.interpPoints j) = X j := by
      intro j hj
      rw [hp, eval_finsetSum, Finset.sum_eq_single j]
      · rw [eval_mul, eval_C, basis_eval h9 (by omega) (by omega), if_pos rfl, mul_one]
      · intro i hi hne
        rw [eval_mul, basis_eval h9 (by have := Finset.mem_range.mp hi; omega) (by omega), if_neg hne, mul_zero]
      · intro hn
        exact absurd (Finset.mem_range.mpr hj) hn
    have pd : p.natDegree ≤ n + 1 := by
      rw [hp]
      refine natDegree_sum_le_of_forall_le _ _ fun j hj => (natDegree_C_mul_le _ _).trans ?_
      rw [basis_degree h9 (by have := Finset.mem_range.mp hj; omega), hs]
      omega
    have hder : derivative p = derivative q := by
      have hv : ∀ l, l < n + 1 → (derivative p).eval (pt c.collocationPoints l) = (derivative q).eval (pt c.collocationPoints l) := by
        intro l hl
        rw [← eA p pd X (fun j hj => (pv j hj).symm) l hl, hq2 l hl]
        exact (hz l (by omega)).trans (congrArg _ (lgr_B h Xd (by omega)))
      have d1 : (derivative p).natDegree < c.collocationPoints.length := by have := natDegree_derivative_le p; omega
      have d2 : (derivative q).natDegree < c.collocationPoints.length := by have := natDegree_derivative_le q; omega
      rw [eq_sum_basis h3 _ d1, eq_sum_basis h3 _ d2]
      exact Finset.sum_congr rfl fun l hl => by rw [hv l (by have := Finset.mem_range.mp hl; omega)]
    have e1 := integral_deriv 0 (pt c.interpPoints j) p
    rw [hder, integral_deriv] at e1
    have e2 : p.eval 0 = X 0 := by rw [← first]; exact pv 0 (by omega)
    have e3 : q.eval 0 = X 0 := by rw [hq3]; simp
    rw [pv j (by omega), e2, e3] at e1
    have : X j = q.eval (pt c.interpPoints j) := by linarith
    rw [this, hq3, tab, Finset.mul_sum]
    congr 1
    exact Finset.sum_congr rfl fun l _ => by ring
  · intro hz l hl
    obtain ⟨q, hq1, hq2, hq3⟩ := lgr_primitive h2 h3 (X 0) (fun l => hh * Xd (l + 1))
    have hX : ∀ j, j < n + 2 → X j = q.eval (pt c.interpPoints j) := by
      intro j hj
      rw [hz j (by omega), hq3, tab, Finset.mul_sum]
      congr 1
      exact Finset.sum_congr rfl fun l _ => by ring
    have e1 := eA q hq1 X hX l (by omega)
    rw [hq2 l (by omega), ← lgr_B h Xd hl] at e1
    exact e1

/-- The tableau of the LGR integral method. -/
noncomputable def lgriTab (c : Colloc) (j j' : Nat) : ℝ := ∫ s in (0 : ℝ)..(pt c.interpPoints j), (makeLagrange c.interpPoints j').eval s

theorem lgri_tableau {m : Int} {c : Colloc} (h : mkColloc m = .ok c) :
    Tableau (.lgrIntegral c (integMatrix c.interpPoints c.collocationPoints)) (lgriTab c) := by
  obtain ⟨n, h1, h2, h3, h4, h5, h6, h7, h8, h9⟩ := mkColloc_radau h
  have hs : c.interpPoints.length = n + 2 := by rw [h7, List.length_cons, h2]
  have first : pt c.interpPoints 0 = 0 := by rw [h7]; rfl
  refine ⟨fun j' => by simp [lgriTab, first], fun X Xd hh => ?_⟩
  have eA : ∀ l, l < n + 1 → ∑ j ∈ Finset.range c.numStages,
      entry (Transcription.lgrIntegral c (integMatrix c.interpPoints c.collocationPoints)).A l j * X j = X (l + 1) - X 0 := by
    intro l hl
    rw [h1, Finset.sum_range_succ']
    have ent0 : entry (Transcription.lgrIntegral c (integMatrix c.interpPoints c.collocationPoints)).A l 0 = -1 := by
      simp [entry, Transcription.A, eye, h1, hl]
    have ents : ∀ j, j < n + 1 →
        entry (Transcription.lgrIntegral c (integMatrix c.interpPoints c.collocationPoints)).A l (j + 1)
          = if l = j then 1 else 0 := by
      intro j hj
      simp [entry, Transcription.A, eye, h1, hj, hl]
    rw [ent0, Finset.sum_congr rfl (fun j hj => by rw [ents j (Finset.mem_range.mp hj)])]
    rw [Finset.sum_eq_single l]
    · rw [if_pos rfl]; ring
    · intro j _ hne
      rw [if_neg (Ne.symm hne), zero_mul]
    · intro hn; exact absurd (Finset.mem_range.mpr (by omega)) hn
  have eB : ∀ l, l < n + 1 → ∑ j ∈ Finset.range c.numStages,
      entry (Transcription.lgrIntegral c (integMatrix c.interpPoints c.collocationPoints)).B l j * Xd j
      = ∑ j ∈ Finset.range c.numStages, lgriTab c (l + 1) j * Xd j := by
    intro l hl
    refine Finset.sum_congr rfl fun j hj => ?_
    rw [h1, Finset.mem_range] at hj
    have hent := integMatrix_entry c.interpPoints c.collocationPoints (i := l) (j := j) (by omega) (by omega)
    congr 1
    show ((integMatrix c.interpPoints c.collocationPoints).getD l []).getD j 0 = _
    rw [hent, integ_eval, first, lgriTab, h7, pt_cons_succ]
  show (∀ l, l < c.numStages - 1 → _) ↔ ∀ j, j < c.numStages → X j = X 0 + hh * ∑ j' ∈ Finset.range c.numStages, _
  constructor
  · intro hz j hj
    cases j with
    | zero => simp [lgriTab, first]
    | succ l =>
      have e := hz l (by omega)
      change ∑ j ∈ Finset.range c.numStages, _ = hh * ∑ j ∈ Finset.range c.numStages, _ at e
      rw [eA l (by omega), eB l (by omega)] at e
      linarith
  · intro hz l hl
    show ∑ j ∈ Finset.range c.numStages, _ = hh * ∑ j ∈ Finset.range c.numStages, _
    rw [eA l (by omega), eB l (by omega), hz (l + 1) (by omega)]
    ring

/-- The two tables with one step. -/
def eulerTab (j j' : Nat) : ℝ := if j = 1 ∧ j' = 0 then 1 else 0

noncomputable def trapTab (j _ : Nat) : ℝ := if j = 1 then 1 / 2 else 0

theorem euler_tableau : Tableau .forwardEuler eulerTab := by
  refine ⟨fun j' => by simp [eulerTab], fun X Xd h => ?_⟩
  have e : Steps .forwardEuler X Xd h ↔ X 1 = X 0 + h * Xd 0 := by
    unfold Steps
    simp only [Transcription.stages, Finset.sum_range_succ, Finset.sum_range_zero, Transcription.A, Transcription.B, Transcription.numCons]
    constructor
    · intro hz
      have := hz 0 (by norm_num)
      rw [diags_entry _ _ (by omega) (by omega), diags_entry _ _ (by omega) (by omega),
        diags_entry _ _ (by omega) (by omega), diags_entry _ _ (by omega) (by omega)] at this
      simp at this
      linarith
    · intro hz l hl
      have : l = 0 := by omega
      subst this
      rw [diags_entry _ _ (by omega) (by omega), diags_entry _ _ (by omega) (by omega),
        diags_entry _ _ (by omega) (by omega), diags_entry _ _ (by omega) (by omega)]
      simp
      linarith
  rw [e]
  simp only [Transcription.stages, Finset.sum_range_succ, Finset.sum_range_zero]
  constructor
  · intro hz j hj
    rcases (show j = 0 ∨ j = 1 by omega) with rfl | rfl
    · simp [eulerTab]
    · simpa [eulerTab] using hz
  · intro hz
    simpa [eulerTab] using hz 1 (by norm_num)

theorem trap_tableau : Tableau .trapezoidal trapTab := by
  refine ⟨fun j' => by simp [trapTab], fun X Xd h => ?_⟩
  have e : Steps .trapezoidal X Xd h ↔ X 1 = X 0 + h * (1 / 2 * Xd 0 + 1 / 2 * Xd 1) := by
    unfold Steps
    simp only [Transcription.stages, Finset.sum_range_succ, Finset.sum_range_zero, Transcription.A, Transcription.B, Transcription.numCons]
    constructor
    · intro hz
      have := hz 0 (by norm_num)
      rw [diags_entry _ _ (by omega) (by omega), diags_entry _ _ (by omega) (by omega),
        diags_entry _ _ (by omega) (by omega), diags_entry _ _ (by omega) (by omega)] at this
      norm_num at this
      linarith
    · intro hz l hl
      have : l = 0 := by omega
      subst this
      rw [diags_entry _ _ (by omega) (by omega), diags_entry _ _ (by omega) (by omega),
        diags_entry _ _ (by omega) (by omega), diags_entry _ _ (by omega) (by omega)]
      norm_num
      linarith
  rw [e]
  simp only [Transcription.stages, Finset.sum_range_succ, Finset.sum_range_zero]
  constructor
  · intro hz j hj
    rcases (show j = 0 ∨ j = 1 by omega) with rfl | rfl
    · simp [trapTab]
    · simpa [trapTab] using hz
  · intro hz
    simpa [trapTab] using hz 1 (by norm_num)

theorem low_order_eq {name : String} {kwargs : List (String × Int)} {t : Transcription} (ht : makeTranscription name kwargs = .ok t) :
    (name = "ForwardEuler" → t = .forwardEuler) ∧ (name = "Trapezoidal" → t = .trapezoidal) := by
  constructor
  · rintro rfl
    have hk : kwargs = [] := by
      by_contra hne
      rw [C38_low_order.2.2.2.2 "ForwardEuler" (by simp) kwargs hne] at ht
      cases ht
    subst hk
    exact (Except.ok.inj (C38_low_order.1.symm.trans ht)).symm
  · rintro rfl
    have hk : kwargs = [] := by
      by_contra hne
      rw [C38_low_order.2.2.2.2 "Trapezoidal" (by simp) kwargs hne] at ht
      cases ht
    subst hk
    exact (Except.ok.inj (C38_low_order.2.2.1.symm.trans ht)).symm

/-- **Every transcription is a Runge-Kutta method.** For every transcription that can be made there is one table of coefficients such that the
continuity constraints of an interval (of any length, for any values) hold exactly if every stage is the first stage plus the step times the
weighted sum of the derivatives. -/
theorem C91_runge_kutta {name : String} {kwargs : List (String × Int)} {t : Transcription} (ht : makeTranscription name kwargs = .ok t) :
    ∃ a, Tableau t a := by
  by_cases h1 : name ∈ ["ForwardEuler", "Trapezoidal", "LGR", "LGRIntegral"]
  · simp only [List.mem_cons, List.not_mem_nil, or_false] at h1
    rcases h1 with h1 | h1 | h1
    · rw [(low_order_eq ht).1 h1]
      exact ⟨_, euler_tableau⟩
    · rw [(low_order_eq ht).2 h1]
      exact ⟨_, trap_tableau⟩
    · obtain ⟨m, c, hc, ⟨_, rfl⟩ | ⟨_, rfl⟩⟩ := make_lgr h1 ht
      · exact ⟨_, lgr_tableau hc⟩
      · exact ⟨_, lgri_tableau hc⟩
  · simp only [List.mem_cons, List.not_mem_nil, or_false, not_or] at h1
    simp [makeTranscription, h1] at ht

end Lumos.Order
