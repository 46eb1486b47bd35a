import Verif.Kkt.Props
/-!
# C94: second order, minimisers, and the answer of `solve`
-/

namespace Lumos.Kkt

open Lumos Lumos.NLP

variable {n : Nat} {p : Prob} {A : List ℝ → Prop}

/-! ## Second order -/

theorem curvature_scale {n : Nat} {s : List ℝ} (hs : s.length = n ∧ ∀ a ∈ s, a ≠ 0) {H H' : Nat → Nat → ℝ}
    (h : ∀ i j, i < n → j < n → Upper i j → H' i j = H i j / (s.getD i 0 * s.getD j 0)) (d : Nat → ℝ) :
    curvature n H d = curvature n H' fun j => s.getD j 0 * d j := by
  unfold curvature
  apply Finset.sum_congr rfl
  intro i hi
  apply Finset.sum_congr rfl
  intro j hj
  rw [Finset.mem_range] at hi hj
  have si := getD_ne hs hi
  have sj := getD_ne hs hj
  by_cases h1 : i < j
  · rw [if_pos h1, if_pos h1, h i j hi hj (Nat.le_of_lt h1)]
    field_simp
  · rw [if_neg h1, if_neg h1]
    by_cases h2 : i = j
    · rw [if_pos h2, if_pos h2, h i i hi hi (Nat.le_refl i)]
      field_simp
    · rw [if_neg h2, if_neg h2]

theorem tangent_scale {m : Nat} {s k : List ℝ} (hs : s.length = n) (hpos : ∀ a ∈ s, 0 < a) (hk : k.length = m ∧ ∀ a ∈ k, a ≠ 0)
    {lb ub : List EReal} (hlb : lb.length = n) (hub : ub.length = n) {z : List ℝ} (hz : z.length = n) {w : Mult}
    (h2 : w.zl.length = n) (h3 : w.zu.length = n) {J J' : Nat → Nat → ℝ}
    (hJ : ∀ r j, r < m → j < n → J' r j = J r j * k.getD r 0 / s.getD j 0) (d : Nat → ℝ) :
    Tangent n m J (scaleBounds lb s) (scaleBounds ub s) z w d ↔
    Tangent n m J' lb ub (vmul z s) ⟨vdiv w.lam k, vdiv w.zl s, vdiv w.zu s⟩ fun j => s.getD j 0 * d j := by
  have pos : ∀ {j}, j < n → 0 < s.getD j 0 := fun hj => getD_pos hpos (by omega)
  have kne : ∀ {r}, r < m → k.getD r 0 ≠ 0 := fun hr => getD_ne hk hr
  have el : ∀ j, (vdiv w.zl s).getD j 0 = w.zl.getD j 0 / s.getD j 0 := getD_vdiv (by omega)
  have eu : ∀ j, (vdiv w.zu s).getD j 0 = w.zu.getD j 0 / s.getD j 0 := getD_vdiv (by omega)
  have ex : ∀ j, (vmul z s).getD j 0 = z.getD j 0 * s.getD j 0 := getD_vmul (by omega)
  unfold Tangent
  refine and_congr ?_ ?_
  · refine forall_congr' fun r => forall_congr' fun hr => ?_
    have e : ∑ j ∈ Finset.range n, J' r j * (s.getD j 0 * d j) = (∑ j ∈ Finset.range n, J r j * d j) * k.getD r 0 := by
      rw [Finset.sum_mul]
      apply Finset.sum_congr rfl
      intro j hj
      have hj' := Finset.mem_range.mp hj
      rw [hJ r j hr hj']
      have := pos hj'
      field_simp
    rw [e, mul_eq_zero, or_iff_left (kne hr)]
  · refine forall_congr' fun j => forall_congr' fun hj => ?_
    have ps := pos hj
    have q1 : (0 ≤ s.getD j 0 * d j) ↔ 0 ≤ d j := mul_nonneg_iff_of_pos_left ps
    have q2 : (s.getD j 0 * d j ≤ 0) ↔ d j ≤ 0 := by
      constructor
      · intro h; by_contra h'; push Not at h'; nlinarith [mul_pos ps h']
      · intro h; exact mul_nonpos_of_nonneg_of_nonpos ps.le h
    have q3 : (s.getD j 0 * d j = 0) ↔ d j = 0 := by
      rw [mul_eq_zero, or_iff_right ps.ne']
    have q4 : ∀ a : ℝ, 0 < a / s.getD j 0 ↔ 0 < a := fun a => div_pos_iff_of_pos_right ps
    dsimp only
    rw [getD_scaleBounds (by omega) (by omega), getD_scaleBounds (by omega) (by omega), scaled_bound_eq ps, scaled_bound_eq ps,
      ex, q1, q2, q3, el, eu, q4, q4]

/-- **C94** (second order). The curvature of the solver's Lagrangian (Hessian callback, multipliers `w`) along a
direction is the curvature of the user's Lagrangian along the unscaled direction, and the second-order sufficient
condition holds in the one system of units iff it holds in the other. -/
theorem C94_second_order (hp : Reachable n p A) (hpos : ∀ a ∈ p.scales, 0 < a) (hc : p.cons ≠ []) (ho : p.objs ≠ [])
    {lb ub : List EReal} (hlb : lb.length = n) (hub : ub.length = n) {z : List ℝ} (hz : z.length = n)
    (hA : A (vmul z p.scales)) {w : Mult}
    (h1 : w.lam.length = p.numCon) (h2 : w.zl.length = n) (h3 : w.zu.length = n) {H J : Nat → Nat → ℝ}
    (hH : IsHessianAt n (fun y => cost p y + dot (inUnits p w).lam (residual p y)) (vmul z p.scales) Upper H)
    (hJ : IsJacobianAt n p.numCon (residual p) (vmul z p.scales) J) :
    ∃ (hr hc jr jc : List Nat) (hv jv : List ℝ), p.hessianstructure.2 = .ok (hr, hc) ∧
      p.hessianstructure.1.hessian z w.lam 1 = (p.hessianstructure.1, .ok hv) ∧
      p.jacobianstructure = .ok (jr, jc) ∧ p.jacobian z = .ok jv ∧
      (∀ d : Nat → ℝ, curvature n (assemble hr hc hv) d = curvature n H fun j => p.scales.getD j 0 * d j) ∧
      (Curved n p.numCon (assemble hr hc hv) (assemble jr jc jv) (scaleBounds lb p.scales) (scaleBounds ub p.scales) z w ↔
        Curved n p.numCon H J lb ub (vmul z p.scales) (inUnits p w)) := by
  obtain ⟨F, f, hr, hcl, hv, a1, _, a2, _, a3, a4, _, _, _, a5, _⟩ := C14_hessian hp (Or.inl hc) z w.lam 1 hz h1
  obtain ⟨g, jv, jr, jc, _, b2, b3, _, b5⟩ := callbacks hp hc ho hz hA
  have hsc := hp.inv.scales
  have hx := len_vmul hz hsc.1
  have hk := conScale_good hp
  have hL : IsHessianAt n (fun y => cost p y + dot (inUnits p w).lam (residual p y)) (vmul z p.scales) Upper
      (fun i j => assemble hr hcl hv i j / (p.scales.getD i 0 * p.scales.getD j 0)) := by
    refine hess_unscale hz hsc (fun y hy => ?_) (a5 hA)
    have e1 := a2 ho y
    rw [objective_eq hp ho] at e1
    have e2 := a1 hc y
    rw [constraints_eq hp hc hy] at e2
    rw [← Except.ok.inj e1, ← Except.ok.inj e2, mul_one, dot_vdiv _ _ _ (by rw [h1, hk.1])
      (by rw [residual_len hp (len_vmul hy hsc.1), hk.1])]
    rfl
  have hcurv : ∀ d : Nat → ℝ, curvature n (assemble hr hcl hv) d = curvature n H fun j => p.scales.getD j 0 * d j :=
    curvature_scale hsc fun i j hi hj hij => hess_unique hH hL hi hj hij
  have htan := tangent_scale (J := assemble jr jc jv) (J' := J) hsc.1 hpos hk hlb hub hz h2 h3
    (fun r j hr hj => jac_unique hJ b5 hr hj)
  refine ⟨hr, hcl, jr, jc, hv, jv, a3, a4, b2, b3, hcurv, ?_⟩
  have pos : ∀ {j}, j < n → 0 < p.scales.getD j 0 := fun hj => getD_pos hpos (by omega)
  constructor
  · intro h d hd ht
    obtain ⟨j, hj, hdj⟩ := hd
    -- the same direction in the solver's units
    have e : ∀ i, i < n → p.scales.getD i 0 * (d i / p.scales.getD i 0) = d i := by
      intro i hi
      have := pos hi
      field_simp
    have ct : curvature n H (fun i => p.scales.getD i 0 * (d i / p.scales.getD i 0)) = curvature n H d := by
      unfold curvature
      apply Finset.sum_congr rfl
      intro i hi
      apply Finset.sum_congr rfl
      intro l hl
      rw [Finset.mem_range] at hi hl
      dsimp only
      rw [e i hi, e l hl]
    have tt : Tangent n p.numCon J lb ub (vmul z p.scales) (inUnits p w)
        (fun i => p.scales.getD i 0 * (d i / p.scales.getD i 0)) := by
      refine ⟨fun r hr => ?_, fun i hi => ?_⟩
      · refine Eq.trans (Finset.sum_congr rfl fun i hi => ?_) (ht.1 r hr)
        dsimp only
        rw [e i (Finset.mem_range.mp hi)]
      · simp only [e i hi]
        exact ht.2 i hi
    have := h (fun i => d i / p.scales.getD i 0) ⟨j, hj, div_ne_zero hdj (pos hj).ne'⟩ ((htan _).mpr tt)
    rwa [hcurv, ct] at this
  · intro h d hd ht
    obtain ⟨j, hj, hdj⟩ := hd
    rw [hcurv]
    exact h _ ⟨j, hj, mul_ne_zero (pos hj).ne' hdj⟩ ((htan d).mp ht)

/-! ## Minimisers -/

/-- What the solver is asked to satisfy: the constraints vanish and the point lies within the scaled bounds. -/
def Admitted (p : Prob) (lb ub : List EReal) (z : List ℝ) : Prop :=
  (∃ c, p.constraints z = .ok c ∧ ∀ v ∈ c, v = 0) ∧ Within (scaleBounds lb p.scales) (scaleBounds ub p.scales) z

/-- What the user asked for: the residuals vanish and the point lies within the bounds. -/
def Wanted (p : Prob) (lb ub : List EReal) (x : List ℝ) : Prop :=
  (∀ v ∈ residual p x, v = 0) ∧ Within lb ub x

theorem all_zero_iff (l : List ℝ) : (∀ v ∈ l, v = 0) ↔ ∀ i, i < l.length → l.getD i 0 = 0 := by
  constructor
  · intro h i hi
    rw [List.getD_eq_getElem?_getD, List.getElem?_eq_getElem hi]
    exact h _ (List.getElem_mem hi)
  · intro h v hv
    obtain ⟨i, hi, rfl⟩ := List.getElem_of_mem hv
    have := h i hi
    rwa [List.getD_eq_getElem?_getD, List.getElem?_eq_getElem hi] at this

/-- **C94** (feasible points). -/
theorem C94_feasible (hp : Reachable n p A) (hpos : ∀ a ∈ p.scales, 0 < a) (hc : p.cons ≠ []) {lb ub : List EReal}
    (hlb : lb.length = n) (hub : ub.length = n) {z : List ℝ} (hz : z.length = n) :
    Admitted p lb ub z ↔ Wanted p lb ub (vmul z p.scales) := by
  have hsc := hp.inv.scales
  have hk := conScale_good hp
  have hl := residual_len hp (len_vmul hz hsc.1)
  refine and_congr ?_ (C17_bounds hpos (hlb.trans hsc.1.symm) (hub.trans hsc.1.symm) (hz.trans hsc.1.symm))
  rw [constraints_eq hp hc hz]
  constructor
  · rintro ⟨c, e, h⟩
    obtain rfl := Except.ok.inj e
    rw [all_zero_iff] at h ⊢
    intro i hi
    have := h i (by rw [len_vdiv rfl (by omega)]; exact hi)
    rw [getD_vdiv (by omega), div_eq_zero_iff] at this
    exact this.resolve_right (getD_ne hk (by omega))
  · intro h
    refine ⟨_, rfl, ?_⟩
    rw [all_zero_iff] at h ⊢
    intro i hi
    rw [len_vdiv rfl (by omega)] at hi
    rw [getD_vdiv (by omega), h i hi, zero_div]

/-- **C94** (minimisers). A point is optimal for the problem the solver sees iff the unscaled point is optimal for the
user's problem. -/
theorem C94_best (hp : Reachable n p A) (hpos : ∀ a ∈ p.scales, 0 < a) (hc : p.cons ≠ []) (ho : p.objs ≠ []) {lb ub : List EReal}
    (hlb : lb.length = n) (hub : ub.length = n) {z : List ℝ} (hz : z.length = n) :
    ∃ f : List ℝ → ℝ, (∀ y, p.objective y = .ok (f y)) ∧
      (Best n f (Admitted p lb ub) z ↔ Best n (cost p) (Wanted p lb ub) (vmul z p.scales)) ∧
      (LocallyBest n f (Admitted p lb ub) z ↔ LocallyBest n (cost p) (Wanted p lb ub) (vmul z p.scales)) := by
  have hsc := hp.inv.scales
  have feas := fun {y : List ℝ} (hy : y.length = n) => C94_feasible hp hpos hc hlb hub hy
  have pos : ∀ {j}, j < n → 0 < p.scales.getD j 0 := fun hj => getD_pos hpos (by omega)
  have back : ∀ {y : List ℝ}, y.length = n → vmul (vdiv y p.scales) p.scales = y :=
    fun hy => vmul_vdiv_cancel (by rw [hy, hsc.1]) hsc.2
  have hx := len_vmul hz hsc.1
  refine ⟨fun y => cost p (vmul y p.scales), fun y => objective_eq hp ho y, ?_, ?_⟩
  · constructor
    · rintro ⟨⟨_, h2⟩, h3⟩
      refine ⟨⟨hx, (feas hz).mp h2⟩, fun y hy hw => ?_⟩
      have hy' := len_vdiv hy hsc.1
      have := h3 (vdiv y p.scales) hy' ((feas hy').mpr (by rwa [back hy]))
      dsimp only at this
      rwa [back hy] at this
    · rintro ⟨⟨_, h2⟩, h3⟩
      exact ⟨⟨hz, (feas hz).mpr h2⟩, fun y hy hw => h3 _ (len_vmul hy hsc.1) ((feas hy).mp hw)⟩
  · -- a bound on the scales
    obtain ⟨B, hB0, hB⟩ : ∃ B : ℝ, 0 < B ∧ ∀ j, j < n → p.scales.getD j 0 ≤ B ∧ 1 / p.scales.getD j 0 ≤ B := by
      refine ⟨1 + ∑ j ∈ Finset.range n, (|p.scales.getD j 0| + |1 / p.scales.getD j 0|), ?_, ?_⟩
      · have : 0 ≤ ∑ j ∈ Finset.range n, (|p.scales.getD j 0| + |1 / p.scales.getD j 0|) :=
          Finset.sum_nonneg fun j _ => by positivity
        linarith
      · intro j hj
        have h1 := Finset.single_le_sum (f := fun j => |p.scales.getD j 0| + |1 / p.scales.getD j 0|)
          (fun j _ => by positivity) (Finset.mem_range.mpr hj)
        have h2 := le_abs_self (p.scales.getD j 0)
        have h3 := le_abs_self (1 / p.scales.getD j 0)
        have h4 := abs_nonneg (p.scales.getD j 0)
        have h5 := abs_nonneg (1 / p.scales.getD j 0)
        constructor <;> linarith
    constructor
    · rintro ⟨⟨_, h2⟩, ε, hε, h3⟩
      refine ⟨⟨hx, (feas hz).mp h2⟩, ε / B, by positivity, fun y hy hw hnear => ?_⟩
      have hy' := len_vdiv hy hsc.1
      have := h3 (vdiv y p.scales) hy' ((feas hy').mpr (by rwa [back hy])) (by
        intro j hj
        have hj2 := hnear j hj
        rw [getD_vmul (by rw [hz, hsc.1])] at hj2
        rw [getD_vdiv (by rw [hy, hsc.1])]
        have ps := pos hj
        have e : y.getD j 0 / p.scales.getD j 0 - z.getD j 0 = (y.getD j 0 - z.getD j 0 * p.scales.getD j 0) * (1 / p.scales.getD j 0) := by
          field_simp
        rw [e, abs_mul, abs_of_pos (one_div_pos.mpr ps)]
        calc |y.getD j 0 - z.getD j 0 * p.scales.getD j 0| * (1 / p.scales.getD j 0)
            ≤ |y.getD j 0 - z.getD j 0 * p.scales.getD j 0| * B := mul_le_mul_of_nonneg_left (hB j hj).2 (abs_nonneg _)
          _ < ε / B * B := mul_lt_mul_of_pos_right hj2 hB0
          _ = ε := div_mul_cancel₀ _ hB0.ne')
      dsimp only at this
      rwa [back hy] at this
    · rintro ⟨⟨_, h2⟩, ε, hε, h3⟩
      refine ⟨⟨hz, (feas hz).mpr h2⟩, ε / B, by positivity, fun y hy hw hnear => ?_⟩
      refine h3 _ (len_vmul hy hsc.1) ((feas hy).mp hw) (fun j hj => ?_)
      rw [getD_vmul (by omega), getD_vmul (by omega), ← sub_mul, abs_mul, abs_of_pos (pos hj)]
      calc |y.getD j 0 - z.getD j 0| * p.scales.getD j 0
          ≤ |y.getD j 0 - z.getD j 0| * B := mul_le_mul_of_nonneg_left (hB j hj).1 (abs_nonneg _)
        _ < ε / B * B := mul_lt_mul_of_pos_right (hnear j hj) hB0
        _ = ε := div_mul_cancel₀ _ hB0.ne'

end Lumos.Kkt
