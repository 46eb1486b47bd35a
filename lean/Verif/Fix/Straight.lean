import Verif.Fix.Energy
/-!
# C106: the straight slide, interval by interval
-/

namespace Lumos.Fix

open Lumos DecVar DecVar.Layout Bounds Ocp Lumos.Trans NLP Sim Lumos.Order

/-- One interval of the default LGR method down a straight slope has a solution, of any length; the speed does not fall. -/
theorem straight_step {k c ε h v0 : ℝ} (hk : 0 < k) (hc : 0 < c) (hε : 0 < ε) (hh : 0 ≤ h) (hv : 0 < v0) : ∃ V1 V2 : ℝ,
    V1 = v0 + h * (5 * (k / (V1 * c + ε)) - k / (V2 * c + ε)) / 12 ∧ V2 = v0 + h * (3 * (k / (V1 * c + ε)) + k / (V2 * c + ε)) / 4 ∧
    v0 ≤ V1 ∧ V1 ≤ V2 := by
  set F : ℝ → ℝ := fun x => k / (x * c + ε) with hF
  set b : ℝ → ℝ := fun x => v0 + 3 * h * F x / 4 with hb
  set W : ℝ → ℝ := fun x => (b x * c - ε + √((b x * c + ε) ^ 2 + h * k * c)) / (2 * c) with hW
  have Fpos : ∀ x, v0 ≤ x → 0 < F x := fun x hx => div_pos hk (by have := mul_pos (hv.trans_le hx) hc; linarith)
  have Fanti : ∀ x y, v0 ≤ x → x ≤ y → F y ≤ F x := fun x y hx hxy =>
    div_le_div_of_nonneg_left hk.le (by have := mul_pos (hv.trans_le hx) hc; linarith) (by have := mul_le_mul_of_nonneg_right hxy hc.le; linarith)
  have hbv : ∀ x, v0 ≤ x → v0 ≤ b x := fun x hx => by
    have := mul_nonneg hh (Fpos x hx).le
    simp only [hb]; linarith
  have hWb : ∀ x, v0 ≤ x → b x ≤ W x := fun x hx => by
    have h1 := mul_pos (hv.trans_le (hbv x hx)) hc
    have h2 : b x * c + ε ≤ √((b x * c + ε) ^ 2 + h * k * c) := by
      apply Real.le_sqrt_of_sq_le
      have : 0 ≤ h * k * c := by positivity
      linarith
    simp only [hW]
    rw [le_div_iff₀ (by positivity)]
    linarith
  have hWq : ∀ x, v0 ≤ x → W x = b x + h * F (W x) / 4 := fun x hx => by
    have h1 := mul_pos (hv.trans_le (hbv x hx)) hc
    have h2 : 0 ≤ (b x * c + ε) ^ 2 + h * k * c := by positivity
    have h3 := Real.sq_sqrt h2
    have h4 : 0 < W x * c + ε := by
      have := mul_le_mul_of_nonneg_right (hWb x hx) hc.le
      linarith
    have h5 : √((b x * c + ε) ^ 2 + h * k * c) = 2 * c * W x - b x * c + ε := by
      simp only [hW]
      field_simp
      ring
    rw [h5] at h3
    have h6 : c * ((W x - b x) * (W x * c + ε) - h * k / 4) = 0 := by nlinarith
    have h7 : (W x - b x) * (W x * c + ε) = h * k / 4 := by
      rcases mul_eq_zero.mp h6 with h | h
      · exact absurd h hc.ne'
      · linarith
    have : W x - b x = h * F (W x) / 4 := by
      simp only [hF]
      rw [eq_div_iff (by norm_num : (4 : ℝ) ≠ 0), ← mul_div_assoc, eq_div_iff h4.ne']
      linarith
    linarith
  have Fcont : ContinuousOn F (Set.Ici v0) := by
    refine ContinuousOn.div continuousOn_const (by fun_prop) fun x hx => ?_
    have := mul_pos (hv.trans_le hx) hc
    exact (by linarith : 0 < x * c + ε).ne'
  have bcont : ContinuousOn b (Set.Ici v0) := by simp only [hb]; fun_prop
  have Wcont : ContinuousOn W (Set.Ici v0) := by
    simp only [hW]
    exact (((bcont.mul continuousOn_const).sub continuousOn_const).add
      ((((bcont.mul continuousOn_const).add continuousOn_const).pow 2).add continuousOn_const).sqrt).div_const _
  have FWcont : ContinuousOn (fun x => F (W x)) (Set.Ici v0) :=
    Fcont.comp Wcont fun x hx => (hbv x hx).trans (hWb x hx)
  obtain ⟨B, hB⟩ : ∃ B, B = v0 + 5 * h * F v0 / 12 := ⟨_, rfl⟩
  have hvB : v0 ≤ B := by have := mul_nonneg hh (Fpos v0 le_rfl).le; linarith
  have φcont : ContinuousOn (fun x => x - v0 - h * (5 * F x - F (W x)) / 12) (Set.Icc v0 B) := by
    have h1 : ContinuousOn (fun x => x - v0 - h * (5 * F x - F (W x)) / 12) (Set.Ici v0) :=
      (continuousOn_id.sub continuousOn_const).sub ((continuousOn_const.mul ((continuousOn_const.mul Fcont).sub FWcont)).div_const _)
    exact h1.mono fun x hx => hx.1
  have φ0 : v0 - v0 - h * (5 * F v0 - F (W v0)) / 12 ≤ 0 := by
    have h1 := Fanti v0 (W v0) le_rfl ((hbv _ le_rfl).trans (hWb _ le_rfl))
    have h2 := Fpos v0 le_rfl
    have := mul_nonneg hh (by linarith : 0 ≤ 5 * F v0 - F (W v0))
    linarith
  have φB : 0 ≤ B - v0 - h * (5 * F B - F (W B)) / 12 := by
    have h1 := Fanti v0 B le_rfl hvB
    have h2 := Fpos (W B) ((hbv B hvB).trans (hWb B hvB))
    have h3 := mul_nonneg hh (by linarith : 0 ≤ 5 * (F v0 - F B) + F (W B))
    rw [hB] at *
    linarith
  obtain ⟨x, hx, hx0⟩ := intermediate_value_Icc hvB φcont ⟨φ0, φB⟩
  have e2 := hWq x hx.1
  refine ⟨x, W x, by simp only at hx0; linarith, by simp only [hb] at e2; linarith, hx.1, ?_⟩
  by_contra hlt
  push Not at hlt
  have hWv := (hbv x hx.1).trans (hWb x hx.1)
  have h1 := Fanti (W x) x hWv hlt.le
  have h3 := Fpos x hx.1
  have h2 := Fpos (W x) hWv
  simp only [hb] at e2
  simp only at hx0
  have h4 := mul_nonneg hh (by linarith : 0 ≤ 4 * F x + 4 * F (W x))
  linarith

/-- The values of a straight slide: the speeds at the ends and in the middle of the intervals, the slope and the lengths of the intervals. -/
noncomputable def straightValue (g θ : ℝ) (E A : Nat → ℝ) (len : Nat → ℝ) (grp m : String) (s : Nat) : ℝ :=
  let V := if s % 2 = 0 then E (s / 2) else A (s / 2)
  let X := ∑ j ∈ Finset.range (s / 2), len j + if s % 2 = 0 then 0 else len (s / 2) / 3
  if grp = "inputs" then θ
  else if grp = "states" then
    if m = "v" then V else if m = "time" then (V - 1e-3) / (-g * Real.sin θ) else Real.tan θ * X
  else if m = "v" then -g * Real.sin θ / (V * Real.cos θ + 1e-9)
  else if m = "time" then 1 / (V * Real.cos θ + 1e-9) else Real.tan θ

/-- **The straight slide.** -/
theorem straight_exists {c : Colloc} (hc : mkColloc 3 = .ok c) {g dy : ℝ} (hg : 0 < g) {n : Nat} (hn : 1 ≤ n) {len : Nat → ℝ} (hl : ∀ i, i < n → 0 < len i)
    (hy : dy < 0) (h5 : -5 ≤ dy) (hfast : (1e-3) ^ 2 + 2 * g * |dy| ≤ 100 ^ 2)
    (hsteep : |dy| ≤ Real.tan (Real.pi / 2.01) * ∑ j ∈ Finset.range n, len j) : ∃ v, Descent g dy (.lgr c) n len v ∧
      (∀ s, s ≤ n * 2 → v "inputs" "theta" s = Real.arctan (dy / ∑ j ∈ Finset.range n, len j)) ∧
      v "states" "time" (n * 2) ≤ (√((1e-3) ^ 2 + 2 * g * |dy|) - 1e-3) * √((∑ j ∈ Finset.range n, len j) ^ 2 + dy ^ 2) / (g * |dy|) := by
  obtain ⟨L, hL⟩ : ∃ L, L = ∑ j ∈ Finset.range n, len j := ⟨_, rfl⟩
  have hL0 : 0 < L := by
    rw [hL]
    exact Finset.sum_pos (fun i hi => hl i (Finset.mem_range.mp hi)) ⟨0, Finset.mem_range.mpr (by omega)⟩
  rw [← hL] at hsteep ⊢
  obtain ⟨θ, hθ⟩ : ∃ θ, θ = Real.arctan (dy / L) := ⟨_, rfl⟩
  have hr : dy / L < 0 := div_neg_of_neg_of_pos hy hL0
  have hcos : 0 < Real.cos θ := by rw [hθ]; exact Real.cos_arctan_pos _
  have htan : Real.tan θ = dy / L := by rw [hθ, Real.tan_arctan]
  have hQ : 0 < √(L ^ 2 + dy ^ 2) := Real.sqrt_pos.mpr (by positivity)
  have hsin : Real.sin θ = dy / √(L ^ 2 + dy ^ 2) := by
    rw [hθ, Real.sin_arctan, show L ^ 2 + dy ^ 2 = L ^ 2 * (1 + (dy / L) ^ 2) by field_simp, Real.sqrt_mul (sq_nonneg _), Real.sqrt_sq hL0.le]
    have : √(1 + (dy / L) ^ 2) ≠ 0 := (Real.sqrt_pos.mpr (by positivity)).ne'
    field_simp
  have hs0 : Real.sin θ < 0 := by rw [hsin]; exact div_neg_of_neg_of_pos hy hQ
  have hang : |θ| ≤ Real.pi / 2.01 := by
    have hneg : θ < 0 := by rw [hθ]; exact Real.arctan_lt_zero.mpr hr
    rw [abs_of_neg hneg, hθ, ← Real.arctan_neg]
    have h1 : -(dy / L) ≤ Real.tan (Real.pi / 2.01) := by
      rw [abs_of_neg hy] at hsteep
      rw [← neg_div, div_le_iff₀ hL0]
      exact hsteep
    have := Real.arctan_strictMono.monotone h1
    rwa [Real.arctan_tan (by linarith [steep_pos, Real.pi_pos]) steep_lt] at this
  have hk : 0 < -g * Real.sin θ := by nlinarith
  have hex : ∀ i v0, ∃ V1 V2 : ℝ, i < n → 0 < v0 →
      V1 = v0 + len i * (5 * (-g * Real.sin θ / (V1 * Real.cos θ + 1e-9)) - -g * Real.sin θ / (V2 * Real.cos θ + 1e-9)) / 12 ∧
      V2 = v0 + len i * (3 * (-g * Real.sin θ / (V1 * Real.cos θ + 1e-9)) + -g * Real.sin θ / (V2 * Real.cos θ + 1e-9)) / 4 ∧ v0 ≤ V1 ∧ V1 ≤ V2 := by
    intro i v0
    by_cases h : i < n ∧ 0 < v0
    · obtain ⟨V1, V2, h⟩ := straight_step (ε := 1e-9) hk hcos (by norm_num) (hl i h.1).le h.2
      exact ⟨V1, V2, fun _ _ => h⟩
    · exact ⟨0, 0, fun a b => absurd ⟨a, b⟩ h⟩
  choose A B hAB using hex
  obtain ⟨E, hE0, hE⟩ : ∃ E : Nat → ℝ, E 0 = 1e-3 ∧ ∀ i, E (i + 1) = B i (E i) :=
    ⟨fun i => Nat.rec 1e-3 (fun i e => B i e) i, rfl, fun _ => rfl⟩
  have hEge : ∀ i, i ≤ n → 1e-3 ≤ E i := by
    intro i
    induction i with
    | zero => intro _; rw [hE0]
    | succ i ih =>
      intro hi
      have h0 := ih (by omega)
      obtain ⟨-, -, a, b⟩ := hAB i (E i) (by omega) (by linarith)
      rw [hE]; linarith
  have hstep : ∀ i, i < n →
      A i (E i) = E i + len i * (5 * (-g * Real.sin θ / (A i (E i) * Real.cos θ + 1e-9)) - -g * Real.sin θ / (E (i + 1) * Real.cos θ + 1e-9)) / 12 ∧
      E (i + 1) = E i + len i * (3 * (-g * Real.sin θ / (A i (E i) * Real.cos θ + 1e-9)) + -g * Real.sin θ / (E (i + 1) * Real.cos θ + 1e-9)) / 4 ∧
      E i ≤ A i (E i) ∧ A i (E i) ≤ E (i + 1) := by
    intro i hi
    have := hAB i (E i) hi (by linarith [hEge i hi.le])
    rw [hE i]
    exact this
  obtain ⟨v, hv⟩ : ∃ v, v = straightValue g θ E (fun i => A i (E i)) len := ⟨_, rfl⟩
  have even : ∀ i grp m, v grp m (i * 2 + 0) = straightValue g θ (fun _ => E i) (fun _ => 0) (fun _ => ∑ j ∈ Finset.range i, len j) grp m 2 := by
    intro i grp m
    rw [hv]
    simp [straightValue]
  have odd : ∀ i grp m, v grp m (i * 2 + 1)
      = straightValue g θ (fun _ => A i (E i)) (fun _ => 0) (fun _ => ∑ j ∈ Finset.range i, len j + len i / 3) grp m 2 := by
    intro i grp m
    rw [hv]
    have e1 : (i * 2 + 1) % 2 = 1 := by omega
    have e2 : (i * 2 + 1) / 2 = i := by omega
    simp [straightValue, e1, e2]
  have next : ∀ i grp m, v grp m (i * 2 + 2)
      = straightValue g θ (fun _ => E (i + 1)) (fun _ => 0) (fun _ => ∑ j ∈ Finset.range i, len j + len i) grp m 2 := by
    intro i grp m
    rw [show i * 2 + 2 = (i + 1) * 2 + 0 by ring, even, Finset.sum_range_succ]
  have hpart : ∀ i, i ≤ n → 0 ≤ ∑ j ∈ Finset.range i, len j ∧ ∑ j ∈ Finset.range i, len j ≤ L := by
    intro i hi
    rw [hL]
    refine ⟨Finset.sum_nonneg fun j hj => (hl j (by have := Finset.mem_range.mp hj; omega)).le, ?_⟩
    exact Finset.sum_le_sum_of_subset_of_nonneg (fun j hj => Finset.mem_range.mpr (by have := Finset.mem_range.mp hj; omega))
      fun j hj _ => (hl j (Finset.mem_range.mp hj)).le
  have steps : ∀ i, i < n → ∀ m ∈ ["time", "v", "y"], Steps (.lgr c) (fun j => v "states" m (i * 2 + j)) (fun j => v "states_dot" m (i * 2 + j)) (len i) := by
    intro i hi m hm
    rw [lgr_three hc]
    obtain ⟨s1, s2, -⟩ := hstep i hi
    simp only [even i, odd i, next i]
    simp only [List.mem_cons, List.not_mem_nil, or_false] at hm
    have hk' := hk.ne'
    rcases hm with rfl | rfl | rfl
    · simp only [straightValue, String.reduceEq, if_true, if_false, Nat.mod_self]
      constructor
      · rw [div_add' _ _ _ hk', div_left_inj' hk']
        conv_lhs => rw [s1]
        ring
      · rw [div_add' _ _ _ hk', div_left_inj' hk']
        conv_lhs => rw [s2]
        ring
    · simp only [straightValue, String.reduceEq, if_true, if_false, Nat.mod_self]
      exact ⟨s1, s2⟩
    · simp [straightValue]
      constructor <;> ring
  have hst : (Transcription.lgr c).stages - 1 = 2 := by
    show c.numStages - 1 = 2
    rw [(points_three hc).1]
  have split : ∀ s, s ≤ n * 2 → (∃ i, i ≤ n ∧ s = i * 2 + 0) ∨ ∃ i, i < n ∧ s = i * 2 + 1 := by
    intro s hs
    rcases Nat.even_or_odd' s with ⟨i, rfl | rfl⟩
    · exact Or.inl ⟨i, by omega, by omega⟩
    · exact Or.inr ⟨i, by omega, by omega⟩
  have fast : ∀ i, i ≤ n → E i ^ 2 / 2 + g * (Real.tan θ * ∑ j ∈ Finset.range i, len j) ≤ (1e-3) ^ 2 / 2 := by
    intro i
    induction i with
    | zero => intro _; simp [hE0]
    | succ i ih =>
      intro hi
      have ih := ih (by omega)
      obtain ⟨s1, s2, s3, s4⟩ := hstep i (by omega)
      have g0 := hEge i (by omega)
      have loss := lgr_loss (g := g) hc (q := 1) (points_three hc).1 (hl i (by omega)).le (steps i (by omega) "time" (by simp)) (steps i (by omega) "v" (by simp))
        (steps i (by omega) "y" (by simp)) (κ := 0) (by
          intro j hj
          have key : ∀ V : ℝ, 0 < V → V * (-g * Real.sin θ / (V * Real.cos θ + 1e-9)) + g * Real.tan θ ≤ 0 := by
            intro V hV
            have hD : 0 < V * Real.cos θ + 1e-9 := by positivity
            have : V * (-g * Real.sin θ / (V * Real.cos θ + 1e-9)) + g * Real.tan θ = g * 1e-9 * Real.sin θ / (Real.cos θ * (V * Real.cos θ + 1e-9)) := by
              rw [Real.tan_eq_sin_div_cos]
              field_simp
              ring
            rw [this]
            exact div_nonpos_of_nonpos_of_nonneg (mul_nonpos_of_nonneg_of_nonpos (by positivity) hs0.le) (by positivity)
          rw [zero_mul]
          have hj' : j < 3 := hj
          interval_cases j
          · simp only [even i, straightValue, String.reduceEq, if_true, if_false, Nat.mod_self]
            exact key _ (by linarith)
          · simp only [odd i, straightValue, String.reduceEq, if_true, if_false, Nat.mod_self]
            exact key _ (by linarith)
          · simp only [next i, straightValue, String.reduceEq, if_true, if_false, Nat.mod_self]
            exact key _ (by linarith))
      simp only [Nat.reduceAdd, even i, next i, straightValue, String.reduceEq, if_true, if_false, Nat.mod_self, zero_mul, add_zero] at loss
      have e0 := even i
      simp only [Nat.add_zero] at e0
      simp [e0, straightValue] at loss
      rw [Finset.sum_range_succ]
      linarith
  have top : ∀ i, i ≤ n → E i ^ 2 ≤ (1e-3) ^ 2 + 2 * g * |dy| := by
    intro i hi
    have h1 := fast i hi
    obtain ⟨p1, p2⟩ := hpart i hi
    have h2 : dy ≤ Real.tan θ * ∑ j ∈ Finset.range i, len j := by
      rw [htan]
      have := mul_le_mul_of_nonpos_left p2 hr.le
      rwa [div_mul_cancel₀ _ hL0.ne'] at this
    have := mul_le_mul_of_nonneg_left h2 hg.le
    rw [abs_of_neg hy]
    linarith
  have top100 : ∀ i, i ≤ n → E i ≤ 100 := by
    intro i hi
    have h1 := top i hi
    exact (le_abs_self _).trans (abs_le_of_sq_le_sq (h1.trans hfast) (by norm_num))
  have height : ∀ X, 0 ≤ X → X ≤ L → -5 ≤ Real.tan θ * X ∧ Real.tan θ * X ≤ 0 := by
    intro X h0 h1
    rw [htan]
    refine ⟨?_, mul_nonpos_of_nonpos_of_nonneg hr.le h0⟩
    have := mul_le_mul_of_nonpos_left h1 hr.le
    rw [div_mul_cancel₀ _ hL0.ne'] at this
    linarith
  refine ⟨v, ?_, ?_, ?_⟩
  · refine ⟨?_, ?_, ?_, ?_, ?_, ?_, ?_, ?_, ?_⟩
    · intro s _; rw [hv]; simp [straightValue]
    · intro s _; rw [hv]; simp [straightValue]
    · intro s _; rw [hv]; simp [straightValue]
    · rw [hst]; exact steps
    · rw [hst]
      intro s hs
      rcases split s hs with ⟨i, hi, rfl⟩ | ⟨i, hi, rfl⟩
      · rw [even]
        simp only [straightValue, String.reduceEq, if_true, if_false, Nat.mod_self]
        exact ⟨hEge i hi, top100 i hi⟩
      · rw [odd]
        simp only [straightValue, String.reduceEq, if_true, if_false, Nat.mod_self]
        obtain ⟨-, -, s3, s4⟩ := hstep i hi
        exact ⟨by linarith [hEge i hi.le], by linarith [top100 (i + 1) hi]⟩
    · rw [hst]
      intro s hs
      rcases split s hs.le with ⟨i, hi, rfl⟩ | ⟨i, hi, rfl⟩
      · rw [even]
        simp [straightValue]
        exact height _ (hpart i hi).1 (hpart i hi).2
      · rw [odd]
        simp [straightValue]
        have := hl i hi
        have h1 := (hpart (i + 1) hi).2
        rw [Finset.sum_range_succ] at h1
        exact height _ (by linarith [(hpart i hi.le).1]) (by linarith)
    · intro s _; rw [hv]; simpa [straightValue] using hang
    · have e := even 0
      simp only [Nat.zero_mul, Nat.zero_add] at e
      rw [e, e, e]
      simp [straightValue, hE0]
    · rw [hst, show n * 2 = n * 2 + 0 by rfl, even]
      simp [straightValue, ← hL, htan]
      field_simp
  · intro s _; rw [hv, hθ]; simp [straightValue]
  · rw [show n * 2 = n * 2 + 0 by rfl, even]
    simp only [straightValue, String.reduceEq, if_true, if_false, Nat.mod_self]
    have h1 : E n ≤ √((1e-3) ^ 2 + 2 * g * |dy|) := Real.le_sqrt_of_sq_le (top n le_rfl)
    have h2 : -g * Real.sin θ = g * |dy| / √(L ^ 2 + dy ^ 2) := by rw [hsin, abs_of_neg hy]; ring
    rw [h2, div_div_eq_mul_div]
    have : 0 < g * |dy| := mul_pos hg (abs_pos.mpr hy.ne)
    exact div_le_div_of_nonneg_right (mul_le_mul_of_nonneg_right (by linarith) hQ.le) this.le

end Lumos.Fix
