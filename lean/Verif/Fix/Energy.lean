import Verif.Fix.Dist
import Verif.Fix.Radau
/-!
# C106: time, speed, reach and energy of the slides over the distance
-/

namespace Lumos.Fix

open Lumos DecVar DecVar.Layout Bounds Ocp Lumos.Trans NLP Sim Lumos.Order

/-! ### The slopes -/

theorem steep_lt : Real.pi / 2.01 < Real.pi / 2 := by
  have := Real.pi_pos
  apply div_lt_div_of_pos_left this <;> norm_num

theorem steep_pos : 0 < Real.pi / 2.01 := div_pos Real.pi_pos (by norm_num)

theorem cos_steep : 0 < Real.cos (Real.pi / 2.01) :=
  Real.cos_pos_of_mem_Ioo ⟨by linarith [steep_pos, Real.pi_pos], steep_lt⟩

theorem cos_ge {θ : ℝ} (h : |θ| ≤ Real.pi / 2.01) : Real.cos (Real.pi / 2.01) ≤ Real.cos θ := by
  rw [← Real.cos_abs θ]
  exact Real.cos_le_cos_of_nonneg_of_le_pi (abs_nonneg _) (by linarith [steep_lt, Real.pi_pos]) h

theorem tan_le {θ : ℝ} (h : |θ| ≤ Real.pi / 2.01) : |Real.tan θ| ≤ Real.tan (Real.pi / 2.01) := by
  have mono : ∀ {a b : ℝ}, -(Real.pi / 2.01) ≤ a → a ≤ b → b ≤ Real.pi / 2.01 → Real.tan a ≤ Real.tan b := by
    intro a b ha hab hb
    rcases hab.eq_or_lt with e | e
    · rw [e]
    · exact (Real.tan_lt_tan_of_lt_of_lt_pi_div_two (by linarith [steep_lt]) (by linarith [steep_lt]) e).le
  obtain ⟨h1, h2⟩ := abs_le.mp h
  rw [abs_le]
  refine ⟨?_, mono h1 h2 le_rfl⟩
  rw [← Real.tan_neg]
  exact mono le_rfl h1 h2

theorem tan_steep : 0 < Real.tan (Real.pi / 2.01) := Real.tan_pos_of_pos_of_lt_pi_div_two steep_pos steep_lt

/-! ### One interval -/

section
variable {g dy : ℝ} {t : Transcription} {n : Nat} {len : Nat → ℝ} {v : String → String → Nat → ℝ}

/-- The horizontal velocity of the model. -/
theorem Descent.forward (f : Descent g dy t n len v) {s : Nat} (hs : s ≤ n * (t.stages - 1)) :
    1e-3 * Real.cos (Real.pi / 2.01) + 1e-9 ≤ v "states" "v" s * Real.cos (v "inputs" "theta" s) + 1e-9 ∧
    v "states" "v" s * Real.cos (v "inputs" "theta" s) + 1e-9 ≤ 100 + 1e-9 ∧ 0 < v "states" "v" s * Real.cos (v "inputs" "theta" s) + 1e-9 := by
  obtain ⟨h1, h2⟩ := f.speed s hs
  have h3 := cos_ge (f.angle s hs)
  have h4 := Real.cos_le_one (v "inputs" "theta" s)
  have h5 := cos_steep
  have h6 : 1e-3 * Real.cos (Real.pi / 2.01) ≤ v "states" "v" s * Real.cos (v "inputs" "theta" s) := mul_le_mul h1 h3 h5.le (by linarith)
  have h7 : v "states" "v" s * Real.cos (v "inputs" "theta" s) ≤ 100 * 1 := mul_le_mul h2 h4 (by linarith) (by norm_num)
  refine ⟨by linarith, by linarith, ?_⟩
  have : (0 : ℝ) < 1e-3 * Real.cos (Real.pi / 2.01) := by positivity
  linarith

/-- What every transcription gives over one interval. -/
theorem Descent.step {name : String} {kwargs : List (String × Int)} (ht : makeTranscription name kwargs = .ok t) (hg : 0 ≤ g)
    (f : Descent g dy t n len v) {i : Nat} (hi : i < n) (hl : 0 ≤ len i) :
    (len i / (100 + 1e-9) ≤ v "states" "time" ((i + 1) * (t.stages - 1)) - v "states" "time" (i * (t.stages - 1)) ∧
      v "states" "time" ((i + 1) * (t.stages - 1)) - v "states" "time" (i * (t.stages - 1)) ≤ len i / (1e-3 * Real.cos (Real.pi / 2.01) + 1e-9)) ∧
    |v "states" "v" ((i + 1) * (t.stages - 1)) - v "states" "v" (i * (t.stages - 1))|
      ≤ g * (v "states" "time" ((i + 1) * (t.stages - 1)) - v "states" "time" (i * (t.stages - 1))) ∧
    |v "states" "y" ((i + 1) * (t.stages - 1)) - v "states" "y" (i * (t.stages - 1))| ≤ Real.tan (Real.pi / 2.01) * len i := by
  obtain ⟨h2, -⟩ := C38_shapes ht
  obtain ⟨w, hw, hr⟩ := rule_exists ht
  have e : (i + 1) * (t.stages - 1) = i * (t.stages - 1) + (t.stages - 1) := by ring
  have hst : ∀ j, j < t.stages → i * (t.stages - 1) + j ≤ n * (t.stages - 1) := by
    intro j hj
    have : (i + 1) * (t.stages - 1) ≤ n * (t.stages - 1) := Nat.mul_le_mul_right _ hi
    omega
  have dt := hr _ _ _ (f.steps i hi "time" (by simp))
  have dv := hr _ _ _ (f.steps i hi "v" (by simp))
  have dyy := hr _ _ _ (f.steps i hi "y" (by simp))
  rw [← e] at dt dv dyy
  simp only [Nat.add_zero] at dt dv dyy
  rw [dt, dv, dyy]
  have one : ∀ a : ℝ, a = ∑ j ∈ Finset.range t.stages, w j * a := fun a => by rw [← Finset.sum_mul, hw.total, one_mul]
  refine ⟨⟨?_, ?_⟩, ?_, ?_⟩
  · rw [div_eq_mul_inv]
    refine mul_le_mul_of_nonneg_left ?_ hl
    rw [one (100 + 1e-9)⁻¹]
    refine Finset.sum_le_sum fun j hj => mul_le_mul_of_nonneg_left ?_ (hw.nonneg j (Finset.mem_range.mp hj))
    obtain ⟨k1, k2, k3⟩ := f.forward (hst j (Finset.mem_range.mp hj))
    rw [f.clock _ (hst j (Finset.mem_range.mp hj)), one_div]
    exact inv_anti₀ k3 k2
  · rw [div_eq_mul_inv]
    refine mul_le_mul_of_nonneg_left ?_ hl
    rw [one (1e-3 * Real.cos (Real.pi / 2.01) + 1e-9)⁻¹]
    refine Finset.sum_le_sum fun j hj => mul_le_mul_of_nonneg_left ?_ (hw.nonneg j (Finset.mem_range.mp hj))
    obtain ⟨k1, k2, k3⟩ := f.forward (hst j (Finset.mem_range.mp hj))
    rw [f.clock _ (hst j (Finset.mem_range.mp hj)), one_div]
    have := cos_steep
    exact inv_anti₀ (by positivity) k1
  · rw [abs_mul, abs_of_nonneg hl, ← mul_assoc, mul_comm g, mul_assoc, Finset.mul_sum]
    refine mul_le_mul_of_nonneg_left ((Finset.abs_sum_le_sum_abs _ _).trans (Finset.sum_le_sum fun j hj => ?_)) hl
    have hj := Finset.mem_range.mp hj
    obtain ⟨k1, k2, k3⟩ := f.forward (hst j hj)
    rw [f.clock _ (hst j hj), f.accel _ (hst j hj), abs_mul, abs_of_nonneg (hw.nonneg j hj), abs_div, abs_of_pos k3, ← mul_assoc, mul_comm g, mul_assoc]
    refine mul_le_mul_of_nonneg_left ?_ (hw.nonneg j hj)
    rw [mul_one_div, neg_mul, abs_neg, abs_mul, abs_of_nonneg hg]
    exact div_le_div_of_nonneg_right (mul_le_of_le_one_right hg (Real.abs_sin_le_one _)) k3.le
  · rw [abs_mul, abs_of_nonneg hl, mul_comm]
    refine mul_le_mul_of_nonneg_right ?_ hl
    rw [one (Real.tan (Real.pi / 2.01))]
    refine (Finset.abs_sum_le_sum_abs _ _).trans (Finset.sum_le_sum fun j hj => ?_)
    have hj := Finset.mem_range.mp hj
    rw [f.slope _ (hst j hj), abs_mul, abs_of_nonneg (hw.nonneg j hj)]
    exact mul_le_mul_of_nonneg_left (tan_le (f.angle _ (hst j hj))) (hw.nonneg j hj)

/-- What every transcription gives up to an interval point. -/
theorem Descent.upto {name : String} {kwargs : List (String × Int)} (ht : makeTranscription name kwargs = .ok t) (hg : 0 ≤ g)
    (f : Descent g dy t n len v) (hl : ∀ i, i < n → 0 ≤ len i) : ∀ i, i ≤ n →
    ((∑ j ∈ Finset.range i, len j) / (100 + 1e-9) ≤ v "states" "time" (i * (t.stages - 1)) ∧
      v "states" "time" (i * (t.stages - 1)) ≤ (∑ j ∈ Finset.range i, len j) / (1e-3 * Real.cos (Real.pi / 2.01) + 1e-9)) ∧
    |v "states" "v" (i * (t.stages - 1)) - 1e-3| ≤ g * v "states" "time" (i * (t.stages - 1)) ∧
    |v "states" "y" (i * (t.stages - 1))| ≤ Real.tan (Real.pi / 2.01) * ∑ j ∈ Finset.range i, len j := by
  intro i
  induction i with
  | zero =>
    intro _
    obtain ⟨s1, s2, s3⟩ := f.start
    simp [s1, s2, s3]
  | succ i ih =>
    intro hi
    obtain ⟨⟨a1, a2⟩, a3, a4⟩ := ih (by omega)
    obtain ⟨⟨b1, b2⟩, b3, b4⟩ := f.step ht hg (i := i) (by omega) (hl i (by omega))
    rw [Finset.sum_range_succ, add_div, add_div]
    refine ⟨⟨by linarith, by linarith⟩, ?_, ?_⟩
    · rw [abs_le] at a3 b3 ⊢
      constructor <;> linarith [a3.1, a3.2, b3.1, b3.2]
    · rw [abs_le] at a4 b4 ⊢
      constructor <;> linarith [a4.1, a4.2, b4.1, b4.2]

/-- The energy over one interval of an LGR method, for any speeds and slopes with a forward motion. -/
theorem lgr_loss {m : Int} {c : Colloc} (hc : mkColloc m = .ok c) {q : Nat} (h1 : c.numStages = q + 2) {h : ℝ} (hh : 0 ≤ h)
    {T V Y T' V' Y' : Nat → ℝ} (sT : Steps (.lgr c) T T' h) (sV : Steps (.lgr c) V V' h) (sY : Steps (.lgr c) Y Y' h) {κ : ℝ}
    (rate : ∀ j, j < q + 2 → V j * V' j + g * Y' j ≤ κ * T' j) :
    V (q + 1) ^ 2 / 2 + g * Y (q + 1) ≤ V 0 ^ 2 / 2 + g * Y 0 + κ * (T (q + 1) - T 0) := by
  obtain ⟨n', h1', h2, h3, h4, h5, h6, h7, h8, h9⟩ := mkColloc_radau hc
  obtain rfl : n' = q := by omega
  have en := lgr_energy hc h1 (d := 1) (X := fun j _ => V j) (Xd := fun j _ => V' j) (fun _ => sV)
  simp only [Finset.univ_unique, Finset.sum_singleton] at en
  have eT := lgr_end hc h1 sT
  have eY := lgr_end hc h1 sY
  have pos : ∀ l, l < n' + 1 → 0 < weight c.collocationPoints l := fun l hl => radau_pos h2 h3 h4 h6 hl
  have sum : ∑ l ∈ Finset.range (n' + 1), weight c.collocationPoints l * (V (l + 1) * V' (l + 1) + g * Y' (l + 1))
      ≤ ∑ l ∈ Finset.range (n' + 1), weight c.collocationPoints l * (κ * T' (l + 1)) := by
    refine Finset.sum_le_sum fun l hl => mul_le_mul_of_nonneg_left (rate _ ?_) (pos l (Finset.mem_range.mp hl)).le
    have := Finset.mem_range.mp hl
    omega
  have e1 : ∑ l ∈ Finset.range (n' + 1), weight c.collocationPoints l * (κ * T' (l + 1))
      = κ * ∑ l ∈ Finset.range (n' + 1), weight c.collocationPoints l * T' (l + 1) := by
    rw [Finset.mul_sum]
    exact Finset.sum_congr rfl fun _ _ => by ring
  have e2 : ∑ l ∈ Finset.range (n' + 1), weight c.collocationPoints l * (V (l + 1) * V' (l + 1) + g * Y' (l + 1))
      = ∑ l ∈ Finset.range (n' + 1), weight c.collocationPoints l * (V' (l + 1) * V (l + 1))
        + g * ∑ l ∈ Finset.range (n' + 1), weight c.collocationPoints l * Y' (l + 1) := by
    rw [Finset.mul_sum, ← Finset.sum_add_distrib]
    exact Finset.sum_congr rfl fun _ _ => by ring
  rw [e1, e2] at sum
  have := mul_le_mul_of_nonneg_left sum hh
  rw [eT, eY]
  nlinarith

/-- The rate at which the model gains energy, per unit of its own time. -/
theorem Descent.gain (f : Descent g dy t n len v) {s : Nat} (hs : s ≤ n * (t.stages - 1)) :
    v "states" "v" s * v "states_dot" "v" s + g * v "states_dot" "y" s = g * 1e-9 * Real.tan (v "inputs" "theta" s) * v "states_dot" "time" s := by
  obtain ⟨k1, k2, k3⟩ := f.forward hs
  have hc : 0 < Real.cos (v "inputs" "theta" s) := lt_of_lt_of_le cos_steep (cos_ge (f.angle s hs))
  rw [f.accel s hs, f.slope s hs, f.clock s hs, Real.tan_eq_sin_div_cos]
  field_simp
  ring

/-- LGR: the energy at the interval points. -/
theorem Descent.energy {kwargs : List (String × Int)} (ht : makeTranscription "LGR" kwargs = .ok t) (hg : 0 ≤ g) (f : Descent g dy t n len v)
    (hl : ∀ i, i < n → 0 ≤ len i) {τ : ℝ} (hτ : ∀ s, s ≤ n * (t.stages - 1) → Real.tan (v "inputs" "theta" s) ≤ τ) : ∀ i, i ≤ n →
    v "states" "v" (i * (t.stages - 1)) ^ 2 / 2 + g * v "states" "y" (i * (t.stages - 1))
      ≤ (1e-3) ^ 2 / 2 + g * 1e-9 * τ * v "states" "time" (i * (t.stages - 1)) := by
  obtain ⟨m, c, hc, h | h⟩ := make_lgr (Or.inl rfl) ht
  swap
  · exact absurd h.1 (by decide)
  obtain ⟨_, rfl⟩ := h
  obtain ⟨q, h1, -⟩ := mkColloc_radau hc
  have hst : (Transcription.lgr c).stages - 1 = q + 1 := by show c.numStages - 1 = _; omega
  rw [hst] at hτ ⊢
  intro i
  induction i with
  | zero =>
    intro _
    obtain ⟨s1, s2, s3⟩ := f.start
    simp [s1, s2, s3]
  | succ i ih =>
    intro hi
    have ih := ih (by omega)
    have sT := f.steps i (by omega) "time" (by simp)
    have sV := f.steps i (by omega) "v" (by simp)
    have sY := f.steps i (by omega) "y" (by simp)
    rw [hst] at sT sV sY
    have := lgr_loss (g := g) hc h1 (hl i (by omega)) sT sV sY (κ := g * 1e-9 * τ) (by
      intro j hj
      have hs : i * (q + 1) + j ≤ n * (q + 1) := by
        have : (i + 1) * (q + 1) ≤ n * (q + 1) := Nat.mul_le_mul_right _ hi
        have : (i + 1) * (q + 1) = i * (q + 1) + (q + 1) := by ring
        omega
      rw [f.gain (by rw [hst]; exact hs)]
      obtain ⟨k1, k2, k3⟩ := f.forward (s := i * (q + 1) + j) (by rw [hst]; exact hs)
      have : 0 ≤ v "states_dot" "time" (i * (q + 1) + j) := by
        rw [f.clock _ (by rw [hst]; exact hs)]
        exact (one_div_pos.mpr k3).le
      exact mul_le_mul_of_nonneg_right (mul_le_mul_of_nonneg_left (hτ _ hs) (by positivity)) this)
    rw [show (i + 1) * (q + 1) = i * (q + 1) + (q + 1) by ring]
    simp only [Nat.add_zero] at this
    nlinarith

end

end Lumos.Fix
