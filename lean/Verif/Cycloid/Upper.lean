import Verif.Cycloid.Lower
import Mathlib.Analysis.SpecificLimits.Basic
/-!
# C93: the solved problem comes close to the cycloid
-/

namespace Lumos.Cycloid

open Lumos DecVar DecVar.Layout Bounds Ocp Lumos.Trans NLP Sim Real Set

/-! ## Sums of sines and cosines by the trapezoidal rule -/

theorem cot_sin {a δ : ℝ} (h : sin (δ / 2) ≠ 0) : cos (δ / 2) / sin (δ / 2) * (sin (a + δ) - sin a) = cos a + cos (a + δ) := by
  have e1 : sin (a + δ) - sin a = 2 * sin (δ / 2) * cos (a + δ / 2) := by
    rw [sin_sub_sin]; congr 2 <;> ring_nf
  have e2 : cos a + cos (a + δ) = 2 * cos (a + δ / 2) * cos (δ / 2) := by
    rw [add_comm, cos_add_cos]; congr 2 <;> ring_nf
  rw [e1, e2]; field_simp

theorem cot_cos {a δ : ℝ} (h : sin (δ / 2) ≠ 0) : cos (δ / 2) / sin (δ / 2) * (cos a - cos (a + δ)) = sin a + sin (a + δ) := by
  have := cot_sin (a := a - π / 2) h
  rw [show a - π / 2 + δ = a + δ - π / 2 by ring] at this
  simp only [sin_sub_pi_div_two, cos_sub_pi_div_two] at this
  rw [← this]; ring

/-- `x cot x`. -/
noncomputable def xcot (x : ℝ) : ℝ := x * (cos x / sin x)

theorem xcot_le {x : ℝ} (h0 : 0 < x) (h1 : x < π) : xcot x ≤ 1 := by
  unfold xcot
  rw [← mul_div_assoc, div_le_one (sin_pos_of_pos_of_lt_pi h0 h1)]
  exact (mul_cos_lt_sin h0 h1).le

theorem xcot_ge {x : ℝ} (h0 : 0 < x) (h1 : x < π / 2) : 1 - x ^ 2 / 2 ≤ xcot x := by
  have hs := sin_pos_of_pos_of_lt_pi h0 (by linarith)
  have hc := cos_pos_of_mem_Ioo ⟨by linarith, h1⟩
  refine (one_sub_sq_div_two_le_cos).trans ?_
  unfold xcot
  rw [← mul_div_assoc, le_div_iff₀ hs]
  nlinarith [sin_lt h0]

/-! ## A discretised cycloid -/

/-- The values of the discretised cycloid of angle `ψ` in the time `T`. -/
noncomputable def gridValue (g ψ T : ℝ) (n : Nat) (grp m : String) (s : Nat) : ℝ :=
  let δ := ψ / (2 * n)
  let h := T / n
  let K := g * (h / 2) * (cos (δ / 2) / sin (δ / 2))
  let k := h / 2 * (cos δ / sin δ)
  if grp = "inputs" then s * δ - π / 2
  else if grp = "states" then
    if m = "v" then K * sin (s * δ)
    else if m = "x" then K / 2 * (s * h - k * sin (s * (2 * δ)))
    else -(K / 2 * (k * (1 - cos (s * (2 * δ)))))
  else if m = "v" then g * cos (s * δ)
  else if m = "x" then K * sin (s * δ) ^ 2
  else -(K / 2 * sin (s * (2 * δ)))

section
variable {g dx dy ψ T : ℝ} {n : Nat}

theorem grid_slide (hn : 2 ≤ n) (h0 : 0 < ψ) (h1 : ψ < 2 * π) (hT : 0.01 ≤ T ∧ T ≤ 10)
    (hx : g * T ^ 2 * xcot (ψ / (4 * n)) / ψ ^ 2 * (ψ - xcot (ψ / (2 * n)) * sin ψ) = dx)
    (hy : g * T ^ 2 * xcot (ψ / (4 * n)) / ψ ^ 2 * (xcot (ψ / (2 * n)) * (1 - cos ψ)) = -dy) :
    Slide g dx dy .trapezoidal n (pointsOf n none) (gridValue g ψ T n) T := by
  have hp := pi_pos
  have hn0 : (0 : ℝ) < n := by positivity
  have hn2 : (2 : ℝ) ≤ n := by exact_mod_cast hn
  have hst : Transcription.trapezoidal.stages - 1 = 1 := rfl
  have d0 : 0 < ψ / (2 * n) := by positivity
  have d1 : ψ / (2 * n) < π := by
    rw [div_lt_iff₀ (by positivity)]; nlinarith
  have sd : sin (ψ / (2 * n)) ≠ 0 := (sin_pos_of_pos_of_lt_pi d0 d1).ne'
  have sd2 : sin (ψ / (2 * n) / 2) ≠ 0 := (sin_pos_of_pos_of_lt_pi (by linarith) (by linarith)).ne'
  have nd : (n : ℝ) * (2 * (ψ / (2 * n))) = ψ := by field_simp
  have e4 : ψ / (4 * n) = ψ / (2 * n) / 2 := by field_simp; ring
  have nsv : ¬ "states" = "inputs" := by decide
  have ndv : ¬ "states_dot" = "inputs" := by decide
  have nds : ¬ "states_dot" = "states" := by decide
  have nxv : ¬ "x" = "v" := by decide
  have nyv : ¬ "y" = "v" := by decide
  have nyx : ¬ "y" = "x" := by decide
  have cs : ∀ s : Nat, sin (s * (2 * (ψ / (2 * n)))) = 2 * sin (s * (ψ / (2 * n))) * cos (s * (ψ / (2 * n))) := by
    intro s; rw [show (s : ℝ) * (2 * (ψ / (2 * n))) = 2 * (s * (ψ / (2 * n))) by ring, sin_two_mul]
  have cc : ∀ s : Nat, cos (s * (2 * (ψ / (2 * n)))) = 1 - 2 * sin (s * (ψ / (2 * n))) ^ 2 := by
    intro s; rw [show (s : ℝ) * (2 * (ψ / (2 * n))) = 2 * (s * (ψ / (2 * n))) by ring, cos_two_mul, cos_sq']; ring
  refine ⟨?_, ?_, ?_, ?_, ?_, ?_, ?_, ?_, hT⟩
  · intro s _
    simp only [gridValue, if_neg ndv, if_neg nds, if_true, sin_sub_pi_div_two]
    ring
  · intro s _
    simp only [gridValue, if_neg ndv, if_neg nds, if_neg nsv, if_neg nxv, if_true, cos_sub_pi_div_two]
    ring
  · intro s _
    simp only [gridValue, if_neg ndv, if_neg nds, if_neg nsv, if_neg nyv, if_neg nyx, if_true, sin_sub_pi_div_two, cs]
    ring
  · intro i hi m hm
    rw [hst, even_len n T hi, steps_trapezoidal]
    simp only [List.mem_cons, List.not_mem_nil, or_false] at hm
    have f1 := cot_sin (a := i * (ψ / (2 * n))) sd2
    have f2 := cot_sin (a := i * (2 * (ψ / (2 * n)))) (δ := 2 * (ψ / (2 * n))) (by rw [mul_div_cancel_left₀ _ two_ne_zero]; exact sd)
    have f3 := cot_cos (a := i * (2 * (ψ / (2 * n)))) (δ := 2 * (ψ / (2 * n))) (by rw [mul_div_cancel_left₀ _ two_ne_zero]; exact sd)
    rw [mul_div_cancel_left₀ _ two_ne_zero] at f2 f3
    have a1 : (i : ℝ) * (ψ / (2 * n)) + ψ / (2 * n) = ((i + 1 : Nat) : ℝ) * (ψ / (2 * n)) := by push_cast; ring
    have a2 : (i : ℝ) * (2 * (ψ / (2 * n))) + 2 * (ψ / (2 * n)) = ((i + 1 : Nat) : ℝ) * (2 * (ψ / (2 * n))) := by push_cast; ring
    rw [a1] at f1
    rw [a2] at f2 f3
    rcases hm with rfl | rfl | rfl
    · simp only [gridValue, if_neg nsv, if_neg ndv, if_neg nds, if_true, mul_one, add_zero]
      linear_combination g * (T / n / 2) * f1
    · simp only [gridValue, if_neg nsv, if_neg ndv, if_neg nds, if_neg nxv, if_true, mul_one, add_zero]
      have c1 := cc i
      have c2 := cc (i + 1)
      generalize cos (ψ / (2 * n) / 2) / sin (ψ / (2 * n) / 2) = k2 at *
      generalize cos (ψ / (2 * n)) / sin (ψ / (2 * n)) = k1 at *
      push_cast at *
      rw [c1, c2] at f2
      linear_combination (-(g * (T / n / 2) * k2 / 2 * (T / n / 2))) * f2
    · simp only [gridValue, if_neg nsv, if_neg ndv, if_neg nds, if_neg nyv, if_neg nyx, if_true, mul_one, add_zero]
      generalize cos (ψ / (2 * n) / 2) / sin (ψ / (2 * n) / 2) = k2 at *
      generalize cos (ψ / (2 * n)) / sin (ψ / (2 * n)) = k1 at *
      linear_combination (-(g * (T / n / 2) * k2 / 2 * (T / n / 2))) * f3
  · intro s hs
    rw [hst, mul_one] at hs
    have hs' : (s : ℝ) ≤ n := by exact_mod_cast hs
    have a1 : (s : ℝ) * (ψ / (2 * n)) ≤ n * (ψ / (2 * n)) := mul_le_mul_of_nonneg_right hs' d0.le
    have a2 : (n : ℝ) * (ψ / (2 * n)) = ψ / 2 := by field_simp
    have a3 : 0 ≤ (s : ℝ) * (ψ / (2 * n)) := by positivity
    simp only [gridValue, if_true]
    rw [abs_le]
    constructor <;> linarith
  · intro m hm
    simp only [List.mem_cons, List.not_mem_nil, or_false] at hm
    rcases hm with rfl | rfl | rfl <;> simp [gridValue]
  · rw [hst, mul_one, ← hx]
    simp only [gridValue, if_neg nsv, if_neg nxv, if_true, nd, xcot, e4]
    field_simp
  · rw [hst, mul_one]
    have : dy = -(g * T ^ 2 * xcot (ψ / (4 * n)) / ψ ^ 2 * (xcot (ψ / (2 * n)) * (1 - cos ψ))) := by rw [hy]; ring
    rw [this]
    simp only [gridValue, if_neg nsv, if_neg nyv, if_neg nyx, if_true, nd, xcot, e4]
    field_simp

theorem xcot_cont {x : ℝ} (h0 : 0 < x) (h1 : x < π) : ContinuousAt xcot x := by
  have hs := (sin_pos_of_pos_of_lt_pi h0 h1).ne'
  unfold xcot
  exact continuousAt_id.mul (continuous_cos.continuousAt.div continuous_sin.continuousAt hs)

/-- The two equations of `grid_slide` in terms of the angle alone. -/
theorem grid_time (hg : 0 < g) (hdy : dy < 0) (h0 : 0 < ψ) (h1 : ψ < 2 * π) {c d : ℝ} (hc : 0 < c) (hd : 0 < d)
    (he : (ψ - c * sin ψ) * -dy = dx * (c * (1 - cos ψ))) :
    g * (ψ * √(-dy / (g * (c * d) * (1 - cos ψ)))) ^ 2 * d / ψ ^ 2 * (ψ - c * sin ψ) = dx ∧
    g * (ψ * √(-dy / (g * (c * d) * (1 - cos ψ)))) ^ 2 * d / ψ ^ 2 * (c * (1 - cos ψ)) = -dy := by
  have hq := one_sub_cos_pos h0 h1
  have hy : 0 < -dy := by linarith
  rw [mul_pow, sq_sqrt (by positivity)]
  constructor
  · have : ψ - c * sin ψ = dx * (c * (1 - cos ψ)) / -dy := by rw [← he, mul_div_cancel_right₀ _ hy.ne']
    rw [this]
    have : dy ≠ 0 := hdy.ne
    field_simp
  · field_simp

/-- Near the angle of the cycloid there is an angle whose discretised cycloid ends in the direction of the target. -/
theorem grid_angle (hdx : 0 < dx) (hdy : dy < 0) {φ : ℝ} (h0 : 0 < φ) (h1 : φ < 2 * π) (hr : dx = -dy * ratio φ) {η : ℝ} (hη : 0 < η) :
    ∃ n0 : Nat, 2 ≤ n0 ∧ ∀ n, n0 ≤ n → ∃ ψ, 0 < ψ ∧ ψ < 2 * π ∧ |ψ - φ| < η ∧ |xcot (ψ / (2 * n)) * xcot (ψ / (4 * n)) - 1| < η ∧
      0 < xcot (ψ / (2 * n)) ∧ 0 < xcot (ψ / (4 * n)) ∧
      (ψ - xcot (ψ / (2 * n)) * sin ψ) * -dy = dx * (xcot (ψ / (2 * n)) * (1 - cos ψ)) := by
  have hp := pi_pos
  have hy : 0 < -dy := by linarith
  -- an angle on each side
  obtain ⟨e, e0, e1, e2, e3⟩ : ∃ e, 0 < e ∧ e < η ∧ 0 < φ - e ∧ φ + e < 2 * π := by
    refine ⟨min (η / 2) (min (φ / 2) ((2 * π - φ) / 2)), ?_, ?_, ?_, ?_⟩
    · exact lt_min (by linarith) (lt_min (by linarith) (by linarith))
    · exact lt_of_le_of_lt (min_le_left _ _) (by linarith)
    · have : min (η / 2) (min (φ / 2) ((2 * π - φ) / 2)) ≤ φ / 2 := (min_le_right _ _).trans (min_le_left _ _)
      linarith
    · have : min (η / 2) (min (φ / 2) ((2 * π - φ) / 2)) ≤ (2 * π - φ) / 2 := (min_le_right _ _).trans (min_le_right _ _)
      linarith
  have sgn : ∀ ψ, 0 < ψ → ψ < 2 * π → (ψ - sin ψ) * -dy - dx * (1 - cos ψ) = -dy * (1 - cos ψ) * (ratio ψ - ratio φ) := by
    intro ψ a b
    have := one_sub_cos_pos a b
    rw [hr]
    unfold ratio
    field_simp
    ring
  have qa := one_sub_cos_pos e2 (by linarith : φ - e < 2 * π)
  have qb := one_sub_cos_pos (by linarith : 0 < φ + e) e3
  have lo : (φ - e - sin (φ - e)) * -dy - dx * (1 - cos (φ - e)) < 0 := by
    rw [sgn _ e2 (by linarith)]
    have : ratio (φ - e) < ratio φ := ratio_mono ⟨e2, by linarith⟩ ⟨h0, h1⟩ (by linarith)
    exact mul_neg_of_pos_of_neg (mul_pos hy qa) (by linarith)
  have hi : 0 < (φ + e - sin (φ + e)) * -dy - dx * (1 - cos (φ + e)) := by
    rw [sgn _ (by linarith) e3]
    have : ratio φ < ratio (φ + e) := ratio_mono ⟨h0, h1⟩ ⟨by linarith, e3⟩ (by linarith)
    exact mul_pos (mul_pos hy qb) (by linarith)
  -- enough intervals
  obtain ⟨μ, μ0, m1, m2, m3⟩ : ∃ μ : ℝ, 0 < μ ∧ μ ≤ 1 / 2 ∧ 2 * μ < η ∧
      μ * (-dy + 2 * dx) < min (-((φ - e - sin (φ - e)) * -dy - dx * (1 - cos (φ - e)))) ((φ + e - sin (φ + e)) * -dy - dx * (1 - cos (φ + e))) := by
    set m := min (-((φ - e - sin (φ - e)) * -dy - dx * (1 - cos (φ - e)))) ((φ + e - sin (φ + e)) * -dy - dx * (1 - cos (φ + e))) with hm
    have m0 : 0 < m := lt_min (by linarith) hi
    have hk : 0 < -dy + 2 * dx := by linarith
    refine ⟨min (1 / 2) (min (η / 4) (m / (2 * (-dy + 2 * dx)))), ?_, min_le_left _ _, ?_, ?_⟩
    · exact lt_min (by norm_num) (lt_min (by linarith) (by positivity))
    · have : min (1 / 2) (min (η / 4) (m / (2 * (-dy + 2 * dx)))) ≤ η / 4 := (min_le_right _ _).trans (min_le_left _ _)
      linarith
    · have : min (1 / 2) (min (η / 4) (m / (2 * (-dy + 2 * dx)))) ≤ m / (2 * (-dy + 2 * dx)) := (min_le_right _ _).trans (min_le_right _ _)
      calc _ ≤ m / (2 * (-dy + 2 * dx)) * (-dy + 2 * dx) := mul_le_mul_of_nonneg_right this hk.le
        _ = m / 2 := by field_simp
        _ < m := by linarith
  obtain ⟨k, hk⟩ := exists_nat_gt (π ^ 2 / 2 / μ)
  refine ⟨max k 3, by omega, fun n hn => ?_⟩
  have hn3 : (3 : ℝ) ≤ n := by exact_mod_cast (le_max_right k 3).trans hn
  have hnk : (k : ℝ) ≤ n := by exact_mod_cast (le_max_left k 3).trans hn
  have n0 : (0 : ℝ) < n := by linarith
  have ang : ∀ ψ, 0 < ψ → ψ < 2 * π → (0 < ψ / (2 * n) ∧ ψ / (2 * n) < π / n) ∧ (0 < ψ / (4 * n) ∧ ψ / (4 * n) < π / n) := by
    intro ψ a b
    refine ⟨⟨by positivity, ?_⟩, by positivity, ?_⟩
    · rw [div_lt_div_iff₀ (by positivity) n0]; nlinarith
    · rw [div_lt_div_iff₀ (by positivity) n0]; nlinarith
  have pin : π / n < π / 2 := by
    rw [div_lt_div_iff₀ n0 two_pos]; nlinarith
  have cl : ∀ x, 0 < x → x < π / n → 1 - μ ≤ xcot x ∧ xcot x ≤ 1 := by
    intro x a b
    refine ⟨le_trans ?_ (xcot_ge a (by linarith)), xcot_le a (by linarith)⟩
    have h2 : x ^ 2 ≤ (π / n) ^ 2 := pow_le_pow_left₀ a.le b.le 2
    have h3 : (π / n) ^ 2 / 2 ≤ μ := by
      rw [div_pow, div_div, div_le_iff₀ (by positivity)]
      rw [div_lt_iff₀ μ0] at hk
      have : (k : ℝ) * μ ≤ n * μ := mul_le_mul_of_nonneg_right hnk μ0.le
      nlinarith [mul_nonneg μ0.le (show (0 : ℝ) ≤ n * (n - 1) by nlinarith)]
    linarith
  set E : ℝ → ℝ := fun ψ => (ψ - xcot (ψ / (2 * n)) * sin ψ) * -dy - dx * (xcot (ψ / (2 * n)) * (1 - cos ψ)) with hE
  have near : ∀ ψ, 0 < ψ → ψ < 2 * π → |E ψ - ((ψ - sin ψ) * -dy - dx * (1 - cos ψ))| ≤ μ * (-dy + 2 * dx) := by
    intro ψ a b
    obtain ⟨c0, c1⟩ := cl _ (ang ψ a b).1.1 (ang ψ a b).1.2
    have e' : E ψ - ((ψ - sin ψ) * -dy - dx * (1 - cos ψ)) = (1 - xcot (ψ / (2 * n))) * (sin ψ * -dy + dx * (1 - cos ψ)) := by
      simp only [hE]; ring
    rw [e', abs_mul, abs_of_nonneg (by linarith)]
    refine mul_le_mul (by linarith) ?_ (abs_nonneg _) μ0.le
    rw [abs_le]
    constructor <;> nlinarith [sin_le_one ψ, neg_one_le_sin ψ, cos_le_one ψ, neg_one_le_cos ψ]
  have Elo : E (φ - e) ≤ 0 := by
    have := abs_le.mp (near (φ - e) e2 (by linarith))
    have := lt_of_lt_of_le m3 (min_le_left _ _)
    linarith
  have Ehi : 0 ≤ E (φ + e) := by
    have := abs_le.mp (near (φ + e) (by linarith) e3)
    have := lt_of_lt_of_le m3 (min_le_right _ _)
    linarith
  have Ec : ContinuousOn E (Icc (φ - e) (φ + e)) := by
    intro ψ hψ
    have a : 0 < ψ := lt_of_lt_of_le e2 hψ.1
    have b : ψ < 2 * π := lt_of_le_of_lt hψ.2 e3
    have hx : ContinuousAt (fun ψ : ℝ => xcot (ψ / (2 * n))) ψ :=
      ContinuousAt.comp (f := fun ψ : ℝ => ψ / (2 * n)) (xcot_cont (ang ψ a b).1.1 (by linarith [(ang ψ a b).1.2])) (continuousAt_id.div_const _)
    refine ContinuousAt.continuousWithinAt ?_
    exact ((continuousAt_id.sub (hx.mul continuous_sin.continuousAt)).mul continuousAt_const).sub
      (continuousAt_const.mul (hx.mul (continuousAt_const.sub continuous_cos.continuousAt)))
  obtain ⟨ψ, hψ, hz⟩ := intermediate_value_Icc (by linarith) Ec ⟨Elo, Ehi⟩
  have a : 0 < ψ := lt_of_lt_of_le e2 hψ.1
  have b : ψ < 2 * π := lt_of_le_of_lt hψ.2 e3
  obtain ⟨c0, c1⟩ := cl _ (ang ψ a b).1.1 (ang ψ a b).1.2
  obtain ⟨d0, d1⟩ := cl _ (ang ψ a b).2.1 (ang ψ a b).2.2
  refine ⟨ψ, a, b, ?_, ?_, by linarith, by linarith, by simp only [hE] at hz; linarith⟩
  · rw [abs_lt]
    constructor <;> linarith [hψ.1, hψ.2]
  · have l : (1 - μ) * (1 - μ) ≤ xcot (ψ / (2 * n)) * xcot (ψ / (4 * n)) := mul_le_mul c0 d0 (by linarith) (by linarith)
    have u : xcot (ψ / (2 * n)) * xcot (ψ / (4 * n)) ≤ 1 * 1 := mul_le_mul c1 d1 (by linarith) (by norm_num)
    have sq : (1 - μ) * (1 - μ) = 1 - 2 * μ + μ * μ := by ring
    have μμ : 0 < μ * μ := mul_pos μ0 μ0
    rw [abs_lt]
    constructor
    · linarith
    · linarith

/-- For every tolerance, on enough intervals, there is a discretised slide whose duration is within the tolerance of the cycloid's. -/
theorem grid_near (hg : 0 < g) (hdx : 0 < dx) (hdy : dy < 0) {φ : ℝ} (h0 : 0 < φ) (h1 : φ < 2 * π) (hr : dx = -dy * ratio φ)
    {Tc : ℝ} (hTc : Tc = φ * √(-dy / (1 - cos φ) / g)) (b0 : 0.01 < Tc) (b1 : Tc < 10) {ε : ℝ} (hε : 0 < ε) :
    ∃ n0 : Nat, 2 ≤ n0 ∧ ∀ n, n0 ≤ n → ∃ v T, Slide g dx dy .trapezoidal n (pointsOf n none) v T ∧ |T - Tc| < ε := by
  have hq := one_sub_cos_pos h0 h1
  set F : ℝ × ℝ → ℝ := fun z => z.1 * √(-dy / (g * z.2 * (1 - cos z.1))) with hF
  have F1 : F (φ, 1) = Tc := by
    simp only [hF]
    rw [hTc]
    congr 2
    field_simp
  have Fc : ContinuousAt F (φ, 1) := by
    have : g * (1 : ℝ) * (1 - cos φ) ≠ 0 := by positivity
    refine continuousAt_fst.mul (continuous_sqrt.continuousAt.comp (ContinuousAt.div continuousAt_const ?_ this))
    exact (continuousAt_const.mul continuousAt_snd).mul (continuousAt_const.sub (continuous_cos.continuousAt.comp continuousAt_fst))
  set ε' := min ε (min (Tc - 0.01) (10 - Tc)) with hε'
  have ε0 : 0 < ε' := lt_min hε (lt_min (by linarith) (by linarith))
  obtain ⟨η, η0, hη⟩ := Metric.continuousAt_iff.mp Fc ε' ε0
  obtain ⟨n0, hn0, hn⟩ := grid_angle hdx hdy h0 h1 hr η0
  refine ⟨n0, hn0, fun n hle => ?_⟩
  obtain ⟨ψ, a, b, d1, d2, c0, c1, he⟩ := hn n hle
  have hT : |F (ψ, xcot (ψ / (2 * n)) * xcot (ψ / (4 * n))) - Tc| < ε' := by
    rw [← F1, ← Real.dist_eq]
    refine hη ?_
    rw [Prod.dist_eq, Real.dist_eq, Real.dist_eq]
    exact max_lt d1 d2
  have hb := abs_lt.mp hT
  have l1 : ε' ≤ ε := min_le_left _ _
  have l2 : ε' ≤ Tc - 0.01 := (min_le_right _ _).trans (min_le_left _ _)
  have l3 : ε' ≤ 10 - Tc := (min_le_right _ _).trans (min_le_right _ _)
  obtain ⟨g1, g2⟩ := grid_time hg hdy a b c0 c1 he
  exact ⟨_, _, grid_slide (by omega) a b ⟨by linarith, by linarith⟩ g1 g2, lt_of_lt_of_le hT l1⟩

end

/-! ## The problem -/

section
variable {g : ℝ} {c : Bool} {D : List ℝ → ℝ → Nat → Nat → ℝ} {D2 : List ℝ → List ℝ → ℝ → Nat → Nat → ℝ} {backend : String}
  {N : Nat} {dx dy : ℝ} {newton : (ℝ → ℝ) → ℝ → Py ℝ}

theorem lower_gap (hg : 0 < g) (hdy : dy < 0) {ε : ℝ} (hε : 0 < ε) : ∃ n0 : Nat, ∀ n : Nat, n0 ≤ n → 1 ≤ n →
    10 * (√(2 * g * 10 / (n * √(2 * g * -dy))) + 3 / (2 * n)) < ε := by
  have h1 : Filter.Tendsto (fun n : Nat => 10 * (√(2 * g * 10 / (n * √(2 * g * -dy))) + 3 / (2 * (n : ℝ)))) Filter.atTop (nhds (10 * (√0 + 0))) := by
    have w0 : 0 < √(2 * g * -dy) := sqrt_pos.mpr (by nlinarith)
    have a : Filter.Tendsto (fun n : Nat => 2 * g * 10 / ((n : ℝ) * √(2 * g * -dy))) Filter.atTop (nhds 0) :=
      Filter.Tendsto.div_atTop tendsto_const_nhds (tendsto_natCast_atTop_atTop.atTop_mul_const w0)
    have b : Filter.Tendsto (fun n : Nat => 3 / (2 * (n : ℝ))) Filter.atTop (nhds 0) :=
      Filter.Tendsto.div_atTop tendsto_const_nhds (tendsto_natCast_atTop_atTop.const_mul_atTop two_pos)
    exact ((continuous_sqrt.tendsto 0 |>.comp a).add b).const_mul 10
  rw [sqrt_zero, add_zero, mul_zero] at h1
  obtain ⟨n0, h⟩ := Filter.eventually_atTop.mp (h1.eventually (gt_mem_nhds hε))
  exact ⟨n0, fun n hn _ => h n hn⟩

/-- **C93** (convergence). The example in the time domain answers with the time of the cycloid: for every tolerance, on enough intervals
the problem is built, no feasible point has an objective below the cycloid's time less the tolerance, and some feasible point has one within
the tolerance. The bounds of the problem must contain the time. -/
theorem C93_converges (hD : (timeModel g).DenseJac D) (hD2 : (timeModel g).DenseHess D2) (hg : 0 < g) (hdx : 0 < dx) (hdy : dy < 0)
    (hb : backend = "jax" ∨ backend = "custom" ∧ c = true) {xs ys : List ℝ} {Tc : ℝ} (hc : cycloid newton dx dy N g = .ok (xs, ys, Tc))
    (hN : ∀ φ, newton (equation dx dy) (π / 2) = .ok φ → equation dx dy φ = 0 ∧ 0 < φ ∧ φ < 2 * π) (b0 : 0.01 < Tc) (b1 : Tc < 10)
    {ε : ℝ} (hε : 0 < ε) : ∃ n0 : Nat, ∀ n, n0 ≤ n → ∃ S b, brachSetup g c D D2 backend "Trapezoidal" [] n none dx dy = .ok S ∧
      S.build = .ok b ∧
      (∀ x : List ℝ, x.length = S.c.o.L.numDec → b.Feasible (vdiv x b.prob.scales) → Within b.bounds.lb b.bounds.ub x →
        ∃ T, b.prob.objective (vdiv x b.prob.scales) = .ok T ∧ Tc - ε < T) ∧
      ∃ (x : List ℝ) (T : ℝ), x.length = S.c.o.L.numDec ∧ b.Feasible (vdiv x b.prob.scales) ∧ Within b.bounds.lb b.bounds.ub x ∧
        b.prob.objective (vdiv x b.prob.scales) = .ok T ∧ |T - Tc| < ε := by
  obtain ⟨-, φ, hφ, hT, -, -⟩ := cycloid_inv hc
  obtain ⟨hr, h0, h1⟩ := hN φ hφ
  obtain ⟨n0, hn0, hn⟩ := grid_near hg hdx hdy h0 h1 (root_facts hdx hdy h0 hr).2.2 hT b0 b1 hε
  obtain ⟨n1, hn1⟩ := lower_gap hg hdy hε
  refine ⟨max n0 n1, fun n hle => ?_⟩
  have l0 := (le_max_left n0 n1).trans hle
  have l1 := (le_max_right n0 n1).trans hle
  obtain ⟨v, T, sl, hTT⟩ := hn n l0
  obtain ⟨S, b, x, s1, s2, s3, s4, s5, s6, -⟩ := brach_point (c := c) hD hD2 (by omega) hb sl
  refine ⟨S, b, s1, s2, ?_, x, T, s3, s4, s5, s6, hTT⟩
  intro x hx hf hw
  obtain ⟨T', ho, hl⟩ := C93_lower hD hD2 (show 1 ≤ n by omega) hg hdx hdy s1 s2 hx hf hw hc hN
  refine ⟨T', ho, ?_⟩
  obtain ⟨-, ho', sl'⟩ := brach_slide hD hD2 (by omega) s1 s2 hx hf hw
  rw [ho, Except.ok.injEq] at ho'
  have d := sl'.duration
  rw [← ho'] at d
  have := hn1 n l1 (by omega)
  have n0' : (0 : ℝ) < n := by exact_mod_cast (show 0 < n by omega)
  have w0 : 0 < √(2 * g * -dy) := sqrt_pos.mpr (by nlinarith)
  have hm : √(2 * g * T' / (n * √(2 * g * -dy))) ≤ √(2 * g * 10 / (n * √(2 * g * -dy))) := by
    refine sqrt_le_sqrt (div_le_div_of_nonneg_right ?_ (by positivity))
    nlinarith [d.2]
  have hp : 0 ≤ √(2 * g * T' / (n * √(2 * g * -dy))) + 3 / (2 * (n : ℝ)) := by positivity
  have : T' * (√(2 * g * T' / (n * √(2 * g * -dy))) + 3 / (2 * (n : ℝ))) ≤ 10 * (√(2 * g * 10 / (n * √(2 * g * -dy))) + 3 / (2 * n)) :=
    mul_le_mul d.2 (by linarith) hp (by norm_num)
  nlinarith

end

end Lumos.Cycloid
