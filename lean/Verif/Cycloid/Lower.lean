import Verif.Cycloid.Curve
import Verif.Sim.BrachMore
/-!
# C93: the solved problem cannot undercut the cycloid by much
-/

namespace Lumos.Cycloid

open Lumos DecVar DecVar.Layout Bounds Ocp Lumos.Trans NLP Sim Real Set

/-! ## The trapezoidal rule -/

/-- Speeds and distances that follow the trapezoidal rule with the step `h`. -/
structure Grid (g h : ℝ) (n : Nat) (V X Θ : Nat → ℝ) : Prop where
  speed : ∀ i, i < n → V (i + 1) - V i = h * (0.5 * (-g * sin (Θ i) + -g * sin (Θ (i + 1))))
  dist : ∀ i, i < n → X (i + 1) - X i = h * (0.5 * (cos (Θ i) * V i + cos (Θ (i + 1)) * V (i + 1)))

section
variable {g h : ℝ} {n : Nat} {V X Θ : Nat → ℝ}

theorem Grid.lip (H : Grid g h n V X Θ) (hg : 0 < g) (hh : 0 ≤ h) {i : Nat} (hi : i < n) : |V (i + 1) - V i| ≤ g * h := by
  rw [H.speed i hi, abs_mul, abs_of_nonneg hh]
  have : |0.5 * (-g * sin (Θ i) + -g * sin (Θ (i + 1)))| ≤ g := by
    rw [abs_le]
    constructor <;> nlinarith [sin_le_one (Θ i), sin_le_one (Θ (i + 1)), neg_one_le_sin (Θ i), neg_one_le_sin (Θ (i + 1))]
  nlinarith

theorem mean {a : ℝ} (ha : 0 < a) (u w : ℝ) : ∃ ξ ∈ uIcc u w, speedTime g a w - speedTime g a u = √(1 - (a * ξ) ^ 2) / g * (w - u) := by
  have hc : Continuous (speedTime g a) := continuous_iff_continuousAt.mpr fun u => (speedTime_deriv ha.ne' u).continuousAt
  rcases lt_trichotomy u w with h | h | h
  · obtain ⟨ξ, h1, h2⟩ := exists_hasDerivAt_eq_slope (speedTime g a) _ h hc.continuousOn (fun x _ => speedTime_deriv ha.ne' x)
    refine ⟨ξ, by rw [uIcc_of_le h.le]; exact ⟨h1.1.le, h1.2.le⟩, ?_⟩
    rw [h2, div_mul_cancel₀ _ (by linarith)]
  · subst h; exact ⟨u, by simp, by simp⟩
  · obtain ⟨ξ, h1, h2⟩ := exists_hasDerivAt_eq_slope (speedTime g a) _ h hc.continuousOn (fun x _ => speedTime_deriv ha.ne' x)
    refine ⟨ξ, by rw [uIcc_of_ge h.le]; exact ⟨h1.1.le, h1.2.le⟩, ?_⟩
    rw [h2]
    have : u - w ≠ 0 := by linarith
    field_simp
    ring

theorem sqrt_sub_le {A B C : ℝ} (hA : 0 ≤ A) (hB : 0 ≤ B) (h : |A - B| ≤ C) : |√A - √B| ≤ √C := by
  have hC : 0 ≤ C := (abs_nonneg _).trans h
  refine abs_le_of_sq_le_sq ?_ (sqrt_nonneg _)
  rw [sq_sqrt hC]
  have h1 := sq_sqrt hA
  have h2 := sq_sqrt hB
  have h3 := sqrt_nonneg A
  have h4 := sqrt_nonneg B
  rw [abs_le] at h
  rcases le_total (√A) (√B) with hl | hl <;> nlinarith

theorem dir_le {σ u s c : ℝ} (hσ : σ ^ 2 = 1) (hu : u ^ 2 ≤ 1) (hsc : s ^ 2 + c ^ 2 = 1) : u * c - σ * √(1 - u ^ 2) * s ≤ 1 := by
  have hs : √(1 - u ^ 2) ^ 2 = 1 - u ^ 2 := sq_sqrt (by linarith)
  nlinarith [sq_nonneg (u - c), sq_nonneg (σ * √(1 - u ^ 2) + s)]

/-- One step. -/
theorem Grid.step (H : Grid g h n V X Θ) (hg : 0 < g) (hh : 0 ≤ h) {a σ : ℝ} (ha : 0 < a) (hσ : σ ^ 2 = 1)
    (hv : ∀ i, i ≤ n → a * |V i| ≤ 1) {i : Nat} (hi : i < n) :
    a * (X (i + 1) - X i) + σ * (speedTime g a (V (i + 1)) - speedTime g a (V i)) ≤ h * (1 + √(2 * g * a * h)) := by
  obtain ⟨ξ, hξ, hm⟩ := mean (g := g) ha (V i) (V (i + 1))
  have hl := H.lip hg hh hi
  have v0 := hv i hi.le
  have v1 := hv (i + 1) hi
  have bnd : ∀ u, a * |u| ≤ 1 → (a * u) ^ 2 ≤ 1 := by
    intro u hu
    rw [sq_le_one_iff_abs_le_one, abs_mul, abs_of_pos ha]; exact hu
  have vξ : a * |ξ| ≤ 1 := by
    have h1 : |ξ| ≤ max |V i| |V (i + 1)| := by
      rw [mem_uIcc] at hξ
      rcases hξ with hξ | hξ
      · exact abs_le_max_abs_abs hξ.1 hξ.2
      · rw [max_comm]; exact abs_le_max_abs_abs hξ.1 hξ.2
    rcases max_cases |V i| |V (i + 1)| with ⟨e, -⟩ | ⟨e, -⟩ <;> rw [e] at h1
    · exact (mul_le_mul_of_nonneg_left h1 ha.le).trans v0
    · exact (mul_le_mul_of_nonneg_left h1 ha.le).trans v1
  have near : ∀ u, a * |u| ≤ 1 → |u - ξ| ≤ g * h → |√(1 - (a * u) ^ 2) - √(1 - (a * ξ) ^ 2)| ≤ √(2 * g * a * h) := by
    intro u hu hd
    refine sqrt_sub_le (by linarith [bnd u hu]) (by linarith [bnd ξ vξ]) ?_
    have e : 1 - (a * u) ^ 2 - (1 - (a * ξ) ^ 2) = (a * ξ + a * u) * (a * (ξ - u)) := by ring
    rw [e, abs_mul, abs_mul a (ξ - u), abs_of_pos ha, abs_sub_comm ξ u]
    have h1 : |a * ξ + a * u| ≤ 2 := by
      refine (abs_add_le _ _).trans ?_
      rw [abs_mul, abs_mul, abs_of_pos ha]
      linarith
    calc |a * ξ + a * u| * (a * |u - ξ|) ≤ 2 * (a * (g * h)) :=
          mul_le_mul h1 (mul_le_mul_of_nonneg_left hd ha.le) (by positivity) (by norm_num)
      _ = 2 * g * a * h := by ring
  have d0 : |V i - ξ| ≤ g * h := by
    refine le_trans ?_ hl
    rw [abs_sub_comm, abs_sub_comm (V (i + 1))]
    rw [abs_sub_comm (V i)]
    exact abs_sub_left_of_mem_uIcc hξ
  have d1 : |V (i + 1) - ξ| ≤ g * h := by
    refine le_trans ?_ hl
    exact abs_sub_right_of_mem_uIcc hξ
  have n0 := near _ v0 d0
  have n1 := near _ v1 d1
  have c0 := dir_le hσ (bnd _ v0) (sin_sq_add_cos_sq (Θ i))
  have c1 := dir_le hσ (bnd _ v1) (sin_sq_add_cos_sq (Θ (i + 1)))
  have hδ := sqrt_nonneg (2 * g * a * h)
  have small : ∀ r s, |r| ≤ √(2 * g * a * h) → |s| ≤ 1 → σ * (r * s) ≤ √(2 * g * a * h) := by
    intro r s hr hs
    have hσ' : |σ| = 1 := by
      have h1 : (|σ| - 1) * (|σ| + 1) = 0 := by have := sq_abs σ; linear_combination this + hσ
      rcases mul_eq_zero.mp h1 with h | h <;> linarith [abs_nonneg σ]
    refine (le_abs_self _).trans ?_
    rw [abs_mul, abs_mul, hσ', one_mul]
    calc |r| * |s| ≤ √(2 * g * a * h) * 1 := mul_le_mul hr hs (abs_nonneg _) hδ
      _ = _ := mul_one _
  have e0 := small _ (sin (Θ i)) n0 (abs_sin_le_one _)
  have e1 := small _ (sin (Θ (i + 1))) n1 (abs_sin_le_one _)
  rw [hm, H.dist i hi, H.speed i hi]
  have e : a * (h * (0.5 * (cos (Θ i) * V i + cos (Θ (i + 1)) * V (i + 1)))) +
      σ * (√(1 - (a * ξ) ^ 2) / g * (h * (0.5 * (-g * sin (Θ i) + -g * sin (Θ (i + 1)))))) =
      h * (0.5 * ((a * V i * cos (Θ i) - σ * √(1 - (a * V i) ^ 2) * sin (Θ i)) +
        σ * ((√(1 - (a * V i) ^ 2) - √(1 - (a * ξ) ^ 2)) * sin (Θ i)) +
        ((a * V (i + 1) * cos (Θ (i + 1)) - σ * √(1 - (a * V (i + 1)) ^ 2) * sin (Θ (i + 1))) +
        σ * ((√(1 - (a * V (i + 1)) ^ 2) - √(1 - (a * ξ) ^ 2)) * sin (Θ (i + 1)))))) := by
    field_simp
    ring
  rw [e]
  refine mul_le_mul_of_nonneg_left ?_ hh
  linarith

/-- Many steps. -/
theorem Grid.gauge (H : Grid g h n V X Θ) (hg : 0 < g) (hh : 0 ≤ h) {a σ : ℝ} (ha : 0 < a) (hσ : σ ^ 2 = 1)
    (hv : ∀ i, i ≤ n → a * |V i| ≤ 1) (p : Nat) : ∀ q, p ≤ q → q ≤ n →
    a * (X q - X p) + (σ * speedTime g a (V q) - σ * speedTime g a (V p)) ≤ (q - p : ℝ) * (h * (1 + √(2 * g * a * h))) := by
  intro q hq
  induction q, hq using Nat.le_induction with
  | base => intro _; simp
  | succ q hq ih =>
    intro hn
    have := H.step hg hh ha hσ hv (show q < n by omega)
    have ih := ih (by omega)
    push_cast
    linarith

end

section
variable {g dx dy : ℝ} {n : Nat} {v : String → String → Nat → ℝ} {T : ℝ}

theorem even_len (n : Nat) (T : ℝ) {i : Nat} (hi : i < n) :
    ((pointsOf n none).getD (i + 1) 0 - (pointsOf n none).getD i 0) * T = T / n := by
  have : (pointsOf n none) = linspace01 n := rfl
  have hn0 : (n : ℝ) ≠ 0 := by
    have : n ≠ 0 := by omega
    exact_mod_cast this
  rw [this, getD_linspace01 n (i + 1) hi, getD_linspace01 n i hi.le]
  push_cast
  field_simp
  ring

theorem slide_grid (h : Slide g dx dy .trapezoidal n (pointsOf n none) v T) :
    Grid g (T / n) n (v "states" "v") (v "states" "x") (v "inputs" "theta") := by
  constructor
  · intro i hi
    have := slide_step h hi (m := "v") (by simp)
    rwa [(slide_at h hi.le).1, (slide_at h hi).1, even_len n T hi] at this
  · intro i hi
    have := slide_step h hi (m := "x") (by simp)
    rwa [(slide_at h hi.le).2.1, (slide_at h hi).2.1, even_len n T hi] at this

/-- A discretised slide in `n` steps takes at least the time of the cycloid, up to the error of the rule. -/
theorem slide_least (h : Slide g dx dy .trapezoidal n (pointsOf n none) v T) (hn : 1 ≤ n) (hg : 0 < g) (hdy : dy < 0)
    {φ : ℝ} (h0 : 0 < φ) (h1 : φ < 2 * π) (hr : dx = -dy * ratio φ) :
    √(2 * g * -dy) / (2 * g) * (φ / sin (φ / 2)) ≤ T * (1 + √(2 * g * T / (n * √(2 * g * -dy))) + 3 / (2 * n)) := by
  have H := slide_grid h
  have hT : 0 ≤ T := by linarith [h.duration.1]
  have hn0 : (0 : ℝ) < n := by exact_mod_cast hn
  have hh : 0 ≤ T / n := by positivity
  set w := √(2 * g * -dy) with hw
  have hpos : 0 < 2 * g * -dy := by nlinarith
  have w0 : 0 < w := sqrt_pos.mpr hpos
  have w2 : w ^ 2 = 2 * g * -dy := sq_sqrt hpos.le
  set V := v "states" "v" with hV
  set X := v "states" "x" with hX
  have start : V 0 = 0 ∧ X 0 = 0 := ⟨h.start "v" (by simp), h.start "x" (by simp)⟩
  have finish : X n = dx := (slide_last h).1
  -- the final speed
  have hend : abs (w - |V n|) ≤ g * (T / n) / 2 := by
    have e := slide_energy h hn n (le_refl _)
    rw [(slide_last h).2] at e
    have s0 := sin_sq_le_one (v "inputs" "theta" 0)
    have s1 := sin_sq_le_one (v "inputs" "theta" n)
    have p0 := sq_nonneg (sin (v "inputs" "theta" 0))
    have p1 := sq_nonneg (sin (v "inputs" "theta" n))
    have hE : |2 * g * -dy - V n ^ 2| ≤ (g * (T / n) / 2) ^ 2 := by
      have e' : 2 * g * -dy - V n ^ 2 = (g * (T / n) / 2) ^ 2 * (sin (v "inputs" "theta" n) ^ 2 - sin (v "inputs" "theta" 0) ^ 2) := by
        linear_combination (-2) * e
      rw [e', abs_mul, abs_of_nonneg (sq_nonneg (g * (T / n) / 2))]
      have : |sin (v "inputs" "theta" n) ^ 2 - sin (v "inputs" "theta" 0) ^ 2| ≤ 1 := by
        rw [abs_le]; constructor <;> linarith
      nlinarith [sq_nonneg (g * (T / n) / 2)]
    have := sqrt_sub_le hpos.le (sq_nonneg (V n)) hE
    rwa [sqrt_sq_eq_abs, sqrt_sq (by positivity), ← hw] at this
  -- the top speed
  obtain ⟨k, hk, hmax⟩ := Finset.exists_max_image (Finset.range (n + 1)) (fun i => |V i|) ⟨0, by simp⟩
  have hk : k ≤ n := by have := Finset.mem_range.mp hk; omega
  have top : ∀ i, i ≤ n → |V i| ≤ |V k| := fun i hi => hmax i (Finset.mem_range.mpr (by omega))
  set B := max |V k| w with hB
  have wB : w ≤ B := le_max_right _ _
  have kB : |V k| ≤ B := le_max_left _ _
  have gap : B - |V k| ≤ g * (T / n) / 2 := by
    have t := top n (le_refl _)
    have e := le_abs_self (w - |V n|)
    rcases max_cases |V k| w with ⟨e', -⟩ | ⟨e', -⟩ <;> rw [hB, e']
    · rw [sub_self]; positivity
    · linarith
  have B0 : 0 < B := by linarith
  have small : ∀ a, 0 < a → a * B ≤ 1 → ∀ i, i ≤ n → a * |V i| ≤ 1 :=
    fun a ha hak i hi => (mul_le_mul_of_nonneg_left ((top i hi).trans kB) ha.le).trans hak
  have rate : ∀ a, 0 < a → a * B ≤ 1 → √(2 * g * a * (T / n)) ≤ √(2 * g * T / (n * w)) := by
    intro a ha hak
    refine sqrt_le_sqrt ?_
    have : a * w ≤ 1 := (mul_le_mul_of_nonneg_left wB ha.le).trans hak
    rw [le_div_iff₀ (by positivity)]
    have e : 2 * g * a * (T / n) * (n * w) = 2 * g * T * (a * w) := by field_simp
    rw [e]
    nlinarith [mul_nonneg (mul_nonneg (show (0:ℝ) ≤ 2 by norm_num) hg.le) hT]
  have sign : ∀ u : ℝ, (if u < 0 then (-1 : ℝ) else 1) ^ 2 = 1 := by intro u; split <;> norm_num
  have total : ∀ a, 0 < a → a * B ≤ 1 → T * (1 + √(2 * g * a * (T / n))) ≤ T * (1 + √(2 * g * T / (n * w))) :=
    fun a ha hak => mul_le_mul_of_nonneg_left (by linarith [rate a ha hak]) hT
  have full : ∀ r : ℝ, (n : ℝ) * (T / n * r) = T * r := by intro r; field_simp
  have half : T * (3 / (2 * n)) = 3 * (T / n) / 2 := by field_simp
  have cut : g * (T / n) / 2 / g = T / n / 2 := by field_simp
  have goal : T * (1 + √(2 * g * T / (n * w)) + 3 / (2 * n)) = T * (1 + √(2 * g * T / (n * w))) + 3 * (T / n) / 2 := by
    rw [← half]; ring
  have nearW : ∀ a, 0 < a → abs (speedTime g a w - speedTime g a |V n|) ≤ T / n / 2 := by
    intro a ha
    refine (speedTime_lip hg ha w |V n|).trans ?_
    rw [← cut]
    exact div_le_div_of_nonneg_right hend hg.le
  rw [goal]
  refine least_of (X := dx) hg w0 h0 h1 (by rw [w2, hr]; field_simp) wB ?_ ?_
  · intro a ha hak
    have u := H.gauge hg hh ha (sign (V n)) (small a ha hak) 0 n (Nat.zero_le _) (le_refl _)
    rw [← speedTime_abs, start.1, speedTime_zero, finish, start.2, Nat.cast_zero, sub_zero, sub_zero, full] at u
    have := abs_le.mp (nearW a ha)
    linarith [total a ha hak]
  · have ha : 0 < 1 / B := by positivity
    have hak : 1 / B * B ≤ 1 := by rw [one_div, inv_mul_cancel₀ B0.ne']
    have u1 := H.gauge hg hh ha (sign (V k)) (small _ ha hak) 0 k (Nat.zero_le _) hk
    have u2 := H.gauge hg hh ha (σ := -(if V k < 0 then -1 else 1)) (by rw [neg_sq]; exact sign _) (small _ ha hak) k n hk (le_refl _)
    rw [← speedTime_abs, start.1, speedTime_zero, start.2, Nat.cast_zero] at u1
    rw [neg_mul, neg_mul, ← speedTime_abs, finish] at u2
    have u3 : (if V k < 0 then -1 else 1) * speedTime g (1 / B) (V n) ≤ speedTime g (1 / B) |V n| := by
      have hm := speedTime_mono hg ha
      split
      · have := hm (neg_le_abs (V n))
        rw [speedTime_neg] at this
        linarith
      · rw [one_mul]; exact hm (le_abs_self _)
    have u4 : speedTime g (1 / B) B - speedTime g (1 / B) |V k| ≤ T / n / 2 := by
      refine (le_abs_self _).trans ((speedTime_lip hg ha B |V k|).trans ?_)
      rw [← cut, abs_of_nonneg (by linarith)]
      exact div_le_div_of_nonneg_right gap hg.le
    have u5 := abs_le.mp (nearW _ ha)
    have u6 := total _ ha hak
    have u7 : (k - 0 : ℝ) * (T / n * (1 + √(2 * g * (1 / B) * (T / n)))) + (n - k : ℝ) * (T / n * (1 + √(2 * g * (1 / B) * (T / n))))
        = T * (1 + √(2 * g * (1 / B) * (T / n))) := by
      rw [← full]; ring
    linarith

end

/-! ## The problem -/

section
variable {g : ℝ} {c : Bool} {D : List ℝ → ℝ → Nat → Nat → ℝ} {D2 : List ℝ → List ℝ → ℝ → Nat → Nat → ℝ} {backend : String}
  {n N : Nat} {dx dy : ℝ} {S : Setup} {newton : (ℝ → ℝ) → ℝ → Py ℝ}

/-- **C93** (the problem against the cycloid). In the time domain with the trapezoidal rule on `n` equal intervals, the objective `T` of
every feasible point is at least the time of the cycloid up to the factor `1 + √(2 g T / (n w)) + 3 / (2 n)`, `w` the speed at the target. -/
theorem C93_lower (hD : (timeModel g).DenseJac D) (hD2 : (timeModel g).DenseHess D2) (hn : 1 ≤ n) (hg : 0 < g) (hdx : 0 < dx) (hdy : dy < 0)
    (h : brachSetup g c D D2 backend "Trapezoidal" [] n none dx dy = .ok S) {b : Built} (hb : S.build = .ok b) {x : List ℝ}
    (hx : x.length = S.c.o.L.numDec) (hf : b.Feasible (vdiv x b.prob.scales)) (hw : Within b.bounds.lb b.bounds.ub x)
    {xs ys : List ℝ} {Tc : ℝ} (hc : cycloid newton dx dy N g = .ok (xs, ys, Tc))
    (hN : ∀ φ, newton (equation dx dy) (π / 2) = .ok φ → equation dx dy φ = 0 ∧ 0 < φ ∧ φ < 2 * π) :
    ∃ T, b.prob.objective (vdiv x b.prob.scales) = .ok T ∧ Tc ≤ T * (1 + √(2 * g * T / (n * √(2 * g * -dy))) + 3 / (2 * n)) := by
  obtain ⟨-, φ, hφ, rfl, -, -⟩ := cycloid_inv hc
  obtain ⟨hr, h0, h1⟩ := hN φ hφ
  obtain ⟨-, ho, sl⟩ := brach_slide hD hD2 hn h hb hx hf hw
  refine ⟨_, ho, ?_⟩
  rw [duration_eq hg hdy h0 h1]
  exact slide_least sl hn hg hdy h0 h1 (root_facts hdx hdy h0 hr).2.2

end

end Lumos.Cycloid
