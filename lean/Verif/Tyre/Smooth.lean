import Verif.Tyre.Default
import Mathlib.Analysis.SpecialFunctions.Trigonometric.ArctanDeriv
import Mathlib.Analysis.Calculus.ContDiff.Operations
import Mathlib.Analysis.Calculus.Deriv.Abs
import Mathlib.Analysis.SpecialFunctions.Trigonometric.Deriv
/-!
# C83: the forces of the MF5.2 tyre are twice continuously differentiable in the slips
-/

namespace Lumos.Tyre

open Lumos Io Veh

/-! ## Multiplying with the sign -/

/-- A function that vanishes to first order at zero can be multiplied with the sign without losing its derivative. -/
theorem hasDerivAt_sign_mul {h h' : ℝ → ℝ} (hd : ∀ x, HasDerivAt h (h' x) x) (h0 : h 0 = 0) (h1 : h' 0 = 0) (x : ℝ) :
    HasDerivAt (fun x => Real.sign x * h x) (Real.sign x * h' x) x := by
  rcases lt_trichotomy x 0 with hx | rfl | hx
  · rw [Real.sign_of_neg hx]
    refine ((hd x).const_mul (-1)).congr_of_eventuallyEq ?_
    filter_upwards [gt_mem_nhds hx] with y hy
    rw [Real.sign_of_neg hy]
  · rw [Real.sign_zero, zero_mul]
    have := hd 0
    rw [h1, hasDerivAt_iff_isLittleO] at this
    rw [hasDerivAt_iff_isLittleO]
    simp only [h0, sub_zero, smul_zero, Real.sign_zero, zero_mul] at this ⊢
    refine Asymptotics.IsBigO.trans_isLittleO ?_ this
    refine Asymptotics.IsBigO.of_bound 1 (Filter.Eventually.of_forall fun y => ?_)
    rw [norm_mul, one_mul]
    refine mul_le_of_le_one_left (norm_nonneg _) ?_
    rcases lt_trichotomy y 0 with hy | rfl | hy
    · rw [Real.sign_of_neg hy]; simp
    · simp
    · rw [Real.sign_of_pos hy]; simp
  · rw [Real.sign_of_pos hx]
    refine ((hd x).const_mul 1).congr_of_eventuallyEq ?_
    filter_upwards [lt_mem_nhds hx] with y hy
    rw [Real.sign_of_pos hy]

theorem continuous_sign_mul {h : ℝ → ℝ} (hc : Continuous h) (h0 : h 0 = 0) : Continuous fun x => Real.sign x * h x := by
  rw [continuous_iff_continuousAt]
  intro x
  rcases lt_trichotomy x 0 with hx | rfl | hx
  · refine ((continuous_const.mul hc).continuousAt (f := fun x => (-1) * h x)).congr ?_
    filter_upwards [gt_mem_nhds hx] with y hy
    rw [Real.sign_of_neg hy]
  · unfold ContinuousAt
    simp only [Real.sign_zero, zero_mul]
    refine squeeze_zero_norm (a := fun y => ‖h y‖) (fun y => ?_) ?_
    · rw [norm_mul]
      refine mul_le_of_le_one_left (norm_nonneg _) ?_
      rcases lt_trichotomy y 0 with hy | rfl | hy
      · rw [Real.sign_of_neg hy]; simp
      · simp
      · rw [Real.sign_of_pos hy]; simp
    · have := hc.norm.tendsto 0
      rwa [h0, norm_zero] at this
  · refine ((continuous_const.mul hc).continuousAt (f := fun x => 1 * h x)).congr ?_
    filter_upwards [lt_mem_nhds hx] with y hy
    rw [Real.sign_of_pos hy]

/-- The part of the argument of the magic formula that the curvature factor multiplies. -/
noncomputable def bump (B x : ℝ) : ℝ := B * x - Real.arctan (B * x)

theorem bump_deriv (B x : ℝ) : HasDerivAt (bump B) (B * ((B * x) ^ 2 / (1 + (B * x) ^ 2))) x := by
  have h1 : HasDerivAt (fun x => B * x) B x := by simpa using (hasDerivAt_id x).const_mul B
  have h2 := h1.sub (h1.arctan)
  refine h2.congr_deriv ?_
  have : 1 + (B * x) ^ 2 ≠ 0 := by positivity
  field_simp
  ring

theorem bump_deriv2 (B x : ℝ) : HasDerivAt (fun x => B * ((B * x) ^ 2 / (1 + (B * x) ^ 2))) (2 * B ^ 3 * x / (1 + (B * x) ^ 2) ^ 2) x := by
  have h1 : HasDerivAt (fun x => B * x) B x := by simpa using (hasDerivAt_id x).const_mul B
  have h2 : HasDerivAt (fun x => (B * x) ^ 2) (2 * (B * x) * B) x := by simpa using h1.fun_pow 2
  have h3 := ((h2.div (h2.const_add 1) (by positivity)).const_mul B)
  refine h3.congr_deriv ?_
  have : 1 + (B * x) ^ 2 ≠ 0 := by positivity
  field_simp
  ring

theorem contDiff_sign_bump (B : ℝ) : ContDiff ℝ 2 fun x => Real.sign x * bump B x := by
  have d1 : ∀ x, HasDerivAt (fun x => Real.sign x * bump B x) (Real.sign x * (B * ((B * x) ^ 2 / (1 + (B * x) ^ 2)))) x :=
    hasDerivAt_sign_mul (bump_deriv B) (by simp [bump]) (by simp)
  have d2 : ∀ x, HasDerivAt (fun x => Real.sign x * (B * ((B * x) ^ 2 / (1 + (B * x) ^ 2))))
      (Real.sign x * (2 * B ^ 3 * x / (1 + (B * x) ^ 2) ^ 2)) x := hasDerivAt_sign_mul (bump_deriv2 B) (by simp) (by simp)
  rw [show (2 : WithTop ℕ∞) = 1 + 1 by norm_num, contDiff_succ_iff_deriv]
  refine ⟨fun x => (d1 x).differentiableAt, by simp, ?_⟩
  rw [show deriv (fun x => Real.sign x * bump B x) = fun x => Real.sign x * (B * ((B * x) ^ 2 / (1 + (B * x) ^ 2))) from
    funext fun x => (d1 x).deriv, contDiff_one_iff_deriv]
  refine ⟨fun x => (d2 x).differentiableAt, ?_⟩
  rw [show deriv (fun x => Real.sign x * (B * ((B * x) ^ 2 / (1 + (B * x) ^ 2)))) = _ from funext fun x => (d2 x).deriv]
  refine continuous_sign_mul ?_ (by simp)
  refine Continuous.div (by fun_prop) (by fun_prop) fun x => by positivity

theorem contDiff_bump (B : ℝ) : ContDiff ℝ 2 (bump B) := by
  unfold bump
  exact (contDiff_const.mul contDiff_id).sub (contDiff_const.mul contDiff_id).arctan

/-- A factor that depends on the sign only. -/
theorem contDiff_switch (B a b c : ℝ) : ContDiff ℝ 2 fun x => min (a * (1 - b * Real.sign x) * c) 1 * bump B x := by
  set ep := min (a * (1 - b) * c) 1 with hp
  set em := min (a * (1 + b) * c) 1 with hm
  have e : (fun x => min (a * (1 - b * Real.sign x) * c) 1 * bump B x) =
      fun x => (ep + em) / 2 * bump B x + (ep - em) / 2 * (Real.sign x * bump B x) := by
    funext x
    rcases lt_trichotomy x 0 with hx | rfl | hx
    · rw [Real.sign_of_neg hx, show a * (1 - b * -1) * c = a * (1 + b) * c by ring, ← hm]
      ring
    · simp [bump]
    · rw [Real.sign_of_pos hx, mul_one, ← hp]
      ring
  rw [e]
  exact (contDiff_const.mul (contDiff_bump B)).add (contDiff_const.mul (contDiff_sign_bump B))

theorem contDiff_pureX (p : Pars) (Fz g : ℝ) : ContDiff ℝ 2 (pureX p Fz g) := by
  have h := contDiff_switch (Bx p Fz g) (p "PEX1" + p "PEX2" * dfz p Fz + p "PEX3" * dfz p Fz ^ 2) (p "PEX4") (p "LEX")
  have h1 : ContDiff ℝ 2 fun x => Bx p Fz g * x - Ex p Fz x * bump (Bx p Fz g) x := (contDiff_const.mul contDiff_id).sub h
  have h2 : ContDiff ℝ 2 fun k : ℝ => k + Hx p Fz := contDiff_id.add contDiff_const
  exact (contDiff_const.mul (contDiff_const.mul (h1.comp h2).arctan).sin).add contDiff_const

theorem contDiff_pureY (p : Pars) (Fz g : ℝ) : ContDiff ℝ 2 (pureY p Fz g) := by
  have h := contDiff_switch (By p Fz g) (p "PEY1" + p "PEY2" * dfz p Fz) (p "PEY3" + p "PEY4" * g) (p "LEY")
  have h1 : ContDiff ℝ 2 fun x => By p Fz g * x - Ey p Fz g x * bump (By p Fz g) x := (contDiff_const.mul contDiff_id).sub h
  have h2 : ContDiff ℝ 2 fun k : ℝ => k + Hy p Fz g := contDiff_id.add contDiff_const
  exact (contDiff_const.mul (contDiff_const.mul (h1.comp h2).arctan).sin).add contDiff_const

/-- The weights as functions of the slip ratio and the slip angle. -/
theorem contDiff_cosX (p : Pars) (Fz a b : ℝ) : ContDiff ℝ 2 fun s : ℝ × ℝ => cosX p Fz s.1 (a * s.2 + b) := by
  unfold cosX curve slopeX
  have h1 : ContDiff ℝ 2 fun s : ℝ × ℝ => p "RBX1" * Real.cos (Real.arctan (p "RBX2" * s.1)) * p "LXAL" :=
    (contDiff_const.mul (contDiff_const.mul contDiff_fst).arctan.cos).mul contDiff_const
  have h2 : ContDiff ℝ 2 fun s : ℝ × ℝ => a * s.2 + b := (contDiff_const.mul contDiff_snd).add contDiff_const
  have h3 := h1.mul h2
  exact (contDiff_const.mul (h3.sub (contDiff_const.mul (h3.sub h3.arctan))).arctan).cos

theorem contDiff_cosY (p : Pars) (Fz a b : ℝ) : ContDiff ℝ 2 fun s : ℝ × ℝ => cosY p Fz s.2 (a * s.1 + b) := by
  unfold cosY curve slopeY
  have h1 : ContDiff ℝ 2 fun s : ℝ × ℝ => p "RBY1" * Real.cos (Real.arctan (p "RBY2" * (s.2 - p "RBY3"))) * p "LYKA" :=
    (contDiff_const.mul (contDiff_const.mul (contDiff_snd.sub contDiff_const)).arctan.cos).mul contDiff_const
  have h2 : ContDiff ℝ 2 fun s : ℝ × ℝ => a * s.1 + b := (contDiff_const.mul contDiff_fst).add contDiff_const
  have h3 := h1.mul h2
  exact (contDiff_const.mul (h3.sub (contDiff_const.mul (h3.sub h3.arctan))).arctan).cos

theorem contDiffAt_forceX {p : Pars} {i : In} (h : cosX p i.Fz i.kappa (p "RHX1") ≠ 0) :
    ContDiffAt ℝ 2 (fun s : ℝ × ℝ => forceX p { i with kappa := s.1, alpha := s.2 }) (i.kappa, i.alpha) := by
  show ContDiffAt ℝ 2 (fun s : ℝ × ℝ => cosX p i.Fz s.1 (s.2 + p "RHX1") / cosX p i.Fz s.1 (p "RHX1") * pureX p i.Fz i.gamma s.1) _
  have h1 : ContDiff ℝ 2 fun s : ℝ × ℝ => cosX p i.Fz s.1 (s.2 + p "RHX1") := by simpa using contDiff_cosX p i.Fz 1 (p "RHX1")
  have h2 : ContDiff ℝ 2 fun s : ℝ × ℝ => cosX p i.Fz s.1 (p "RHX1") := by simpa using contDiff_cosX p i.Fz 0 (p "RHX1")
  have h3 : ContDiff ℝ 2 fun s : ℝ × ℝ => pureX p i.Fz i.gamma s.1 := (contDiff_pureX p i.Fz i.gamma).comp contDiff_fst
  have h5 : ContDiffAt ℝ 2 (fun s : ℝ × ℝ => cosX p i.Fz s.1 (s.2 + p "RHX1") / cosX p i.Fz s.1 (p "RHX1")) (i.kappa, i.alpha) :=
    ContDiffAt.div h1.contDiffAt h2.contDiffAt h
  exact ContDiffAt.mul h5 h3.contDiffAt

theorem contDiffAt_forceY {p : Pars} {i : In} (h : cosY p i.Fz i.alpha (shiftY p i.Fz) ≠ 0) :
    ContDiffAt ℝ 2 (fun s : ℝ × ℝ => forceY p { i with kappa := s.1, alpha := s.2 }) (i.kappa, i.alpha) := by
  show ContDiffAt ℝ 2 (fun s : ℝ × ℝ => cosY p i.Fz s.2 (s.1 + shiftY p i.Fz) / cosY p i.Fz s.2 (shiftY p i.Fz) * pureY p i.Fz i.gamma s.2
    + induced p i.Fz i.gamma s.2 s.1) _
  have h1 : ContDiff ℝ 2 fun s : ℝ × ℝ => cosY p i.Fz s.2 (s.1 + shiftY p i.Fz) := by simpa using contDiff_cosY p i.Fz 1 (shiftY p i.Fz)
  have h2 : ContDiff ℝ 2 fun s : ℝ × ℝ => cosY p i.Fz s.2 (shiftY p i.Fz) := by simpa using contDiff_cosY p i.Fz 0 (shiftY p i.Fz)
  have h3 : ContDiff ℝ 2 fun s : ℝ × ℝ => pureY p i.Fz i.gamma s.2 := (contDiff_pureY p i.Fz i.gamma).comp contDiff_snd
  have h4 : ContDiff ℝ 2 fun s : ℝ × ℝ => induced p i.Fz i.gamma s.2 s.1 := by
    unfold induced inducedPeak
    exact ((contDiff_const.mul (contDiff_const.mul contDiff_snd).arctan.cos).mul (contDiff_const.mul (contDiff_const.mul contDiff_fst).arctan).sin).mul
      contDiff_const
  have h5 : ContDiffAt ℝ 2 (fun s : ℝ × ℝ => cosY p i.Fz s.2 (s.1 + shiftY p i.Fz) / cosY p i.Fz s.2 (shiftY p i.Fz)) (i.kappa, i.alpha) :=
    ContDiffAt.div h1.contDiffAt h2.contDiffAt h
  have h6 := ContDiffAt.mul h5 h3.contDiffAt
  exact ContDiffAt.add h6 h4.contDiffAt

/-! ## C83 -/

/-- The inputs with other slips. -/
def In.at (i : In) (s : ℝ × ℝ) : In := { i with kappa := s.1, alpha := s.2 }

/-- **C83** (twice continuously differentiable). Wherever the tyre is defined in a neighbourhood, its forces as functions of the slip ratio and the
slip angle together are twice continuously differentiable, for every set of parameters: the sign functions and the clamps in the code cause no
kinks. -/
theorem C83_smooth {d : Dict ℝ} {opt : Bool} {i : In} {Fx Fy : ℝ × ℝ → ℝ} {U : Set (ℝ × ℝ)} (hU : IsOpen U)
    (h : ∀ s ∈ U, ∃ o, Gives d opt (i.at s) o ∧ Fx s = o.Fx ∧ Fy s = o.Fy) : ContDiffOn ℝ 2 Fx U ∧ ContDiffOn ℝ 2 Fy U := by
  have key : ∀ s ∈ U, Finite (par d) (i.at s) ∧ Fx s = forceX (par d) (i.at s) ∧ Fy s = forceY (par d) (i.at s) := by
    intro s hs
    obtain ⟨o, h1, h2, h3⟩ := h s hs
    obtain ⟨hf, rfl⟩ := gives_inv h1
    exact ⟨hf, h2, h3⟩
  constructor
  · intro s hs
    refine ContDiffAt.contDiffWithinAt ?_
    refine (contDiffAt_forceX (i := i.at s) (key s hs).1.weightX).congr_of_eventuallyEq ?_
    filter_upwards [hU.mem_nhds hs] with y hy
    exact (key y hy).2.1
  · intro s hs
    refine ContDiffAt.contDiffWithinAt ?_
    refine (contDiffAt_forceY (i := i.at s) (key s hs).1.weightY).congr_of_eventuallyEq ?_
    filter_upwards [hU.mem_nhds hs] with y hy
    exact (key y hy).2.2

/-- **C83** (the default tyre). The forces of the default tyre are twice continuously differentiable in both slips, everywhere. -/
theorem C83_default (opt : Bool) (Fz v g : ℝ) (h0 : 0 < Fz) (h1 : Fz ≤ 40000) (hg : opt = true ∨ |g| ≤ 1) :
    ∃ Fx Fy : ℝ × ℝ → ℝ, (∀ s, ∃ o, Gives defaults opt ⟨Fz, s.1, s.2, v, g⟩ o ∧ Fx s = o.Fx ∧ Fy s = o.Fy) ∧ ContDiff ℝ 2 Fx ∧ ContDiff ℝ 2 Fy := by
  choose o ho using fun s : ℝ × ℝ => C82_default_defined opt ⟨Fz, s.1, s.2, v, g⟩ h0 h1 hg
  refine ⟨fun s => (o s).Fx, fun s => (o s).Fy, fun s => ⟨o s, ho s, rfl, rfl⟩, ?_⟩
  have := C83_smooth (d := defaults) (opt := opt) (i := ⟨Fz, 0, 0, v, g⟩) (Fx := fun s => (o s).Fx) (Fy := fun s => (o s).Fy) isOpen_univ
    (fun s _ => ⟨o s, ho s, rfl, rfl⟩)
  rwa [contDiffOn_univ, contDiffOn_univ] at this

/-- The slope of the magic formula at zero. -/
theorem slope_zero {C D V : ℝ} {f : ℝ → ℝ} {B H : ℝ} {E : ℝ → ℝ}
    (hb : HasDerivAt (fun x => E x * bump B x) 0 0)
    (hf : ∀ k, f k = D * Real.sin (C * curve B (E (k + H)) (k + H)) + V) : HasDerivAt f (D * C * B) (-H) := by
  have h1 : HasDerivAt (fun x => B * x - E x * bump B x) (B - 0) 0 := by
    have : HasDerivAt (fun x => B * x) B 0 := by simpa using (hasDerivAt_id (0 : ℝ)).const_mul B
    exact this.sub hb
  have h2 : HasDerivAt (fun k : ℝ => k + H) 1 (-H) := (hasDerivAt_id (-H)).add_const H
  have h3 : HasDerivAt (fun k : ℝ => B * (k + H) - E (k + H) * bump B (k + H)) B (-H) := by
    have h1' : HasDerivAt (fun x => B * x - E x * bump B x) B (-H + H) := by simpa using h1
    have := HasDerivAt.comp (-H) h1' h2
    rw [mul_one] at this
    exact this
  have h4 := ((h3.arctan.const_mul C).sin.const_mul D).add_const V
  have e : f = fun k => D * Real.sin (C * Real.arctan (B * (k + H) - E (k + H) * bump B (k + H))) + V := funext hf
  rw [e]
  refine h4.congr_deriv ?_
  simp [bump]
  ring

theorem switch_zero (B a b c : ℝ) : HasDerivAt (fun x => min (a * (1 - b * Real.sign x) * c) 1 * bump B x) 0 0 := by
  have hb := bump_deriv B 0
  rw [hasDerivAt_iff_isLittleO] at hb ⊢
  have e0 : bump B 0 = 0 := by simp [bump]
  simp only [e0, sub_zero, mul_zero, zero_pow, ne_eq, OfNat.ofNat_ne_zero, not_false_eq_true, zero_div, smul_zero] at hb ⊢
  refine Asymptotics.IsBigO.trans_isLittleO ?_ hb
  refine Asymptotics.IsBigO.of_bound (|a| * (1 + |b|) * |c| + 1) (Filter.Eventually.of_forall fun y => ?_)
  rw [norm_mul]
  refine mul_le_mul_of_nonneg_right ?_ (norm_nonneg _)
  rw [Real.norm_eq_abs]
  have hs : |Real.sign y| ≤ 1 := by
    rcases lt_trichotomy y 0 with hy | rfl | hy
    · rw [Real.sign_of_neg hy]; simp
    · simp
    · rw [Real.sign_of_pos hy]; simp
  have h1 : |a * (1 - b * Real.sign y) * c| ≤ |a| * (1 + |b|) * |c| := by
    rw [abs_mul, abs_mul]
    refine mul_le_mul_of_nonneg_right (mul_le_mul_of_nonneg_left ?_ (abs_nonneg _)) (abs_nonneg _)
    refine (abs_sub _ _).trans ?_
    rw [abs_one, abs_mul]
    have := mul_le_of_le_one_right (abs_nonneg b) hs
    linarith
  rcases min_choice (a * (1 - b * Real.sign y) * c) 1 with hm | hm
  · rw [hm]
    linarith
  · rw [hm, abs_one]
    have : 0 ≤ |a| * (1 + |b|) * |c| := by positivity
    linarith

/-- **C83** (the stiffnesses are slopes). The slope of the longitudinal force over the slip ratio, without slip angle, at the slip ratio where the
shifted slip is zero, is the slip stiffness that the model gives out, times the peak over the peak with `epsilonx`; the same holds for the side
force, the slip angle and the cornering stiffness. -/
theorem C83_stiffness {d : Dict ℝ} {opt : Bool} {i : In} {o : Out} (h : Gives d opt i o) :
    (∀ F : ℝ → ℝ, (∀ k, ∃ o', Gives d opt { i with kappa := k, alpha := 0 } o' ∧ F k = o'.Fx) →
      HasDerivAt F (o.Kxk * (Cx (par d) * Dx (par d) i.Fz i.gamma) /
        (Cx (par d) * Dx (par d) i.Fz i.gamma + par d "epsilonx" * Real.sign (Dx (par d) i.Fz i.gamma))) (-Hx (par d) i.Fz)) ∧
    (∀ F : ℝ → ℝ, (∀ a, ∃ o', Gives d opt { i with kappa := 0, alpha := a } o' ∧ F a = o'.Fy) →
      HasDerivAt F (o.Kya * (Cy (par d) * Dy (par d) i.Fz i.gamma) /
        (Cy (par d) * Dy (par d) i.Fz i.gamma + par d "epsilony" * Real.sign (Dy (par d) i.Fz i.gamma))) (-Hy (par d) i.Fz i.gamma)) := by
  obtain ⟨-, rfl⟩ := gives_inv h
  constructor
  · intro F hF
    have e : ∀ k, F k = pureX (par d) i.Fz i.gamma k := by
      intro k
      obtain ⟨o', h1, h2⟩ := hF k
      rw [h2, ((C82_pure h1).1 rfl).2]
    have := slope_zero (f := F) (E := Ex (par d) i.Fz) (H := Hx (par d) i.Fz) (switch_zero (Bx (par d) i.Fz i.gamma) _ _ _) e
    refine this.congr_deriv ?_
    show _ = Kx (par d) i.Fz * _ / denX (par d) i.Fz i.gamma
    unfold Bx
    ring
  · intro F hF
    have e : ∀ k, F k = pureY (par d) i.Fz i.gamma k := by
      intro k
      obtain ⟨o', h1, h2⟩ := hF k
      rw [h2, ((C82_pure h1).2 rfl).2]
    have := slope_zero (f := F) (E := Ey (par d) i.Fz i.gamma) (H := Hy (par d) i.Fz i.gamma) (switch_zero (By (par d) i.Fz i.gamma) _ _ _) e
    refine this.congr_deriv ?_
    show _ = Ky (par d) i.Fz i.gamma * _ / denY (par d) i.Fz i.gamma
    unfold By
    ring

/-- Treating the factor with the sign as a constant gives the true derivative. -/
theorem switch_deriv (B a b c x : ℝ) : HasDerivAt (fun x => min (a * (1 - b * Real.sign x) * c) 1 * bump B x)
    (min (a * (1 - b * Real.sign x) * c) 1 * (B * ((B * x) ^ 2 / (1 + (B * x) ^ 2)))) x := by
  rcases lt_trichotomy x 0 with hx | rfl | hx
  · refine ((bump_deriv B x).const_mul (min (a * (1 - b * Real.sign x) * c) 1)).congr_of_eventuallyEq ?_
    filter_upwards [gt_mem_nhds hx] with y hy
    rw [Real.sign_of_neg hy, Real.sign_of_neg hx]
  · simpa using switch_zero B a b c
  · refine ((bump_deriv B x).const_mul (min (a * (1 - b * Real.sign x) * c) 1)).congr_of_eventuallyEq ?_
    filter_upwards [lt_mem_nhds hx] with y hy
    rw [Real.sign_of_pos hy, Real.sign_of_pos hx]

theorem magic_deriv {C D V : ℝ} {f : ℝ → ℝ} {B H : ℝ} {E : ℝ → ℝ} {k : ℝ}
    (hb : HasDerivAt (fun x => E x * bump B x) (E (k + H) * (B * ((B * (k + H)) ^ 2 / (1 + (B * (k + H)) ^ 2)))) (k + H))
    (hf : ∀ k, f k = D * Real.sin (C * curve B (E (k + H)) (k + H)) + V) :
    HasDerivAt f (D * (Real.cos (C * curve B (E (k + H)) (k + H)) * (C * (1 / (1 + (B * (k + H) - E (k + H) * bump B (k + H)) ^ 2) *
      (B - E (k + H) * (B * ((B * (k + H)) ^ 2 / (1 + (B * (k + H)) ^ 2)))))))) k := by
  have h1 : HasDerivAt (fun x => B * x - E x * bump B x) (B - E (k + H) * (B * ((B * (k + H)) ^ 2 / (1 + (B * (k + H)) ^ 2)))) (k + H) := by
    have : HasDerivAt (fun x => B * x) B (k + H) := by simpa using (hasDerivAt_id (k + H)).const_mul B
    exact this.sub hb
  have h2 : HasDerivAt (fun k : ℝ => k + H) 1 k := (hasDerivAt_id k).add_const H
  have h3 : HasDerivAt (fun k : ℝ => B * (k + H) - E (k + H) * bump B (k + H))
      (B - E (k + H) * (B * ((B * (k + H)) ^ 2 / (1 + (B * (k + H)) ^ 2)))) k := by
    have := HasDerivAt.comp k h1 h2
    rw [mul_one] at this
    exact this
  have h4 := ((h3.arctan.const_mul C).sin.const_mul D).add_const V
  have e : f = fun k => D * Real.sin (C * Real.arctan (B * (k + H) - E (k + H) * bump B (k + H))) + V := funext hf
  rw [e]
  exact h4

/-- **C83** (automatic differentiation is right). Automatic differentiation of the code treats the sign functions and the clamps as constants. At every
slip, also where the shifted slip is zero, that gives the true derivative of the forces in pure slip. -/
theorem C83_autodiff {d : Dict ℝ} {opt : Bool} {i : In} :
    (∀ (F : ℝ → ℝ) (k : ℝ), (∀ k, ∃ o', Gives d opt { i with kappa := k, alpha := 0 } o' ∧ F k = o'.Fx) →
      let x := k + Hx (par d) i.Fz; let B := Bx (par d) i.Fz i.gamma; let E := Ex (par d) i.Fz x
      HasDerivAt F (Dx (par d) i.Fz i.gamma * (Real.cos (Cx (par d) * curve B E x) * (Cx (par d) *
        (1 / (1 + (B * x - E * (B * x - Real.arctan (B * x))) ^ 2) * (B - E * (B * ((B * x) ^ 2 / (1 + (B * x) ^ 2)))))))) k) ∧
    (∀ (F : ℝ → ℝ) (a : ℝ), (∀ a, ∃ o', Gives d opt { i with kappa := 0, alpha := a } o' ∧ F a = o'.Fy) →
      let x := a + Hy (par d) i.Fz i.gamma; let B := By (par d) i.Fz i.gamma; let E := Ey (par d) i.Fz i.gamma x
      HasDerivAt F (Dy (par d) i.Fz i.gamma * (Real.cos (Cy (par d) * curve B E x) * (Cy (par d) *
        (1 / (1 + (B * x - E * (B * x - Real.arctan (B * x))) ^ 2) * (B - E * (B * ((B * x) ^ 2 / (1 + (B * x) ^ 2)))))))) a) := by
  constructor
  · intro F k hF
    have e : ∀ k, F k = pureX (par d) i.Fz i.gamma k := by
      intro k
      obtain ⟨o', h1, h2⟩ := hF k
      rw [h2, ((C82_pure h1).1 rfl).2]
    exact magic_deriv (f := F) (E := Ex (par d) i.Fz) (H := Hx (par d) i.Fz) (switch_deriv (Bx (par d) i.Fz i.gamma) _ _ _ _) e
  · intro F a hF
    have e : ∀ k, F k = pureY (par d) i.Fz i.gamma k := by
      intro k
      obtain ⟨o', h1, h2⟩ := hF k
      rw [h2, ((C82_pure h1).2 rfl).2]
    exact magic_deriv (f := F) (E := Ey (par d) i.Fz i.gamma) (H := Hy (par d) i.Fz i.gamma) (switch_deriv (By (par d) i.Fz i.gamma) _ _ _ _) e

/-- **C83** (a kink in the camber, finding). The cornering stiffness that the default tyre gives out is not differentiable in the camber at zero, the
camber at which the vehicle model always evaluates it. -/
theorem C83_camber_kink (opt : Bool) (Fz k a v : ℝ) (h0 : 0 < Fz) (K : ℝ → ℝ)
    (hK : ∀ g, |g| ≤ 1 → ∃ o, Gives defaults opt ⟨Fz, k, a, v, g⟩ o ∧ K g = o.Kya) : ¬DifferentiableAt ℝ K 0 := by
  intro hd
  have hn : Ky (par defaults) Fz 0 ≠ 0 := (Ky_neg h0 (by simp)).ne
  have hev : (fun g : ℝ => (1 - K g / Ky (par defaults) Fz 0) / (118 / 125)) =ᶠ[nhds 0] fun g => |g| := by
    have : Metric.ball (0 : ℝ) 1 ∈ nhds (0 : ℝ) := Metric.ball_mem_nhds 0 one_pos
    filter_upwards [this] with g hg
    rw [Metric.mem_ball, Real.dist_eq, sub_zero] at hg
    obtain ⟨o, h1, h2⟩ := hK g hg.le
    obtain ⟨-, rfl⟩ := gives_inv h1
    have e : K g = Ky (par defaults) Fz 0 * (1 - 118 / 125 * |g|) := by
      rw [h2]
      show Ky (par defaults) Fz g = _
      unfold Ky
      rw [d_PKY3, abs_zero]
      ring
    rw [e, mul_div_cancel_left₀ _ hn]
    ring
  have h3 : DifferentiableAt ℝ (fun g : ℝ => (1 - K g / Ky (par defaults) Fz 0) / (118 / 125)) 0 :=
    ((hd.div_const _).const_sub 1).div_const _
  exact not_differentiableAt_abs_zero (h3.congr_of_eventuallyEq hev.symm)

end Lumos.Tyre
