import Verif.Tyre.Smooth
/-!
# The forces of the MF5.2 tyre as functions of the slips and the load
-/

namespace Lumos.Tyre

open Lumos Io Veh

/-! ## Specification -/

/-- Where the formulas of an upright tyre (no camber) have no division by zero, and the two peaks and stiffnesses are not zero. -/
structure Bears (p : Pars) (F kappa alpha : ℝ) : Prop where
  nominal : p "LFZO" * p "FNOMIN" ≠ 0
  stiff : p "PKY2" ≠ 0
  moving : 0 < p "epsilonv"
  peakX : Dx p F 0 ≠ 0
  peakY : Dy p F 0 ≠ 0
  lon : denX p F 0 ≠ 0
  lat : denY p F 0 ≠ 0
  stiffX : Kx p F ≠ 0
  stiffY : Ky p F 0 ≠ 0
  weightX : cosX p F kappa (p "RHX1") ≠ 0
  weightY : cosY p F alpha (shiftY p F) ≠ 0

/-- Where they have no corner either: none of the curvature factors, which are cut off at one, is exactly one before the cut. -/
structure Takes (p : Pars) (F kappa alpha : ℝ) : Prop extends Bears p F kappa alpha where
  cutX : ∀ side : ℝ, side = 1 ∨ side = -1 → (p "PEX1" + p "PEX2" * dfz p F + p "PEX3" * dfz p F ^ 2) * (1 - p "PEX4" * side) * p "LEX" ≠ 1
  cutY : ∀ side : ℝ, side = 1 ∨ side = -1 → (p "PEY1" + p "PEY2" * dfz p F) * (1 - p "PEY3" * side) * p "LEY" ≠ 1
  bendX : p "REX1" + p "REX2" * dfz p F ≠ 1
  bendY : p "REY1" + p "REY2" * dfz p F ≠ 1

section
variable {E : Type} [NormedAddCommGroup E] [NormedSpace ℝ E] {e : E} {k : ℕ∞}

theorem min_smooth {f : E → ℝ} (hf : ContDiffAt ℝ k f e) (h : k = 0 ∨ f e ≠ 1) : ContDiffAt ℝ k (fun y => min (f y) 1) e := by
  rcases h with rfl | h
  · obtain ⟨U, hU, hc⟩ := contDiffAt_zero.mp hf
    exact contDiffAt_zero.mpr ⟨U, hU, (continuous_id.min continuous_const).comp_continuousOn hc⟩
  rcases lt_or_gt_of_ne h with h | h
  · refine hf.congr_of_eventuallyEq ?_
    filter_upwards [hf.continuousAt.eventually (gt_mem_nhds h)] with y hy
    exact min_eq_left hy.le
  · refine (contDiffAt_const (c := (1 : ℝ))).congr_of_eventuallyEq ?_
    filter_upwards [hf.continuousAt.eventually (lt_mem_nhds h)] with y hy
    exact min_eq_right hy.le

theorem sign_smooth {f : E → ℝ} (hf : ContinuousAt f e) (h : f e ≠ 0) : ContDiffAt ℝ k (fun y => Real.sign (f y)) e := by
  rcases lt_or_gt_of_ne h with h | h
  · refine (contDiffAt_const (c := (-1 : ℝ))).congr_of_eventuallyEq ?_
    filter_upwards [hf.eventually (gt_mem_nhds h)] with y hy
    exact Real.sign_of_neg hy
  · refine (contDiffAt_const (c := (1 : ℝ))).congr_of_eventuallyEq ?_
    filter_upwards [hf.eventually (lt_mem_nhds h)] with y hy
    exact Real.sign_of_pos hy

theorem bump_eq (B x : ℝ) : bump B x = bump 1 (B * x) := by simp [bump]

/-- The curvature factor may jump where the shifted slip is zero. -/
theorem switch_smooth {B x a : E → ℝ} (hk : k ≤ 2) (b c : ℝ) (hB : ContDiffAt ℝ k B e) (hx : ContDiffAt ℝ k x e) (ha : ContDiffAt ℝ k a e) (h0 : B e ≠ 0)
    (h : k = 0 ∨ ∀ side : ℝ, side = 1 ∨ side = -1 → a e * (1 - b * side) * c ≠ 1) :
    ContDiffAt ℝ k (fun y => min (a y * (1 - b * Real.sign (x y)) * c) 1 * bump (B y) (x y)) e := by
  have hp : ContDiffAt ℝ k (fun y => min (a y * (1 - b * 1) * c) 1) e :=
    min_smooth ((ha.mul contDiffAt_const).mul contDiffAt_const) (h.imp id fun h => h 1 (.inl rfl))
  have hm : ContDiffAt ℝ k (fun y => min (a y * (1 - b * -1) * c) 1) e :=
    min_smooth ((ha.mul contDiffAt_const).mul contDiffAt_const) (h.imp id fun h => h (-1) (.inr rfl))
  have hbx : ContDiffAt ℝ k (fun y => B y * x y) e := hB.mul hx
  have hk' : ((k : ℕ∞) : WithTop ℕ∞) ≤ 2 := by
    have : ((2 : ℕ∞) : WithTop ℕ∞) = 2 := rfl
    rw [← this]
    exact_mod_cast hk
  have h1 : ContDiffAt ℝ k (fun y => bump 1 (B y * x y)) e := ((contDiff_bump 1).of_le hk').contDiffAt.comp e hbx
  have h2 : ContDiffAt ℝ k (fun y => Real.sign (B y * x y) * bump 1 (B y * x y)) e := ((contDiff_sign_bump 1).of_le hk').contDiffAt.comp e hbx
  have hs : ContDiffAt ℝ k (fun y => Real.sign (B y)) e := sign_smooth hB.continuousAt h0
  refine ((((hp.add hm).mul (contDiffAt_const (c := (2 : ℝ)⁻¹))).mul h1).add ((((hp.sub hm).mul (contDiffAt_const (c := (2 : ℝ)⁻¹))).mul hs).mul h2)).congr_of_eventuallyEq ?_
  filter_upwards [hB.continuousAt.eventually (isOpen_ne.mem_nhds h0)] with y hy
  rw [bump_eq]
  have hss : Real.sign (B y) * Real.sign (B y * x y) = Real.sign (x y) := by
    rcases lt_or_gt_of_ne hy with hb | hb <;> rcases lt_trichotomy (x y) 0 with hx | hx | hx
    · rw [Real.sign_of_neg hb, Real.sign_of_neg hx, Real.sign_of_pos (mul_pos_of_neg_of_neg hb hx)]; norm_num
    · rw [hx]; simp
    · rw [Real.sign_of_neg hb, Real.sign_of_pos hx, Real.sign_of_neg (mul_neg_of_neg_of_pos hb hx)]; norm_num
    · rw [Real.sign_of_pos hb, Real.sign_of_neg hx, Real.sign_of_neg (mul_neg_of_pos_of_neg hb hx)]; norm_num
    · rw [hx]; simp
    · rw [Real.sign_of_pos hb, Real.sign_of_pos hx, Real.sign_of_pos (mul_pos hb hx)]; norm_num
  have : ∀ P M t : ℝ, (P + M) * (2 : ℝ)⁻¹ * t + (P - M) * (2 : ℝ)⁻¹ * Real.sign (B y) * (Real.sign (B y * x y) * t)
      = (P + M) * (2 : ℝ)⁻¹ * t + (P - M) * (2 : ℝ)⁻¹ * (Real.sign (B y) * Real.sign (B y * x y)) * t := by intros; ring
  show _ = _ * bump 1 (B y * x y) + _ * (Real.sign (B y * x y) * bump 1 (B y * x y))
  rw [this, hss]
  rcases lt_trichotomy (x y) 0 with hx | hx | hx
  · rw [Real.sign_of_neg hx]
    ring
  · rw [hx]
    simp [bump]
  · rw [Real.sign_of_pos hx]
    ring

end

section
variable {E : Type} [NormedAddCommGroup E] [NormedSpace ℝ E] {e : E} {k : ℕ∞} {p : Pars} {F κ α : E → ℝ}

theorem dfz_smooth (hF : ContDiffAt ℝ k F e) : ContDiffAt ℝ k (fun y => dfz p (F y)) e := (hF.sub contDiffAt_const).div_const _

theorem lin_smooth (a b : ℝ) (hF : ContDiffAt ℝ k F e) : ContDiffAt ℝ k (fun y => a + b * dfz p (F y)) e :=
  contDiffAt_const.add (contDiffAt_const.mul (dfz_smooth hF))

theorem Dx_smooth (hF : ContDiffAt ℝ k F e) : ContDiffAt ℝ k (fun y => Dx p (F y) 0) e :=
  (((lin_smooth _ _ hF).mul contDiffAt_const).mul contDiffAt_const).mul hF

theorem Dy_smooth (hF : ContDiffAt ℝ k F e) : ContDiffAt ℝ k (fun y => Dy p (F y) 0) e :=
  (((lin_smooth _ _ hF).mul contDiffAt_const).mul contDiffAt_const).mul hF

theorem Kx_smooth (hF : ContDiffAt ℝ k F e) : ContDiffAt ℝ k (fun y => Kx p (F y)) e :=
  ((hF.mul (lin_smooth _ _ hF)).mul (contDiffAt_const.mul (dfz_smooth hF)).exp).mul contDiffAt_const

theorem Ky_smooth (hF : ContDiffAt ℝ k F e) : ContDiffAt ℝ k (fun y => Ky p (F y) 0) e :=
  (contDiffAt_const.mul (contDiffAt_const.mul ((hF.div_const _).div_const _).arctan).sin).mul contDiffAt_const

theorem Bx_smooth (hF : ContDiffAt ℝ k F e) (h1 : Dx p (F e) 0 ≠ 0) (h2 : denX p (F e) 0 ≠ 0) : ContDiffAt ℝ k (fun y => Bx p (F y) 0) e :=
  (Kx_smooth hF).div ((contDiffAt_const.mul (Dx_smooth hF)).add (contDiffAt_const.mul (sign_smooth (Dx_smooth hF).continuousAt h1))) h2

theorem By_smooth (hF : ContDiffAt ℝ k F e) (h1 : Dy p (F e) 0 ≠ 0) (h2 : denY p (F e) 0 ≠ 0) : ContDiffAt ℝ k (fun y => By p (F y) 0) e :=
  (Ky_smooth hF).div ((contDiffAt_const.mul (Dy_smooth hF)).add (contDiffAt_const.mul (sign_smooth (Dy_smooth hF).continuousAt h1))) h2

theorem Hx_smooth (hF : ContDiffAt ℝ k F e) : ContDiffAt ℝ k (fun y => Hx p (F y)) e := (lin_smooth _ _ hF).mul contDiffAt_const

theorem Hy_smooth (hF : ContDiffAt ℝ k F e) : ContDiffAt ℝ k (fun y => Hy p (F y) 0) e := ((lin_smooth _ _ hF).mul contDiffAt_const).add contDiffAt_const

theorem Vx_smooth (hF : ContDiffAt ℝ k F e) : ContDiffAt ℝ k (fun y => Vx p (F y)) e :=
  ((hF.mul (lin_smooth _ _ hF)).mul contDiffAt_const).mul contDiffAt_const

theorem Vy_smooth (hF : ContDiffAt ℝ k F e) : ContDiffAt ℝ k (fun y => Vy p (F y) 0) e :=
  (((hF.mul (lin_smooth _ _ hF)).mul contDiffAt_const).mul contDiffAt_const).add (((hF.mul (lin_smooth _ _ hF)).mul contDiffAt_const).mul contDiffAt_const)

theorem curve_smooth {B x c : E → ℝ} (hB : ContDiffAt ℝ k B e) (hx : ContDiffAt ℝ k x e) (hk : ContDiffAt ℝ k (fun y => c y * bump (B y) (x y)) e) :
    ContDiffAt ℝ k (fun y => curve (B y) (c y) (x y)) e := ((hB.mul hx).sub hk).arctan

theorem bump_smooth {B x : E → ℝ} (hB : ContDiffAt ℝ k B e) (hx : ContDiffAt ℝ k x e) : ContDiffAt ℝ k (fun y => bump (B y) (x y)) e :=
  (hB.mul hx).sub (hB.mul hx).arctan

theorem pureX_smooth (hk : k ≤ 2) (hF : ContDiffAt ℝ k F e) (hκ : ContDiffAt ℝ k κ e) (h1 : Dx p (F e) 0 ≠ 0) (h2 : denX p (F e) 0 ≠ 0) (h3 : Kx p (F e) ≠ 0)
    (h4 : k = 0 ∨ ∀ side : ℝ, side = 1 ∨ side = -1 → (p "PEX1" + p "PEX2" * dfz p (F e) + p "PEX3" * dfz p (F e) ^ 2) * (1 - p "PEX4" * side) * p "LEX" ≠ 1) :
    ContDiffAt ℝ k (fun y => pureX p (F y) 0 (κ y)) e := by
  have hB := Bx_smooth hF h1 h2
  have hx := hκ.add (Hx_smooth (p := p) hF)
  have hE := switch_smooth hk (p "PEX4") (p "LEX") hB hx ((lin_smooth (p := p) (p "PEX1") (p "PEX2") hF).add (contDiffAt_const.mul ((dfz_smooth hF).pow 2)))
    (div_ne_zero h3 h2) h4
  exact ((Dx_smooth hF).mul (contDiffAt_const.mul (curve_smooth hB hx hE)).sin).add (Vx_smooth hF)

theorem pureY_smooth (hk : k ≤ 2) (hF : ContDiffAt ℝ k F e) (hα : ContDiffAt ℝ k α e) (h : Bears p (F e) (κ e) (α e)) (hc : k = 0 ∨ Takes p (F e) (κ e) (α e)) :
    ContDiffAt ℝ k (fun y => pureY p (F y) 0 (α y)) e := by
  have hB := By_smooth hF h.peakY h.lat
  have hx := hα.add (Hy_smooth (p := p) hF)
  have hE := switch_smooth hk (p "PEY3" + p "PEY4" * 0) (p "LEY") hB hx (lin_smooth (p := p) (p "PEY1") (p "PEY2") hF)
    (div_ne_zero h.stiffY h.lat) (by rw [mul_zero, add_zero]; exact hc.imp id fun h => h.cutY)
  exact ((Dy_smooth hF).mul (contDiffAt_const.mul (curve_smooth hB hx hE)).sin).add (Vy_smooth hF)

theorem slopeX_smooth (hκ : ContDiffAt ℝ k κ e) : ContDiffAt ℝ k (fun y => slopeX p (κ y)) e :=
  (contDiffAt_const.mul (contDiffAt_const.mul hκ).arctan.cos).mul contDiffAt_const

theorem slopeY_smooth (hα : ContDiffAt ℝ k α e) : ContDiffAt ℝ k (fun y => slopeY p (α y)) e :=
  (contDiffAt_const.mul (contDiffAt_const.mul (hα.sub contDiffAt_const)).arctan.cos).mul contDiffAt_const

theorem cosX_smooth {a : E → ℝ} (hF : ContDiffAt ℝ k F e) (hκ : ContDiffAt ℝ k κ e) (ha : ContDiffAt ℝ k a e) (h : k = 0 ∨ p "REX1" + p "REX2" * dfz p (F e) ≠ 1) :
    ContDiffAt ℝ k (fun y => cosX p (F y) (κ y) (a y)) e :=
  (contDiffAt_const.mul (curve_smooth (slopeX_smooth hκ) ha ((min_smooth (lin_smooth _ _ hF) h).mul (bump_smooth (slopeX_smooth hκ) ha)))).cos

theorem cosY_smooth {a : E → ℝ} (hF : ContDiffAt ℝ k F e) (hα : ContDiffAt ℝ k α e) (ha : ContDiffAt ℝ k a e) (h : k = 0 ∨ p "REY1" + p "REY2" * dfz p (F e) ≠ 1) :
    ContDiffAt ℝ k (fun y => cosY p (F y) (α y) (a y)) e :=
  (contDiffAt_const.mul (curve_smooth (slopeY_smooth hα) ha ((min_smooth (lin_smooth _ _ hF) h).mul (bump_smooth (slopeY_smooth hα) ha)))).cos

theorem weights_smooth (hF : ContDiffAt ℝ k F e) (hκ : ContDiffAt ℝ k κ e) (hα : ContDiffAt ℝ k α e) (h : Bears p (F e) (κ e) (α e)) (hc : k = 0 ∨ Takes p (F e) (κ e) (α e)) :
    ContDiffAt ℝ k (fun y => weightX p (F y) (κ y) (α y)) e ∧ ContDiffAt ℝ k (fun y => weightY p (F y) (α y) (κ y)) e :=
  ⟨(cosX_smooth hF hκ (hα.add contDiffAt_const) (hc.imp id fun h => h.bendX)).div (cosX_smooth hF hκ contDiffAt_const (hc.imp id fun h => h.bendX)) h.weightX,
    (cosY_smooth hF hα (hκ.add (lin_smooth _ _ hF)) (hc.imp id fun h => h.bendY)).div (cosY_smooth hF hα (lin_smooth _ _ hF) (hc.imp id fun h => h.bendY)) h.weightY⟩

theorem induced_smooth (hF : ContDiffAt ℝ k F e) (hκ : ContDiffAt ℝ k κ e) (hα : ContDiffAt ℝ k α e) :
    ContDiffAt ℝ k (fun y => induced p (F y) 0 (α y) (κ y)) e :=
  ((((Dy_smooth (p := p) hF).mul ((lin_smooth (p := p) (p "RVY1") (p "RVY2") hF).add contDiffAt_const)).mul (contDiffAt_const.mul hα).arctan.cos).mul
    (contDiffAt_const.mul (contDiffAt_const.mul hκ).arctan).sin).mul contDiffAt_const

/-- The forces of an upright tyre are twice continuously differentiable in load and slips, and the formulas are what the code computes around such a point. -/
theorem forces_smooth (hk : k ≤ 2) (v : E → ℝ) (hF : ContDiffAt ℝ k F e) (hκ : ContDiffAt ℝ k κ e) (hα : ContDiffAt ℝ k α e) (h : Bears p (F e) (κ e) (α e)) (hc : k = 0 ∨ Takes p (F e) (κ e) (α e)) :
    ContDiffAt ℝ k (fun y => forceX p ⟨F y, κ y, α y, v y, 0⟩) e ∧ ContDiffAt ℝ k (fun y => forceY p ⟨F y, κ y, α y, v y, 0⟩) e := by
  obtain ⟨h1, h2⟩ := weights_smooth hF hκ hα h hc
  exact ⟨h1.mul (pureX_smooth hk hF hκ h.peakX h.lon h.stiffX (hc.imp id fun h => h.cutX)), (h2.mul (pureY_smooth hk hF hα h hc)).add (induced_smooth hF hκ hα)⟩

theorem finite_near (v : E → ℝ) (hF : ContDiffAt ℝ k F e) (hκ : ContDiffAt ℝ k κ e) (hα : ContDiffAt ℝ k α e) (h : Bears p (F e) (κ e) (α e)) (hc : k = 0 ∨ Takes p (F e) (κ e) (α e)) :
    ∀ᶠ y in nhds e, Finite p ⟨F y, κ y, α y, v y, 0⟩ := by
  have hd1 : ContDiffAt ℝ k (fun y => denX p (F y) 0) e :=
    (contDiffAt_const.mul (Dx_smooth hF)).add (contDiffAt_const.mul (sign_smooth (Dx_smooth hF).continuousAt h.peakX))
  have hd2 : ContDiffAt ℝ k (fun y => denY p (F y) 0) e :=
    (contDiffAt_const.mul (Dy_smooth hF)).add (contDiffAt_const.mul (sign_smooth (Dy_smooth hF).continuousAt h.peakY))
  filter_upwards [hd1.continuousAt.eventually (isOpen_ne.mem_nhds h.lon), hd2.continuousAt.eventually (isOpen_ne.mem_nhds h.lat),
    (cosX_smooth hF hκ (contDiffAt_const (c := p "RHX1")) (hc.imp id fun h => h.bendX)).continuousAt.eventually (isOpen_ne.mem_nhds h.weightX),
    (cosY_smooth hF hα (lin_smooth (p := p) (p "RHY1") (p "RHY2") hF) (hc.imp id fun h => h.bendY)).continuousAt.eventually (isOpen_ne.mem_nhds h.weightY)] with y h1 h2 h3 h4
  have hs : |v y| < speed p (v y) (α y) := by
    unfold speed
    have : |v y| ≤ Real.sqrt (v y ^ 2 + (Real.tan (α y) * v y) ^ 2) := by
      rw [← Real.sqrt_sq_eq_abs]
      exact Real.sqrt_le_sqrt (by nlinarith [sq_nonneg (Real.tan (α y) * v y)])
    linarith [h.moving]
  have h0 : 0 < speed p (v y) (α y) := lt_of_le_of_lt (abs_nonneg _) hs
  refine ⟨h.nominal, h.stiff, h0.ne', ?_, h1, h2, h3, h4⟩
  have := abs_le.mp hs.le
  exact ⟨by rw [le_div_iff₀ h0]; linarith, by rw [div_le_one h0]; exact this.2⟩

end

end Lumos.Tyre
