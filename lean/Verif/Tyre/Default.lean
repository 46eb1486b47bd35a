import Verif.Tyre.DefaultPars
/-!
# C82: the forces of the default MF5.2 tyre
-/

namespace Lumos.Tyre

open Lumos Io Veh

/-- The default parameters. -/
local notation "P" => par defaults

theorem dfz_default (Fz : ℝ) : dfz P Fz = Fz / (47083 / 5) - 1 := by
  unfold dfz
  rw [d_LFZO, d_FNOMIN]
  field_simp

theorem dfz_gt {Fz : ℝ} (h : 0 < Fz) : -1 < dfz P Fz := by
  rw [dfz_default]
  have : 0 < Fz / (47083 / 5) := by positivity
  linarith

theorem dfz_le {Fz : ℝ} (h : Fz ≤ 40000) : dfz P Fz ≤ 13 / 4 := by
  rw [dfz_default]
  have : Fz / (47083 / 5) ≤ 40000 / (47083 / 5) := by gcongr
  norm_num at this
  linarith

theorem dfz_le' {Fz : ℝ} (h : Fz ≤ 102349 / 5) : dfz P Fz ≤ 1174 / 1000 := by
  rw [dfz_default]
  have : Fz / (47083 / 5) ≤ 102349 / 5 / (47083 / 5) := by gcongr
  norm_num at this
  linarith

theorem mux_default (Fz gamma : ℝ) : mux P Fz gamma = (177 / 200 - 5653 / 100000 * dfz P Fz) * (1 + 1096 / 125 * gamma ^ 2) := by
  unfold mux
  rw [d_PDX1, d_PDX2, d_PDX3, d_LMUX]
  ring

theorem muy_default (Fz gamma : ℝ) : muy P Fz gamma = (8271 / 10000 - 1153 / 5000 * dfz P Fz) * (1 + 886 / 125 * gamma ^ 2) := by
  unfold muy
  rw [d_PDY1, d_PDY2, d_PDY3, d_LMUY]
  ring

theorem Cx_default : Cx P = 2721 / 2000 := by
  unfold Cx
  rw [d_PCX1, d_LCX, mul_one]

theorem Cy_default : Cy P = 1889 / 1000 := by
  unfold Cy
  rw [d_PCY1, d_LCY, mul_one]

theorem Dx_pos {Fz : ℝ} (h0 : 0 < Fz) (h : Fz ≤ 40000) (gamma : ℝ) : 0 < Dx P Fz gamma := by
  unfold Dx
  rw [mux_default]
  have h1 := dfz_le h
  have : 0 < 177 / 200 - 5653 / 100000 * dfz P Fz := by linarith
  positivity

theorem Dy_pos {Fz : ℝ} (h0 : 0 < Fz) (h : Fz ≤ 40000) (gamma : ℝ) : 0 < Dy P Fz gamma := by
  unfold Dy
  rw [muy_default]
  have h1 := dfz_le h
  have : 0 < 8271 / 10000 - 1153 / 5000 * dfz P Fz := by linarith
  positivity

theorem Kx_pos {Fz : ℝ} (h0 : 0 < Fz) (h : Fz ≤ 40000) : 0 < Kx P Fz := by
  unfold Kx
  rw [d_PKX1, d_PKX2, d_PKX3, d_LKX]
  have h1 := dfz_le h
  have : 0 < 667 / 40 + -(569 / 12500) * dfz P Fz := by linarith
  have := Real.exp_pos (841 / 2000 * dfz P Fz)
  positivity

theorem Ky_neg {Fz gamma : ℝ} (h0 : 0 < Fz) (hg : |gamma| ≤ 1) : Ky P Fz gamma < 0 := by
  unfold Ky
  rw [d_PKY1, d_PKY2, d_PKY3, d_LKY, d_LFZO, d_FNOMIN]
  have h1 : 0 < Real.arctan (Fz / (1 * (47083 / 5)) / (947 / 125)) := Real.arctan_pos.mpr (by positivity)
  have h2 := Real.arctan_lt_pi_div_two (Fz / (1 * (47083 / 5)) / (947 / 125))
  have h3 : 0 < Real.sin (2 * Real.arctan (Fz / (1 * (47083 / 5)) / (947 / 125))) :=
    Real.sin_pos_of_pos_of_lt_pi (by linarith) (by linarith)
  have h4 : 0 < 1 - 118 / 125 * |gamma| := by linarith
  have := mul_pos h4 h3
  nlinarith

theorem slopeX_le (kappa : ℝ) : |slopeX P kappa| ≤ 9509 / 1000 := by
  unfold slopeX
  rw [d_RBX1, d_LXAL, mul_one, abs_mul, abs_of_pos (by norm_num : (0 : ℝ) < 9509 / 1000)]
  exact mul_le_of_le_one_right (by norm_num) (Real.abs_cos_le_one _)

theorem slopeY_le (alpha : ℝ) : |slopeY P alpha| ≤ 2521 / 500 := by
  unfold slopeY
  rw [d_RBY1, d_LYKA, mul_one, abs_mul, abs_of_pos (by norm_num : (0 : ℝ) < 2521 / 500)]
  exact mul_le_of_le_one_right (by norm_num) (Real.abs_cos_le_one _)

theorem bendX_le {Fz : ℝ} (h0 : 0 < Fz) {e : ℝ} (h : dfz P Fz ≤ e) (he : 0 ≤ e) : |bendX P Fz| ≤ 2 + 456 / 100 * e := by
  unfold bendX
  rw [d_REX1, d_REX2, abs_le]
  have h1 := dfz_gt h0
  constructor
  · exact le_min (by linarith) (by linarith)
  · exact (min_le_right _ _).trans (by linarith)

theorem bendY_le {Fz : ℝ} (h0 : 0 < Fz) {e : ℝ} (h : dfz P Fz ≤ e) (he : 0 ≤ e) : |bendY P Fz| ≤ 1 + e := by
  unfold bendY
  rw [d_REY1, d_REY2, abs_le]
  have h1 := dfz_gt h0
  constructor
  · exact le_min (by linarith) (by linarith)
  · exact (min_le_right _ _).trans (by linarith)

theorem shiftY_le {Fz : ℝ} (h0 : 0 < Fz) (h : dfz P Fz ≤ 13 / 4) : |shiftY P Fz| ≤ 1 / 1000 := by
  unfold shiftY
  rw [d_RHY1, d_RHY2, abs_le]
  have h1 := dfz_gt h0
  constructor <;> linarith

theorem cosX_ge {Fz : ℝ} (h0 : 0 < Fz) {e : ℝ} (h : dfz P Fz ≤ e) (he : 0 ≤ e) (kappa : ℝ) :
    1 - (10061 / 10000 * (955 / 10000 + (2 + 456 / 100 * e) * (955 / 10000) ^ 3)) ^ 2 / 2 ≤ cosX P Fz kappa (P "RHX1") := by
  unfold cosX
  apply one_sub_le_cos
  · rw [d_RCX1, abs_of_pos (by norm_num)]
  · refine abs_curve_le ?_ (bendX_le h0 h he)
    rw [abs_mul, d_RHX1, abs_of_pos (by norm_num : (0 : ℝ) < 10039 / 1000000)]
    have := slopeX_le kappa
    nlinarith

theorem cosY_ge {Fz : ℝ} (h0 : 0 < Fz) (h : dfz P Fz ≤ 13 / 4) (alpha : ℝ) :
    9999 / 10000 ≤ cosY P Fz alpha (shiftY P Fz) := by
  unfold cosY
  have h1 : 1 - (5321 / 5000 * (51 / 10000 + (1 + 13 / 4) * (51 / 10000) ^ 3)) ^ 2 / 2
      ≤ Real.cos (P "RCY1" * curve (slopeY P alpha) (bendY P Fz) (shiftY P Fz)) := by
    apply one_sub_le_cos
    · rw [d_RCY1, abs_of_pos (by norm_num)]
    · refine abs_curve_le ?_ (bendY_le h0 h (by norm_num))
      rw [abs_mul]
      exact (mul_le_mul (slopeY_le alpha) (shiftY_le h0 h) (abs_nonneg _) (by norm_num)).trans (by norm_num)
  norm_num at h1
  linarith

theorem finite_default {i : In} (h0 : 0 < i.Fz) (h : i.Fz ≤ 40000) : Finite P i := by
  have hs : 0 < speed P i.vx i.alpha := by
    unfold speed
    rw [d_epsilonv]
    positivity
  have ha : |i.vx| ≤ speed P i.vx i.alpha := by
    have : Real.sqrt (i.vx ^ 2) ≤ Real.sqrt (i.vx ^ 2 + (Real.tan i.alpha * i.vx) ^ 2) :=
      Real.sqrt_le_sqrt (by nlinarith [sq_nonneg (Real.tan i.alpha * i.vx)])
    rw [Real.sqrt_sq_eq_abs] at this
    unfold speed
    rw [d_epsilonv]
    linarith
  have hc := abs_le.mp ha
  refine ⟨?_, ?_, hs.ne', ⟨?_, ?_⟩, ?_, ?_, ?_, ?_⟩
  · rw [d_LFZO, d_FNOMIN]
    norm_num
  · rw [d_PKY2]
    norm_num
  · rw [le_div_iff₀ hs]
    linarith
  · rw [div_le_one hs]
    exact hc.2
  · exact (denX_pos (by rw [Cx_default]; norm_num) (Dx_pos h0 h _) (by rw [d_epsilonx]; norm_num)).ne'
  · exact (denY_pos (by rw [Cy_default]; norm_num) (Dy_pos h0 h _) (by rw [d_epsilony]; norm_num)).ne'
  · have := cosX_ge h0 (dfz_le h) (by norm_num) i.kappa
    norm_num at this
    linarith
  · have := cosY_ge h0 (dfz_le h) i.alpha
    linarith

theorem sign_shift_ne {x e : ℝ} (hx : x < 0) (he : 0 ≤ e) : x + e * Real.sign x ≠ 0 := by
  rw [Real.sign_of_neg hx]
  linarith

theorem moments_default {i : In} (h0 : 0 < i.Fz) (hg : |i.gamma| ≤ 1) : FiniteMoments P i := by
  refine ⟨?_, ?_, ?_⟩
  · rw [d_LONGVL]
    norm_num
  · rw [d_LMUY]
    norm_num
  · exact sign_shift_ne (Ky_neg h0 hg) (by rw [d_epsilonk]; norm_num)

/-- **C82** (the default tyre is defined). With the default parameters the tyre returns numbers for every load above zero up to 40 kN (twice the
largest load of the parameter file), every slip ratio, slip angle and speed, in the mode for optimisation also for every camber, in the full mode
for every camber up to 1 rad. -/
theorem C82_default_defined (opt : Bool) (i : In) (h0 : 0 < i.Fz) (h : i.Fz ≤ 40000) (hg : opt = true ∨ |i.gamma| ≤ 1) :
    ∃ o, Gives defaults opt i o :=
  ⟨_, (gives_iff _ _ _ _ (hasKeys_default opt)).mpr ((forces_iff _ _ _ _).mpr ⟨finite_default h0 h,
    fun e => moments_default h0 (hg.resolve_left (by simp [e])), rfl⟩)⟩

/-- **C82** (the grip of the default tyre). Upright and inside the load range of the parameter file, the default tyre never transmits more than
0.96 times its load in the longitudinal direction and 1.12 times its load sideways, whatever the slips. -/
theorem C82_default_grip {opt : Bool} {i : In} {o : Out} (h : Gives defaults opt i o) (h0 : 0 < i.Fz) (h1 : i.Fz ≤ 102349 / 5) (hg : i.gamma = 0) :
    |o.Fx| ≤ 96 / 100 * i.Fz ∧ |o.Fy| ≤ 112 / 100 * i.Fz := by
  obtain ⟨l1, l2⟩ := C82_limit h
  have hd := dfz_gt h0
  have hd' := dfz_le' h1
  have wX := cosX_ge h0 hd' (by norm_num) i.kappa
  have wY := cosY_ge h0 (hd'.trans (by norm_num)) i.alpha
  have gX : |o.Gxa| ≤ 1 / (9946 / 10000) := by
    obtain ⟨-, rfl⟩ := gives_inv h
    show |cosX _ _ _ _ / cosX P i.Fz i.kappa (P "RHX1")| ≤ _
    norm_num at wX
    have hw : (9946 / 10000 : ℝ) ≤ cosX P i.Fz i.kappa (P "RHX1") := by linarith
    rw [abs_div, abs_of_pos (by linarith : 0 < cosX P i.Fz i.kappa (P "RHX1"))]
    exact div_le_div₀ zero_le_one (Real.abs_cos_le_one _) (by norm_num) hw
  have gY : |o.Gyk| ≤ 1 / (9999 / 10000) := by
    obtain ⟨-, rfl⟩ := gives_inv h
    show |cosY _ _ _ _ / cosY P i.Fz i.alpha (shiftY P i.Fz)| ≤ _
    rw [abs_div, abs_of_pos (by linarith : 0 < cosY P i.Fz i.alpha (shiftY P i.Fz))]
    exact div_le_div₀ zero_le_one (Real.abs_cos_le_one _) (by norm_num) wY
  have bX : |Dx P i.Fz i.gamma| + |Vx P i.Fz| ≤ 954 / 1000 * i.Fz := by
    unfold Dx Vx
    rw [mux_default, hg, d_PVX1, d_PVX2, d_LVX, d_LMUX]
    simp only [ne_eq, OfNat.ofNat_ne_zero, not_false_eq_true, zero_pow, mul_zero, add_zero, mul_one]
    rw [abs_mul, abs_mul, abs_of_pos h0, abs_of_pos (by linarith : 0 < 177 / 200 - 5653 / 100000 * dfz P i.Fz)]
    have : |1913 / 100000 + 1327 / 50000 * dfz P i.Fz| ≤ 954 / 1000 - (177 / 200 - 5653 / 100000 * dfz P i.Fz) := by
      rw [abs_le]
      constructor <;> linarith
    nlinarith
  have bY : |Dy P i.Fz i.gamma| + |Vy P i.Fz i.gamma| ≤ 1062 / 1000 * i.Fz := by
    unfold Dy Vy
    rw [muy_default, hg, d_PVY1, d_PVY2, d_LVY, d_LMUY]
    simp only [ne_eq, OfNat.ofNat_ne_zero, not_false_eq_true, zero_pow, mul_zero, add_zero, mul_one]
    rw [abs_mul, abs_mul, abs_of_pos h0, abs_of_pos (by linarith : 0 < 8271 / 10000 - 1153 / 5000 * dfz P i.Fz)]
    have : |2989 / 500000 + 4073 / 500000 * dfz P i.Fz| ≤ 1062 / 1000 - (8271 / 10000 - 1153 / 5000 * dfz P i.Fz) := by
      rw [abs_le]
      constructor <;> linarith
    nlinarith
  have bI : |Dy P i.Fz i.gamma * (P "RVY1" + P "RVY2" * dfz P i.Fz + P "RVY3" * i.gamma) * P "LVYKA"| ≤ 52 / 1000 * i.Fz := by
    unfold Dy
    rw [muy_default, hg, d_RVY1, d_RVY2, d_LVYKA]
    simp only [ne_eq, OfNat.ofNat_ne_zero, not_false_eq_true, zero_pow, mul_zero, add_zero, mul_one]
    rw [abs_mul, abs_mul, abs_of_pos h0, abs_of_pos (by linarith : 0 < 8271 / 10000 - 1153 / 5000 * dfz P i.Fz)]
    have h2 : |-(2541 / 100000) + 2259 / 100000 * dfz P i.Fz| ≤ 48 / 1000 := by
      rw [abs_le]
      constructor <;> linarith
    have h3 : (8271 / 10000 - 1153 / 5000 * dfz P i.Fz) * |-(2541 / 100000) + 2259 / 100000 * dfz P i.Fz| ≤ 52 / 1000 := by
      refine (mul_le_mul (by linarith : 8271 / 10000 - 1153 / 5000 * dfz P i.Fz ≤ 10578 / 10000) h2 (abs_nonneg _) (by norm_num)).trans ?_
      norm_num
    nlinarith
  constructor
  · refine l1.trans ((mul_le_mul gX bX (by positivity) (by norm_num)).trans ?_)
    nlinarith
  · refine l2.trans ((add_le_add (mul_le_mul gY bY (by positivity) (by norm_num)) bI).trans ?_)
    nlinarith

/-- **C82** (the default tyre drives, brakes and corners). Without slip angle the longitudinal force of the default tyre, less its shift, has
the sign of the shifted slip ratio; without slip ratio the side force, less its shift, has the opposite sign of the shifted slip angle. -/
theorem C82_default_direction {opt : Bool} {i : In} {o : Out} (h : Gives defaults opt i o) (h0 : 0 < i.Fz) (h1 : i.Fz ≤ 40000) :
    (i.alpha = 0 → ((0 < o.Fx - Vx P i.Fz ↔ 0 < i.kappa + Hx P i.Fz) ∧ (o.Fx - Vx P i.Fz < 0 ↔ i.kappa + Hx P i.Fz < 0))) ∧
    (i.kappa = 0 → |i.gamma| ≤ 1 → ((0 < o.Fy - Vy P i.Fz i.gamma ↔ i.alpha + Hy P i.Fz i.gamma < 0) ∧
      (o.Fy - Vy P i.Fz i.gamma < 0 ↔ 0 < i.alpha + Hy P i.Fz i.gamma))) := by
  have e := (gives_inv h).2
  refine ⟨fun ha => ?_, fun hk hg => ?_⟩
  · refine C82_direction_x h ha (by rw [Cx_default]; norm_num) (by rw [Cx_default]; norm_num) (Dx_pos h0 h1 _) (by rw [d_epsilonx]; norm_num) ?_
    rw [e]
    exact Kx_pos h0 h1
  · refine C82_direction_y h hk (by rw [Cy_default]; norm_num) (by rw [Cy_default]; norm_num) (Dy_pos h0 h1 _) (by rw [d_epsilony]; norm_num) ?_
    rw [e]
    exact Ky_neg h0 hg

/-- **C82** (the peak of the default tyre). At every load up to 10 kN, without slip angle and camber, the largest longitudinal force over all slip ratios
is exactly the friction coefficient times the load, plus the shift. -/
theorem C82_default_peak (opt : Bool) (Fz : ℝ) (h0 : 0 < Fz) (h1 : Fz ≤ 10000) (v : ℝ) :
    IsGreatest {F | ∃ kappa o, Gives defaults opt ⟨Fz, kappa, 0, v, 0⟩ o ∧ F = o.Fx}
      ((177 / 200 - 5653 / 100000 * (Fz / (47083 / 5) - 1)) * Fz + Fz * (1913 / 100000 + 1327 / 50000 * (Fz / (47083 / 5) - 1))) := by
  have h2 : Fz ≤ 40000 := by linarith
  obtain ⟨o, ho⟩ := C82_default_defined opt ⟨Fz, 0, 0, v, 0⟩ h0 h2 (Or.inr (by simp))
  have hd := dfz_gt h0
  have hd' : dfz P Fz ≤ 1 / 10 := by
    rw [dfz_default]
    have : Fz / (47083 / 5) ≤ 10000 / (47083 / 5) := by gcongr
    norm_num at this
    linarith
  have := C82_peak (i := ⟨Fz, 0, 0, v, 0⟩) ho (fun kappa => by
    have := cosX_ge h0 (dfz_le h2) (by norm_num) kappa
    norm_num at this
    show cosX P Fz kappa (P "RHX1") ≠ 0
    linarith) (by rw [Cx_default]; norm_num) (Dx_pos h0 h2 _) (by rw [d_epsilonx]; norm_num)
    (by rw [(gives_inv ho).2]; exact Kx_pos h0 h2)
    (by
      unfold Ex
      rw [Real.sign_of_pos one_pos, d_PEX1, d_PEX2, d_PEX3, d_PEX4, d_LEX]
      refine (min_le_left _ _).trans_lt ?_
      nlinarith [sq_nonneg (dfz P Fz)])
  have e : Dx P Fz 0 + Vx P Fz =
      (177 / 200 - 5653 / 100000 * (Fz / (47083 / 5) - 1)) * Fz + Fz * (1913 / 100000 + 1327 / 50000 * (Fz / (47083 / 5) - 1)) := by
    unfold Dx Vx
    rw [mux_default, d_PVX1, d_PVX2, d_LVX, d_LMUX, dfz_default]
    ring
  simp only at this
  rwa [e] at this

/-- **C82** (force without slip, finding). At its nominal load, rolling freely and straight, the default tyre drives the car forward with more
than 180 N. -/
theorem C82_default_rolling {opt : Bool} {o : Out} {v : ℝ} (h : Gives defaults opt ⟨47083 / 5, 0, 0, v, 0⟩ o) : 180 < o.Fx := by
  have e : dfz P (47083 / 5) = 0 := by
    rw [dfz_default]
    norm_num
  have h1 := (((C82_default_direction h (by norm_num) (by norm_num)).1 rfl).1).mpr (by
    unfold Hx
    rw [e, d_PHX1, d_PHX2, d_LHX]
    norm_num)
  have h2 : Vx P (47083 / 5) = 47083 / 5 * (1913 / 100000) := by
    unfold Vx
    rw [e, d_PVX1, d_PVX2, d_LVX, d_LMUX]
    ring
  rw [h2] at h1
  norm_num at h1
  linarith

/-- **C82** (reversed weight, finding). At the largest load and the largest slip angle of the parameter file, without slip ratio, the weight of
the longitudinal force is negative: the slip angle does not only take away longitudinal force but turns its direction around. -/
theorem C82_default_reversed {opt : Bool} {o : Out} {v gamma : ℝ} (h : Gives defaults opt ⟨102349 / 5, 0, 3 / 2, v, gamma⟩ o) : o.Gxa < 0 := by
  obtain ⟨-, rfl⟩ := gives_inv h
  show cosX P (102349 / 5) 0 (3 / 2 + P "RHX1") / cosX P (102349 / 5) 0 (P "RHX1") < 0
  have hpi := Real.pi_gt_d2
  have hpi' := Real.pi_lt_d2
  have e : dfz P (102349 / 5) = 55266 / 47083 := by
    rw [dfz_default]
    norm_num
  have hden : 0 < cosX P (102349 / 5) 0 (P "RHX1") := by
    have := cosX_ge (Fz := 102349 / 5) (by norm_num) (dfz_le' le_rfl) (by norm_num) 0
    norm_num at this
    linarith
  refine div_neg_of_neg_of_pos ?_ hden
  have hs : slopeX P 0 = 9509 / 1000 := by
    unfold slopeX
    rw [d_RBX1, d_LXAL]
    simp
  have hb : bendX P (102349 / 5) ≤ -(73 / 10) := by
    unfold bendX
    rw [d_REX1, d_REX2, e]
    refine (min_le_left _ _).trans ?_
    norm_num
  unfold cosX curve
  rw [hs, d_RHX1, d_RCX1]
  set t : ℝ := 9509 / 1000 * (3 / 2 + 10039 / 1000000) with ht
  have ht0 : (14358 / 1000 : ℝ) ≤ t ∧ t ≤ 1436 / 100 := by
    rw [ht]
    constructor <;> norm_num
  have ha := Real.arctan_lt_pi_div_two t
  have hu : (107 : ℝ) ≤ t - bendX P (102349 / 5) * (t - Real.arctan t) := by nlinarith
  set u := t - bendX P (102349 / 5) * (t - Real.arctan t)
  have hu0 : 0 < u := by linarith
  have h1 : Real.pi / 2 - 1 / 107 ≤ Real.arctan u := by
    have h2 := Real.arctan_inv_of_pos hu0
    have h3 := arctan_le_self (u := u⁻¹) (by positivity)
    have h4 : u⁻¹ ≤ 107⁻¹ := by gcongr
    norm_num at h4 ⊢
    linarith
  have h2 := Real.arctan_lt_pi_div_two u
  apply Real.cos_neg_of_pi_div_two_lt_of_lt
  · norm_num at h1
    nlinarith
  · nlinarith

/-- **C82** (no grip, finding). At one load above 43 kN the lateral peak of the default tyre is zero and the tyre returns no numbers. -/
theorem C82_default_overload {opt : Bool} {i : In} {o : Out} (h : i.Fz = 47083 / 5 * (1 + 8271 / 2306)) : ¬Gives defaults opt i o := by
  intro hg
  apply (gives_inv hg).1.lat
  have e : Dy P i.Fz i.gamma = 0 := by
    unfold Dy
    rw [muy_default, dfz_default, h]
    norm_num
  simp [denY, e]

end Lumos.Tyre
