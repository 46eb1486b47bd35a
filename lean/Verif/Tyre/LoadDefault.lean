import Verif.Tyre.Load
import Verif.Tyre.Default
/-!
# C113: the default tyre and its load
-/

namespace Lumos.Tyre

open Lumos Io Veh

/-- The default parameters. -/
local notation "P" => par defaults

/-- The load (about 3249 N) at which the factor `REX1 + REX2 * dfz` of the default tyre is one. -/
noncomputable def cornerLoad : ℝ := 47083 / 5 * (1 - (1 + 3963 / 2000) / (569 / 125))

theorem corner_bounds : 3248 < cornerLoad ∧ cornerLoad < 3249 := by
  unfold cornerLoad
  constructor <;> norm_num

theorem cutX_default {F : ℝ} (h : F ≤ 17300 ∨ 17400 ≤ F) (h0 : 0 < F) (side : ℝ) (hs : side = 1 ∨ side = -1) :
    (P "PEX1" + P "PEX2" * dfz P F + P "PEX3" * dfz P F ^ 2) * (1 - P "PEX4" * side) * P "LEX" ≠ 1 := by
  rw [d_PEX1, d_PEX2, d_PEX3, d_PEX4, d_LEX, dfz_default]
  rcases hs with rfl | rfl
  · intro e
    nlinarith [sq_nonneg (F / (47083 / 5) - 1 + 181 / 1000)]
  · intro e
    rcases h with h | h
    · have h1 : F / (47083 / 5) ≤ 17300 / (47083 / 5) := by gcongr
      have h2 : 0 < F / (47083 / 5) := by positivity
      norm_num at h1
      nlinarith
    · have h1 : 17400 / (47083 / 5) ≤ F / (47083 / 5) := by gcongr
      norm_num at h1
      nlinarith

/-- Up to 40 kN the formulas of the default tyre have no division by zero. -/
theorem bears_default {F : ℝ} (h0 : 0 < F) (h2 : F ≤ 40000) (kappa alpha : ℝ) : Bears P F kappa alpha := by
  have hf : Finite P ⟨F, kappa, alpha, 0, 0⟩ := finite_default h0 h2
  obtain ⟨f1, f2, f3, f4, f5, f6, f7, f8⟩ := hf
  exact ⟨f1, f2, by rw [d_epsilonv]; norm_num, (Dx_pos h0 h2 0).ne', (Dy_pos h0 h2 0).ne', f5, f6, (Kx_pos h0 h2).ne', (Ky_neg h0 (by norm_num)).ne, f7, f8⟩

/-- Up to 40 kN the formulas of the default tyre have neither a division by zero nor a corner, except at about 3249 N and, perhaps, between 17.3 and 17.4 kN. -/
theorem takes_default {F : ℝ} (h0 : 0 < F) (h1 : F ≤ 17300 ∨ 17400 ≤ F) (h2 : F ≤ 40000) (h3 : F ≠ cornerLoad) (kappa alpha : ℝ) : Takes P F kappa alpha := by
  have hd1 := dfz_gt h0
  have hd2 := dfz_le h2
  refine ⟨bears_default h0 h2 kappa alpha, cutX_default h1 h0, ?_, ?_, ?_⟩
  · rintro side (rfl | rfl) <;> rw [d_PEY1, d_PEY2, d_PEY3, d_LEY] <;> intro e <;> nlinarith
  · rw [d_REX1, d_REX2, dfz_default]
    intro e
    apply h3
    unfold cornerLoad
    field_simp at e
    linarith
  · rw [d_REY1, d_REY2]
    intro e
    nlinarith

/-- **C113 (the tyre).** The forces of an upright MF5.2 tyre are twice continuously differentiable in the load and both slips together, at every load and slips at which its
formulas have neither a division by zero nor a corner, whatever the parameters. -/
theorem C113_tyre {d : Dict ℝ} (hd : HasKeys d true) (v : ℝ) {F kappa alpha : ℝ} (h : Takes (par d) F kappa alpha) {Fx Fy : ℝ × ℝ × ℝ → ℝ}
    (hF : ∀ F kappa alpha o, Gives d true ⟨F, kappa, alpha, v, 0⟩ o → Fx (F, kappa, alpha) = o.Fx ∧ Fy (F, kappa, alpha) = o.Fy) :
    ContDiffAt ℝ 2 Fx (F, kappa, alpha) ∧ ContDiffAt ℝ 2 Fy (F, kappa, alpha) := by
  have h1 : ContDiffAt ℝ 2 (fun q : ℝ × ℝ × ℝ => q.1) (F, kappa, alpha) := contDiffAt_fst
  have h2 : ContDiffAt ℝ 2 (fun q : ℝ × ℝ × ℝ => q.2.1) (F, kappa, alpha) := contDiffAt_fst.comp _ contDiffAt_snd
  have h3 : ContDiffAt ℝ 2 (fun q : ℝ × ℝ × ℝ => q.2.2) (F, kappa, alpha) := contDiffAt_snd.comp _ contDiffAt_snd
  obtain ⟨s1, s2⟩ := forces_smooth (k := 2) le_rfl (fun _ => v) h1 h2 h3 h.toBears (.inr h)
  have hn := finite_near (k := 2) (fun _ => v) h1 h2 h3 h.toBears (.inr h)
  have key : ∀ q : ℝ × ℝ × ℝ, Finite (par d) ⟨q.1, q.2.1, q.2.2, v, 0⟩ → Fx q = forceX (par d) ⟨q.1, q.2.1, q.2.2, v, 0⟩ ∧ Fy q = forceY (par d) ⟨q.1, q.2.1, q.2.2, v, 0⟩ :=
    fun q hq => hF q.1 q.2.1 q.2.2 _ ((gives_iff _ _ _ _ hd).mpr ((forces_iff _ _ _ _).mpr ⟨hq, fun h => absurd h (by decide), rfl⟩))
  constructor
  · refine s1.congr_of_eventuallyEq ?_
    filter_upwards [hn] with q hq
    exact (key q hq).1
  · refine s2.congr_of_eventuallyEq ?_
    filter_upwards [hn] with q hq
    exact (key q hq).2

/-- **C113 (the default tyre).** The forces of the upright default tyre are twice continuously differentiable in load and slips at all slips and all loads up to 40 kN but one (about
3249 N) and some between 17.3 and 17.4 kN. -/
theorem C113_default_tyre (v : ℝ) {F : ℝ} (h0 : 0 < F) (h1 : F ≤ 17300 ∨ 17400 ≤ F) (h2 : F ≤ 40000) (h3 : F ≠ cornerLoad) (kappa alpha : ℝ) {Fx Fy : ℝ × ℝ × ℝ → ℝ}
    (hF : ∀ F kappa alpha o, Gives defaults true ⟨F, kappa, alpha, v, 0⟩ o → Fx (F, kappa, alpha) = o.Fx ∧ Fy (F, kappa, alpha) = o.Fy) :
    ContDiffAt ℝ 2 Fx (F, kappa, alpha) ∧ ContDiffAt ℝ 2 Fy (F, kappa, alpha) :=
  C113_tyre (hasKeys_default true) v (takes_default h0 h1 h2 h3 kappa alpha) hF

/-! ## The corner -/

theorem min_of_lt {F : ℝ} (h : F ≤ cornerLoad) : bendX P F = 1 := by
  unfold bendX
  rw [d_REX1, d_REX2, dfz_default]
  refine min_eq_right ?_
  unfold cornerLoad at h
  have : F / (47083 / 5) ≤ 1 - (1 + 3963 / 2000) / (569 / 125) := by
    rw [div_le_iff₀ (by norm_num)]
    linarith
  linarith

theorem min_of_gt {F : ℝ} (h : cornerLoad ≤ F) : bendX P F = -(3963 / 2000) + -(569 / 125) * (F / (47083 / 5) - 1) := by
  unfold bendX
  rw [d_REX1, d_REX2, dfz_default]
  refine min_eq_left ?_
  unfold cornerLoad at h
  have : 1 - (1 + 3963 / 2000) / (569 / 125) ≤ F / (47083 / 5) := by
    rw [le_div_iff₀ (by norm_num)]
    linarith
  linarith

/-- The slip ratio at which the longitudinal force of a pure slip at the corner is the vertical shift. -/
noncomputable def cornerKappa : ℝ := -Hx P cornerLoad

theorem slope_pos : 0 < slopeX P cornerKappa := by
  unfold slopeX
  rw [d_RBX1, d_LXAL]
  have := Real.cos_arctan_pos (P "RBX2" * cornerKappa)
  positivity

theorem pure_ne : pureX P cornerLoad 0 cornerKappa ≠ 0 := by
  have e : pureX P cornerLoad 0 cornerKappa = Vx P cornerLoad := by
    unfold pureX cornerKappa
    rw [neg_add_cancel]
    simp [curve]
  rw [e]
  unfold Vx
  rw [d_PVX1, d_PVX2, d_LVX, d_LMUX, dfz_default]
  have h := corner_bounds
  refine (ne_of_gt ?_)
  have h2 : 0 < 1913 / 100000 + 1327 / 50000 * (cornerLoad / (47083 / 5) - 1) := by
    have : 3248 / (47083 / 5) ≤ cornerLoad / (47083 / 5) := by
      have := h.1.le
      gcongr
    norm_num at this ⊢
    linarith
  have h3 : 0 < cornerLoad := by linarith [h.1]
  positivity

theorem pure_diff : DifferentiableAt ℝ (fun F => pureX P F 0 cornerKappa) cornerLoad := by
  have h := corner_bounds
  have h0 : 0 < cornerLoad := by linarith [h.1]
  have h1 : cornerLoad ≤ 40000 := by linarith [h.2]
  have hD := Dx_pos h0 h1 0
  have hf : Finite P ⟨cornerLoad, 0, 0, 0, 0⟩ := finite_default h0 h1
  exact (pureX_smooth (k := 2) le_rfl (p := P) (F := fun F => F) (κ := fun _ => cornerKappa) contDiffAt_id contDiffAt_const hD.ne' hf.lon (Kx_pos h0 h1).ne'
    (.inr (cutX_default (Or.inl (by linarith [h.2])) h0))).differentiableAt (by norm_num)

/-- The weight before normalisation has a corner. -/
theorem cos_corner : ¬ DifferentiableAt ℝ (fun F => cosX P F cornerKappa (P "RHX1")) cornerLoad := by
  intro hd
  set B := slopeX P cornerKappa with hB
  set t := B * P "RHX1" with ht
  have tpos : 0 < t := by
    rw [ht, d_RHX1]
    have := slope_pos
    positivity
  have apos : 0 < Real.arctan t := Real.arctan_pos.mpr tpos
  have βpos : 0 < t - Real.arctan t := by
    have := Real.lt_tan apos (Real.arctan_lt_pi_div_two t)
    rw [Real.tan_arctan] at this
    linarith
  -- left of the corner
  have hl : HasDerivWithinAt (fun F => cosX P F cornerKappa (P "RHX1")) 0 (Set.Iic cornerLoad) cornerLoad := by
    refine (hasDerivWithinAt_const cornerLoad (Set.Iic cornerLoad) (cosX P cornerLoad cornerKappa (P "RHX1"))).congr ?_ rfl
    intro F hF
    unfold cosX
    rw [min_of_lt hF, min_of_lt le_rfl]
  -- right of it
  let m : ℝ → ℝ := fun F => -(3963 / 2000) + -(569 / 125) * (F / (47083 / 5) - 1)
  have hm1 : m cornerLoad = 1 := by
    show -(3963 / 2000) + -(569 / 125) * (cornerLoad / (47083 / 5) - 1) = 1
    unfold cornerLoad
    norm_num
  have hm : HasDerivAt m (-(569 / 125) * (1 / (47083 / 5))) cornerLoad :=
    ((((hasDerivAt_id cornerLoad).div_const (47083 / 5)).sub_const 1).const_mul (-(569 / 125))).const_add (-(3963 / 2000))
  have hr : HasDerivWithinAt (fun F => cosX P F cornerKappa (P "RHX1"))
      (-Real.sin (10061 / 10000 * Real.arctan (t - m cornerLoad * (t - Real.arctan t))) *
        (10061 / 10000 * (1 / (1 + (t - m cornerLoad * (t - Real.arctan t)) ^ 2) * -(-(569 / 125) * (1 / (47083 / 5)) * (t - Real.arctan t))))) (Set.Ici cornerLoad) cornerLoad := by
    have h1 : HasDerivAt (fun F => t - m F * (t - Real.arctan t)) (-(-(569 / 125) * (1 / (47083 / 5)) * (t - Real.arctan t))) cornerLoad :=
      (hm.mul_const _).const_sub _
    refine ((h1.arctan.const_mul (10061 / 10000)).cos.hasDerivWithinAt).congr ?_ ?_
    · intro F hF
      unfold cosX curve
      rw [min_of_gt hF, d_RCX1]
    · unfold cosX curve
      rw [min_of_gt le_rfl, d_RCX1]
  have u1 := (uniqueDiffOn_Iic cornerLoad _ Set.self_mem_Iic).eq_deriv _ hl hd.hasDerivAt.hasDerivWithinAt
  have u2 := (uniqueDiffOn_Ici cornerLoad _ Set.self_mem_Ici).eq_deriv _ hr hd.hasDerivAt.hasDerivWithinAt
  rw [← u1] at u2
  rw [hm1] at u2
  have e : t - 1 * (t - Real.arctan t) = Real.arctan t := by ring
  rw [e] at u2
  have s : 0 < Real.sin (10061 / 10000 * Real.arctan (Real.arctan t)) := by
    apply Real.sin_pos_of_pos_of_lt_pi
    · have := Real.arctan_pos.mpr apos
      positivity
    · have := Real.arctan_lt_pi_div_two (Real.arctan t)
      have := Real.pi_pos
      linarith
  have : 0 < 1 + Real.arctan t ^ 2 := by positivity
  have h4 : 0 < 10061 / 10000 * (1 / (1 + Real.arctan t ^ 2) * -(-(569 / 125) * (1 / (47083 / 5)) * (t - Real.arctan t))) := by
    have : 0 < -(-(569 / 125) * (1 / (47083 / 5)) * (t - Real.arctan t)) := by
      have : -(-(569 / 125) * (1 / (47083 / 5)) * (t - Real.arctan t)) = 569 / 125 * (1 / (47083 / 5)) * (t - Real.arctan t) := by ring
      rw [this]
      positivity
    positivity
  have := mul_pos s h4
  linarith

/-- **C113 (a corner in the middle of the loads).** At about 3249 N — a third of the nominal load — the longitudinal force of the default tyre is not
differentiable in the load, at small slips. -/
theorem C113_corner (v : ℝ) : ∃ F0 kappa alpha : ℝ, 3248 < F0 ∧ F0 < 3249 ∧ |kappa| < 1 / 1000 ∧ |alpha| < 11 / 1000 ∧
    (∀ F, 0 < F → F ≤ 40000 → ∃ o, Gives defaults true ⟨F, kappa, alpha, v, 0⟩ o) ∧
    ∀ Fx : ℝ → ℝ, (∀ F o, Gives defaults true ⟨F, kappa, alpha, v, 0⟩ o → Fx F = o.Fx) → ¬ DifferentiableAt ℝ Fx F0 := by
  have hb := corner_bounds
  refine ⟨cornerLoad, cornerKappa, -P "RHX1", hb.1, hb.2, ?_, ?_, ?_, ?_⟩
  · unfold cornerKappa Hx
    rw [d_PHX1, d_PHX2, d_LHX, dfz_default]
    have h1 : 3248 / (47083 / 5) ≤ cornerLoad / (47083 / 5) := by have := hb.1.le; gcongr
    have h2 : cornerLoad / (47083 / 5) ≤ 3249 / (47083 / 5) := by have := hb.2.le; gcongr
    rw [abs_lt]
    norm_num at h1 h2 ⊢
    constructor <;> linarith
  · rw [abs_neg, d_RHX1]
    norm_num [abs_of_pos]
  · intro F h0 h1
    exact ⟨_, (gives_iff _ _ _ _ (hasKeys_default true)).mpr ((forces_iff _ _ _ _).mpr ⟨finite_default h0 h1, fun h => absurd h (by decide), rfl⟩)⟩
  · intro Fx hFx hd
    have key : ∀ F, 0 < F → F ≤ 40000 → Fx F = forceX P ⟨F, cornerKappa, -P "RHX1", v, 0⟩ := by
      intro F h0 h1
      exact hFx F _ ((gives_iff _ _ _ _ (hasKeys_default true)).mpr ((forces_iff _ _ _ _).mpr ⟨finite_default h0 h1, fun h => absurd h (by decide), rfl⟩))
    have hcne : ∀ F, 0 < F → F ≤ 40000 → cosX P F cornerKappa (P "RHX1") ≠ 0 := fun F h0 h1 =>
      (finite_default (i := ⟨F, cornerKappa, 0, 0, 0⟩) h0 h1).weightX
    have near : ∀ᶠ F in nhds cornerLoad, 0 < F ∧ F ≤ 40000 := by
      filter_upwards [Ioo_mem_nhds (show (0 : ℝ) < cornerLoad by linarith [hb.1]) (show cornerLoad < 40000 by linarith [hb.2])] with F hF
      exact ⟨hF.1, hF.2.le⟩
    -- the force is the pure force over the weight
    have hf : ∀ᶠ F in nhds cornerLoad, Fx F = pureX P F 0 cornerKappa / cosX P F cornerKappa (P "RHX1") := by
      filter_upwards [near] with F hF
      rw [key F hF.1 hF.2]
      have : cosX P F cornerKappa (-P "RHX1" + P "RHX1") = 1 := by
        unfold cosX curve
        rw [neg_add_cancel]
        simp
      show weightX P F cornerKappa (-P "RHX1") * pureX P F 0 cornerKappa = _
      unfold weightX
      rw [this]
      ring
    have hp := pure_ne
    have hpd := pure_diff
    have h0 : Fx cornerLoad ≠ 0 := by
      rw [hf.self_of_nhds]
      exact div_ne_zero hp (hcne _ (by linarith [hb.1]) (by linarith [hb.2]))
    refine cos_corner ((hpd.div hd h0).congr_of_eventuallyEq ?_)
    filter_upwards [hf, near, hpd.continuousAt.eventually (isOpen_ne.mem_nhds hp)] with F h1 h2 h3
    have := hcne F h2.1 h2.2
    show _ = pureX P F 0 cornerKappa / Fx F
    rw [h1]
    field_simp

end Lumos.Tyre
