import Verif.Tyre.Mirror
import Verif.Tyre.Default
/-!
# C84: a symmetric tyre exists, and the default tyre is not symmetric
-/

namespace Lumos.Tyre

open Lumos Io Veh

/-- The parameters without handedness. -/
noncomputable def zeroed (d : Dict ℝ) : Dict ℝ := d.map fun kv => (kv.1, if kv.1 ∈ handed then 0 else kv.2)

theorem lookup_zeroed (d : Dict ℝ) (k : String) : (zeroed d).lookup k = (d.lookup k).map fun v => if k ∈ handed then 0 else v := by
  unfold zeroed
  induction d with
  | nil => rfl
  | cons kv d ih =>
    obtain ⟨k', v⟩ := kv
    simp only [List.map_cons, List.lookup_cons]
    by_cases h : k = k'
    · subst h
      simp
    · rw [beq_eq_false_iff_ne.mpr h]
      exact ih

theorem par_zeroed (d : Dict ℝ) {k : String} (h : k ∉ handed) : par (zeroed d) k = par d k := by
  unfold par
  simp only [lookup_zeroed, h, if_false]
  rcases d.lookup k with _ | v <;> rfl

theorem par_zeroed' (d : Dict ℝ) {k : String} (h : k ∈ handed) : par (zeroed d) k = 0 := by
  unfold par
  simp only [lookup_zeroed, h, if_true]
  rcases d.lookup k with _ | v <;> rfl

theorem hasKeys_zeroed {d : Dict ℝ} {opt : Bool} (h : HasKeys d opt) : HasKeys (zeroed d) opt := by
  intro k hk
  rw [lookup_zeroed, Option.isSome_map]
  exact h k hk

/-- **C84** (the symmetric case exists). The default tyre without its handed parameters is defined for every load up to 40 kN, so that
`C84_symmetric` speaks about it. -/
theorem C84_symmetric_case (opt : Bool) (Fz kappa v : ℝ) (h0 : 0 < Fz) (h : Fz ≤ 40000) :
    ∃ o, Gives (zeroed defaults) opt ⟨Fz, kappa, 0, v, 0⟩ o ∧ o.Fy = 0 ∧ o.Mx = 0 ∧ o.Mz = 0 := by
  have hz : ∀ k, k ∉ handed → par (zeroed defaults) k = par defaults k := fun k hk => par_zeroed _ hk
  have hf := finite_default (i := ⟨Fz, kappa, 0, v, 0⟩) h0 h
  have hm := moments_default (i := ⟨Fz, kappa, 0, v, 0⟩) h0 (by simp)
  have hd : dfz (par (zeroed defaults)) Fz = dfz (par defaults) Fz := by
    unfold dfz
    rw [hz "LFZO" (by decide), hz "FNOMIN" (by decide)]
  have hs : speed (par (zeroed defaults)) v 0 = speed (par defaults) v 0 := by
    unfold speed
    rw [hz "epsilonv" (by decide)]
  have hsh : shiftY (par (zeroed defaults)) Fz = shiftY (par defaults) Fz := by
    unfold shiftY
    rw [hd, hz "RHY1" (by decide), hz "RHY2" (by decide)]
  have hfin : Finite (par (zeroed defaults)) ⟨Fz, kappa, 0, v, 0⟩ := by
    refine ⟨?_, ?_, ?_, ?_, ?_, ?_, ?_, ?_⟩
    · rw [hz "LFZO" (by decide), hz "FNOMIN" (by decide)]
      exact hf.nominal
    · rw [hz "PKY2" (by decide)]
      exact hf.stiff
    · simp only [hs]
      exact hf.moving
    · simp only [hs]
      exact hf.cosine
    · have e : denX (par (zeroed defaults)) Fz 0 = denX (par defaults) Fz 0 := by
        unfold denX Cx Dx mux
        rw [hd, hz "PCX1" (by decide), hz "LCX" (by decide), hz "PDX1" (by decide), hz "PDX2" (by decide), hz "PDX3" (by decide),
          hz "LMUX" (by decide), hz "epsilonx" (by decide)]
      simp only [e]
      exact hf.lon
    · have e : denY (par (zeroed defaults)) Fz 0 = denY (par defaults) Fz 0 := by
        unfold denY Cy Dy muy
        rw [hd, hz "PCY1" (by decide), hz "LCY" (by decide), hz "PDY1" (by decide), hz "PDY2" (by decide), hz "PDY3" (by decide),
          hz "LMUY" (by decide), hz "epsilony" (by decide)]
      simp only [e]
      exact hf.lat
    · rw [par_zeroed' defaults (k := "RHX1") (by decide)]
      unfold cosX
      rw [curve_zero]
      simp
    · simp only [hsh]
      unfold cosY
      have h1 : 1 - (5321 / 5000 * (51 / 10000 + (1 + 13 / 4) * (51 / 10000) ^ 3)) ^ 2 / 2 ≤ Real.cos (par (zeroed defaults) "RCY1" *
          curve (slopeY (par (zeroed defaults)) 0) (bendY (par (zeroed defaults)) Fz) (shiftY (par defaults) Fz)) := by
        apply one_sub_le_cos
        · rw [hz "RCY1" (by decide), d_RCY1, abs_of_pos (by norm_num)]
        · refine abs_curve_le ?_ (e := 1 + 13 / 4) ?_
          · rw [abs_mul]
            have hsl : |slopeY (par (zeroed defaults)) 0| ≤ 2521 / 500 := by
              unfold slopeY
              rw [hz "RBY1" (by decide), hz "LYKA" (by decide), d_RBY1, d_LYKA, mul_one, abs_mul,
                abs_of_pos (by norm_num : (0 : ℝ) < 2521 / 500)]
              exact mul_le_of_le_one_right (by norm_num) (Real.abs_cos_le_one _)
            exact (mul_le_mul hsl (shiftY_le h0 (dfz_le h)) (abs_nonneg _) (by norm_num)).trans (by norm_num)
          · have e : bendY (par (zeroed defaults)) Fz = bendY (par defaults) Fz := by
              unfold bendY
              rw [hd, hz "REY1" (by decide), hz "REY2" (by decide)]
            rw [e]
            exact bendY_le h0 (dfz_le h) (by norm_num)
      norm_num at h1 ⊢
      linarith
  have hfm : FiniteMoments (par (zeroed defaults)) ⟨Fz, kappa, 0, v, 0⟩ := by
    refine ⟨?_, ?_, ?_⟩
    · rw [hz "LONGVL" (by decide)]
      exact hm.speed
    · rw [hz "LMUY" (by decide)]
      exact hm.friction
    · have e : Kyp (par (zeroed defaults)) Fz 0 = Kyp (par defaults) Fz 0 := by
        unfold Kyp Ky
        rw [hz "PKY1" (by decide), hz "PKY2" (by decide), hz "PKY3" (by decide), hz "LKY" (by decide), hz "LFZO" (by decide),
          hz "FNOMIN" (by decide), hz "epsilonk" (by decide)]
      simp only [e]
      exact hm.stiffness
  have hg : ∃ o, Gives (zeroed defaults) opt ⟨Fz, kappa, 0, v, 0⟩ o :=
    ⟨_, (gives_iff _ _ _ _ (hasKeys_zeroed (hasKeys_default opt))).mpr ((forces_iff _ _ _ _).mpr ⟨hfin, fun _ => hfm, rfl⟩)⟩
  obtain ⟨o, ho⟩ := hg
  refine ⟨o, ho, C84_symmetric ?_ ho rfl rfl⟩
  rintro ⟨k, x⟩ hm hk
  unfold zeroed at hm
  simp only [List.mem_map, Prod.mk.injEq] at hm
  obtain ⟨⟨k', v'⟩, -, rfl, rfl⟩ := hm
  exact if_pos hk

/-- **C84** (the default tyre is handed, finding). At its nominal load, upright, rolling straight and freely, the default tyre pulls to one
side: with equal signs of all inputs, mirroring it is not the same tyre. -/
theorem C84_default_handed {opt : Bool} {o : Out} {v : ℝ} (h : Gives defaults opt ⟨47083 / 5, 0, 0, v, 0⟩ o) : o.Fy < 0 := by
  have hpi := Real.pi_gt_d2
  have hpi' := Real.pi_lt_d2
  rw [((C82_pure h).2 rfl).2]
  simp only
  have e : dfz (par defaults) (47083 / 5) = 0 := by
    rw [dfz_default]
    norm_num
  have eH : Hy (par defaults) (47083 / 5) 0 = 1119 / 250000 := by
    unfold Hy
    rw [e, d_PHY1, d_LHY]
    ring
  have eV : Vy (par defaults) (47083 / 5) 0 = 47083 / 5 * (2989 / 500000) := by
    unfold Vy
    rw [e, d_PVY1, d_LVY, d_LMUY]
    ring
  have eD : Dy (par defaults) (47083 / 5) 0 = 8271 / 10000 * (47083 / 5) := by
    unfold Dy
    rw [muy_default, e]
    ring
  have eden : denY (par defaults) (47083 / 5) 0 = 1889 / 1000 * (8271 / 10000 * (47083 / 5)) + 1 / 1000 := by
    unfold denY
    rw [Cy_default, eD, d_epsilony, Real.sign_of_pos (by norm_num)]
    ring
  -- a lower bound of a sine of a small angle
  have jordan : ∀ x : ℝ, 0 ≤ x → x ≤ 3 / 2 → 63 / 100 * x ≤ Real.sin x := by
    intro x h0 h1
    have := Real.mul_le_sin h0 (by linarith)
    have h2 : (63 / 100 : ℝ) ≤ 2 / Real.pi := by
      rw [le_div_iff₀ Real.pi_pos]
      linarith
    nlinarith
  have eK : Ky (par defaults) (47083 / 5) 0 ≤ -43000 := by
    unfold Ky
    rw [d_PKY1, d_PKY2, d_PKY3, d_LKY, d_LFZO, d_FNOMIN]
    have e2 : (47083 / 5 / (1 * (47083 / 5)) / (947 / 125) : ℝ) = 125 / 947 := by norm_num
    rw [e2]
    have h1 := le_arctan (t := 125 / 947) (by norm_num)
    have h2 := arctan_le_self (u := 125 / 947) (by norm_num)
    norm_num at h1 h2
    have h3 := jordan (2 * Real.arctan (125 / 947)) (by linarith) (by linarith)
    rw [abs_zero]
    nlinarith
  have eB : By (par defaults) (47083 / 5) 0 ≤ -(29 / 10) := by
    unfold By
    rw [eden, div_le_iff₀ (by norm_num)]
    refine eK.trans ?_
    norm_num
  unfold pureY
  rw [zero_add, eH, eV, eD, Cy_default]
  have hE := Ey_le (par defaults) (47083 / 5) 0 (1119 / 250000)
  have ht : (1298 / 100000 : ℝ) ≤ -(By (par defaults) (47083 / 5) 0 * (1119 / 250000)) := by nlinarith
  set t := -(By (par defaults) (47083 / 5) 0 * (1119 / 250000)) with htd
  have h1 : (129 / 10000 : ℝ) ≤ Real.arctan t := by
    refine le_trans ?_ (Real.arctan_mono ht)
    refine le_trans ?_ (le_arctan (by norm_num))
    norm_num
  have hx : By (par defaults) (47083 / 5) 0 * (1119 / 250000) = -t := by
    rw [htd]
    ring
  have hc : curve (By (par defaults) (47083 / 5) 0) (Ey (par defaults) (47083 / 5) 0 (1119 / 250000)) (1119 / 250000) =
      -Real.arctan (t - Ey (par defaults) (47083 / 5) 0 (1119 / 250000) * (t - Real.arctan t)) := by
    unfold curve
    rw [hx, ← Real.arctan_neg, Real.arctan_neg t]
    congr 1
    ring
  rw [hc, mul_neg, Real.sin_neg]
  have hu : (129 / 10000 : ℝ) ≤ t - Ey (par defaults) (47083 / 5) 0 (1119 / 250000) * (t - Real.arctan t) := by
    have := sub_arctan_nonneg (t := t) (by linarith)
    nlinarith
  have hu' : t - Ey (par defaults) (47083 / 5) 0 (1119 / 250000) * (t - Real.arctan t) ≤ 1 / 10 := by
    have hE0 : 0 ≤ Ey (par defaults) (47083 / 5) 0 (1119 / 250000) := by
      unfold Ey
      rw [e, d_PEY1, d_PEY2, d_PEY3, d_PEY4, d_LEY, Real.sign_of_pos (by norm_num)]
      norm_num
    have hK : -274100 ≤ Ky (par defaults) (47083 / 5) 0 := by
      unfold Ky
      rw [d_PKY1, d_PKY2, d_PKY3, d_LKY, d_LFZO, d_FNOMIN, abs_zero]
      have := Real.sin_le_one (2 * Real.arctan (47083 / 5 / (1 * (47083 / 5)) / (947 / 125)))
      nlinarith
    have hB : -20 ≤ By (par defaults) (47083 / 5) 0 := by
      unfold By
      rw [eden, le_div_iff₀ (by norm_num)]
      refine le_trans ?_ hK
      norm_num
    have := sub_arctan_nonneg (t := t) (by linarith)
    nlinarith
  set u := t - Ey (par defaults) (47083 / 5) 0 (1119 / 250000) * (t - Real.arctan t)
  have h2 : (128 / 10000 : ℝ) ≤ Real.arctan u := by
    refine le_trans ?_ (Real.arctan_mono hu)
    refine le_trans ?_ (le_arctan (by norm_num))
    norm_num
  have h3 := arctan_le_self (u := u) (by linarith)
  have h4 := jordan (1889 / 1000 * Real.arctan u) (by linarith) (by linarith)
  nlinarith

end Lumos.Tyre
