import Verif.Tyre.Props
/-!
# C82: the forces of the MF5.2 tyre, for every set of parameters
-/

namespace Lumos.Tyre

open Lumos Io Veh

/-! ## C82 -/

/-- **C82** (exactly when, and exactly what). With all parameters present, the tyre returns numbers exactly when no denominator of the
formulas is zero and the cosine of the slip angle of the contact patch is one; they are then the values of the formulas, with zero moments in
the mode for optimisation. -/
theorem C82_value (d : Dict ℝ) (opt : Bool) (i : In) (o : Out) (hk : HasKeys d opt) :
    Gives d opt i o ↔ Finite (par d) i ∧ (opt = false → FiniteMoments (par d) i) ∧
      o.Fx = forceX (par d) i ∧ o.Fy = forceY (par d) i ∧
      o.Kxk = Kx (par d) i.Fz ∧ o.Kya = Ky (par d) i.Fz i.gamma ∧
      o.Gxa = weightX (par d) i.Fz i.kappa i.alpha ∧ o.Gyk = weightY (par d) i.Fz i.alpha i.kappa ∧
      o.GSum = Real.sqrt (o.Gyk ^ 2 + o.Gxa ^ 2) ∧
      o.Mx = (if opt then 0 else overturning (par d) i.gamma i.Fz o.Fy) ∧
      o.My = (if opt then 0 else rolling (par d) i.Fz i.vx o.Fx) ∧
      o.Mz = (if opt then 0 else aligning (par d) i) := by
  rw [gives_iff d opt i o hk, forces_iff]
  constructor
  · rintro ⟨h1, h2, rfl⟩
    refine ⟨h1, h2, rfl, rfl, rfl, rfl, rfl, rfl, rfl, ?_, ?_, ?_⟩ <;> cases opt <;> rfl
  · rintro ⟨h1, h2, a1, a2, a3, a4, a5, a6, a7, a8, a9, a10⟩
    refine ⟨h1, h2, ?_⟩
    cases o
    simp only at a1 a2 a3 a4 a5 a6 a7 a8 a9 a10
    subst a1 a2 a3 a4 a5 a6
    rw [a7, a8, a9, a10]
    cases opt <;> rfl

/-- **C82** (parameters). A missing parameter is a KeyError. -/
theorem C82_missing (d : Dict ℝ) (opt : Bool) (i : In) (k : String) (hk : k ∈ forceKeys ++ (if opt then [] else momentKeys))
    (h : d.lookup k = none) : tyre d opt i = .error .keyError := by
  apply tyre_key
  intro h'
  have := h' k hk
  rw [h] at this
  cases this

/-- **C82** (unloaded, finding). A wheel without load has no forces at all, rather than zero forces: with load zero the code divides zero by
zero, whatever the parameters, the slips and the mode. -/
theorem C82_unloaded (d : Dict ℝ) (opt : Bool) (i : In) (h : i.Fz = 0) (o : Out) : ¬Gives d opt i o := by
  intro hg
  have := (gives_inv hg).1.lon
  apply this
  simp [denX, Dx, h]

/-- **C82** (the mode does not matter). The forces, stiffnesses and weights are the same in the mode for optimisation and in the full mode. -/
theorem C82_mode {d : Dict ℝ} {opt opt' : Bool} {i : In} {o o' : Out} (h : Gives d opt i o) (h' : Gives d opt' i o') :
    o.Fx = o'.Fx ∧ o.Fy = o'.Fy ∧ o.Kxk = o'.Kxk ∧ o.Kya = o'.Kya ∧ o.Gxa = o'.Gxa ∧ o.Gyk = o'.Gyk ∧ o.GSum = o'.GSum := by
  obtain ⟨-, rfl⟩ := gives_inv h
  obtain ⟨-, rfl⟩ := gives_inv h'
  exact ⟨rfl, rfl, rfl, rfl, rfl, rfl, rfl⟩

/-- **C82** (the full mode defines the mode for optimisation). -/
theorem C82_mode_defined {d : Dict ℝ} {opt : Bool} {i : In} {o : Out} (h : Gives d opt i o) : ∃ o', Gives d true i o' := by
  have hk : HasKeys d true := fun k hk => hasKeys_of h k (by
    simp only [if_true, List.append_nil] at hk
    exact List.mem_append_left _ hk)
  refine ⟨outOf (par d) i (0, 0, 0), (gives_iff _ _ _ _ hk).mpr ((forces_iff _ _ _ _).mpr ⟨(gives_inv h).1, (fun e => nomatch e), rfl⟩)⟩

/-- **C82** (speed does not matter). The forces, stiffnesses and weights do not depend on the speed. -/
theorem C82_speed {d : Dict ℝ} {opt : Bool} {i : In} {o o' : Out} {v : ℝ} (h : Gives d opt i o) (h' : Gives d opt { i with vx := v } o') :
    o.Fx = o'.Fx ∧ o.Fy = o'.Fy ∧ o.Kxk = o'.Kxk ∧ o.Kya = o'.Kya ∧ o.Gxa = o'.Gxa ∧ o.Gyk = o'.Gyk := by
  obtain ⟨-, rfl⟩ := gives_inv h
  obtain ⟨-, rfl⟩ := gives_inv h'
  exact ⟨rfl, rfl, rfl, rfl, rfl, rfl⟩

/-- **C82** (any speed). With a positive `epsilonv`, whether the tyre is defined does not depend on the speed, which may be zero or negative. -/
theorem C82_speed_defined {d : Dict ℝ} {opt : Bool} {i : In} {o : Out} {v : ℝ} (hv : 0 < par d "epsilonv") (h : Gives d opt i o) :
    ∃ o', Gives d opt { i with vx := v } o' := by
  have hk := hasKeys_of h
  obtain ⟨h1, h2, -⟩ := (forces_iff _ _ _ _).mp ((gives_iff d opt i o hk).mp h)
  have hs : 0 < speed (par d) v i.alpha := add_pos_of_nonneg_of_pos (Real.sqrt_nonneg _) hv
  have ha : |v| ≤ speed (par d) v i.alpha := by
    have : Real.sqrt (v ^ 2) ≤ Real.sqrt (v ^ 2 + (Real.tan i.alpha * v) ^ 2) := Real.sqrt_le_sqrt (by nlinarith [sq_nonneg (Real.tan i.alpha * v)])
    rw [Real.sqrt_sq_eq_abs] at this
    unfold speed
    linarith
  refine ⟨_, (gives_iff _ _ _ _ hk).mpr ((forces_iff _ _ _ _).mpr ⟨⟨h1.nominal, h1.stiff, hs.ne', ?_, h1.lon, h1.lat, h1.weightX, h1.weightY⟩,
    fun e => ⟨(h2 e).speed, (h2 e).friction, (h2 e).stiffness⟩, rfl⟩)⟩
  have := abs_le.mp ha
  constructor
  · rw [le_div_iff₀ hs]
    linarith
  · rw [div_le_one hs]
    exact this.2

/-- **C82** (pure slip). Without slip angle the longitudinal force is that of pure longitudinal slip and its weight is one; without slip ratio
the side force is that of pure lateral slip, its weight is one and the slip ratio induces no side force. -/
theorem C82_pure {d : Dict ℝ} {opt : Bool} {i : In} {o : Out} (h : Gives d opt i o) :
    (i.alpha = 0 → o.Gxa = 1 ∧ o.Fx = pureX (par d) i.Fz i.gamma i.kappa) ∧
    (i.kappa = 0 → o.Gyk = 1 ∧ o.Fy = pureY (par d) i.Fz i.gamma i.alpha) := by
  obtain ⟨hf, rfl⟩ := gives_inv h
  refine ⟨fun ha => ?_, fun hk => ?_⟩
  · have e : weightX (par d) i.Fz i.kappa i.alpha = 1 := by
      unfold weightX
      rw [ha, zero_add]
      exact div_self hf.weightX
    refine ⟨e, ?_⟩
    show weightX (par d) i.Fz i.kappa i.alpha * _ = _
    rw [e, one_mul]
  · have e : weightY (par d) i.Fz i.alpha i.kappa = 1 := by
      unfold weightY
      rw [hk, zero_add]
      exact div_self hf.weightY
    refine ⟨e, ?_⟩
    show weightY (par d) i.Fz i.alpha i.kappa * _ + induced _ _ _ _ _ = _
    rw [e, one_mul, hk]
    simp [induced]

/-- **C82** (combined slip). The longitudinal force at a slip angle is the force without slip angle, times the weight that the model gives out. -/
theorem C82_combined {d : Dict ℝ} {opt : Bool} {i : In} {o o' : Out} (h : Gives d opt i o) (h' : Gives d opt { i with alpha := 0 } o') :
    o.Fx = o.Gxa * o'.Fx := by
  rw [((C82_pure h').1 rfl).2]
  obtain ⟨-, rfl⟩ := gives_inv h
  rfl

/-- **C82** (limits). The forces never exceed the peaks, the shifts and the induced force, weighted with the weights that the model gives out. -/
theorem C82_limit {d : Dict ℝ} {opt : Bool} {i : In} {o : Out} (h : Gives d opt i o) :
    |o.Fx| ≤ |o.Gxa| * (|Dx (par d) i.Fz i.gamma| + |Vx (par d) i.Fz|) ∧
    |o.Fy| ≤ |o.Gyk| * (|Dy (par d) i.Fz i.gamma| + |Vy (par d) i.Fz i.gamma|)
      + |Dy (par d) i.Fz i.gamma * (par d "RVY1" + par d "RVY2" * dfz (par d) i.Fz + par d "RVY3" * i.gamma) * par d "LVYKA"| := by
  obtain ⟨-, rfl⟩ := gives_inv h
  constructor
  · show |weightX _ _ _ _ * _| ≤ |weightX _ _ _ _| * _
    rw [abs_mul]
    refine mul_le_mul_of_nonneg_left ?_ (abs_nonneg _)
    unfold pureX
    refine (abs_add_le _ _).trans (add_le_add_left ?_ _)
    rw [abs_mul]
    exact mul_le_of_le_one_right (abs_nonneg _) (Real.abs_sin_le_one _)
  · show |weightY _ _ _ _ * _ + _| ≤ |weightY _ _ _ _| * _ + _
    refine (abs_add_le _ _).trans (add_le_add ?_ ?_)
    · rw [abs_mul]
      refine mul_le_mul_of_nonneg_left ?_ (abs_nonneg _)
      unfold pureY
      refine (abs_add_le _ _).trans (add_le_add_left ?_ _)
      rw [abs_mul]
      exact mul_le_of_le_one_right (abs_nonneg _) (Real.abs_sin_le_one _)
    · unfold induced inducedPeak Dy
      rw [abs_mul, abs_mul, abs_mul, abs_mul _ (par d "LVYKA")]
      refine mul_le_mul_of_nonneg_right ?_ (abs_nonneg _)
      rw [mul_assoc]
      refine mul_le_of_le_one_right (abs_nonneg _) ?_
      rw [← abs_mul, abs_mul]
      exact mul_le_one₀ (Real.abs_cos_le_one _) (abs_nonneg _) (Real.abs_sin_le_one _)

/-- The stiffness factor has the sign of the stiffness over the peak. -/
theorem denX_pos {p : Pars} {Fz gamma : ℝ} (hC : 0 < Cx p) (hD : 0 < Dx p Fz gamma) (he : 0 ≤ p "epsilonx") : 0 < denX p Fz gamma := by
  unfold denX
  rw [Real.sign_of_pos hD]
  nlinarith [mul_pos hC hD]

theorem denY_pos {p : Pars} {Fz gamma : ℝ} (hC : 0 < Cy p) (hD : 0 < Dy p Fz gamma) (he : 0 ≤ p "epsilony") : 0 < denY p Fz gamma := by
  unfold denY
  rw [Real.sign_of_pos hD]
  nlinarith [mul_pos hC hD]

theorem Ex_le (p : Pars) (Fz x : ℝ) : Ex p Fz x ≤ 1 := min_le_right _ _

theorem Ey_le (p : Pars) (Fz gamma x : ℝ) : Ey p Fz gamma x ≤ 1 := min_le_right _ _

/-- **C82** (driving and braking). For a shape factor of at most two, a positive peak and a positive slip stiffness, the force in pure
longitudinal slip, without its vertical shift, pushes forward exactly when the shifted slip ratio is positive and brakes exactly when it is
negative. (This needs the clamp of the curvature factor at one.) -/
theorem C82_direction_x {d : Dict ℝ} {opt : Bool} {i : In} {o : Out} (h : Gives d opt i o) (ha : i.alpha = 0)
    (hC : 0 < Cx (par d)) (hC2 : Cx (par d) ≤ 2) (hD : 0 < Dx (par d) i.Fz i.gamma) (he : 0 ≤ par d "epsilonx") (hK : 0 < o.Kxk) :
    (0 < o.Fx - Vx (par d) i.Fz ↔ 0 < i.kappa + Hx (par d) i.Fz) ∧ (o.Fx - Vx (par d) i.Fz < 0 ↔ i.kappa + Hx (par d) i.Fz < 0) := by
  have e := ((C82_pure h).1 ha).2
  obtain ⟨-, rfl⟩ := gives_inv h
  rw [e]
  unfold pureX
  rw [add_sub_cancel_right]
  have hB : 0 < Bx (par d) i.Fz i.gamma := div_pos hK (denX_pos hC hD he)
  rcases lt_trichotomy (i.kappa + Hx (par d) i.Fz) 0 with hx | hx | hx
  · have := sin_curve_neg (B := Bx (par d) i.Fz i.gamma) hC hC2 (Ex_le (par d) i.Fz (i.kappa + Hx (par d) i.Fz))
      (mul_neg_of_pos_of_neg hB hx)
    have := mul_neg_of_pos_of_neg hD this
    constructor <;> constructor <;> intro <;> linarith
  · rw [hx, curve_zero]
    simp
  · have := sin_curve_pos (B := Bx (par d) i.Fz i.gamma) hC hC2 (Ex_le (par d) i.Fz (i.kappa + Hx (par d) i.Fz))
      (mul_pos hB hx)
    have := mul_pos hD this
    constructor <;> constructor <;> intro <;> linarith

/-- **C82** (cornering). For a shape factor of at most two, a positive peak and a negative cornering stiffness, the force in pure lateral slip,
without its vertical shift, points to one side exactly when the shifted slip angle is on the other side. -/
theorem C82_direction_y {d : Dict ℝ} {opt : Bool} {i : In} {o : Out} (h : Gives d opt i o) (hk : i.kappa = 0)
    (hC : 0 < Cy (par d)) (hC2 : Cy (par d) ≤ 2) (hD : 0 < Dy (par d) i.Fz i.gamma) (he : 0 ≤ par d "epsilony") (hK : o.Kya < 0) :
    (0 < o.Fy - Vy (par d) i.Fz i.gamma ↔ i.alpha + Hy (par d) i.Fz i.gamma < 0) ∧
    (o.Fy - Vy (par d) i.Fz i.gamma < 0 ↔ 0 < i.alpha + Hy (par d) i.Fz i.gamma) := by
  have e := ((C82_pure h).2 hk).2
  obtain ⟨-, rfl⟩ := gives_inv h
  rw [e]
  unfold pureY
  rw [add_sub_cancel_right]
  have hB : By (par d) i.Fz i.gamma < 0 := div_neg_of_neg_of_pos hK (denY_pos hC hD he)
  rcases lt_trichotomy (i.alpha + Hy (par d) i.Fz i.gamma) 0 with hx | hx | hx
  · have := sin_curve_pos (B := By (par d) i.Fz i.gamma) hC hC2
      (Ey_le (par d) i.Fz i.gamma (i.alpha + Hy (par d) i.Fz i.gamma)) (mul_pos_of_neg_of_neg hB hx)
    have := mul_pos hD this
    constructor <;> constructor <;> intro <;> linarith
  · rw [hx, curve_zero]
    simp
  · have := sin_curve_neg (B := By (par d) i.Fz i.gamma) hC hC2
      (Ey_le (par d) i.Fz i.gamma (i.alpha + Hy (par d) i.Fz i.gamma)) (mul_neg_of_neg_of_pos hB hx)
    have := mul_neg_of_pos_of_neg hD this
    constructor <;> constructor <;> intro <;> linarith

/-- The magic formula reaches its peak, when the curvature factor is below one. -/
theorem reaches {C E : ℝ} (hC : 1 < C) (hE : E < 1) : ∃ t : ℝ, 0 < t ∧ Real.sin (C * Real.arctan (t - E * (t - Real.arctan t))) = 1 := by
  have hpi := Real.pi_pos
  have h1 : Real.pi / 2 / C < Real.pi / 2 := div_lt_self (by positivity) hC
  have h0 : 0 < Real.pi / 2 / C := by positivity
  have hT : 0 < Real.tan (Real.pi / 2 / C) := Real.tan_pos_of_pos_of_lt_pi_div_two h0 h1
  set T := Real.tan (Real.pi / 2 / C) with hTd
  have hcont : Continuous fun t : ℝ => t - E * (t - Real.arctan t) := by
    have := Real.continuous_arctan
    fun_prop
  -- far enough out the argument is above `T`
  have hfar : ∃ b : ℝ, 0 ≤ b ∧ T ≤ b - E * (b - Real.arctan b) := by
    rcases le_total E 0 with h | h
    · refine ⟨T, hT.le, ?_⟩
      nlinarith [sub_arctan_nonneg hT.le]
    · have h2 : 0 < 1 - E := by linarith
      have hb : 0 ≤ T / (1 - E) := by positivity
      refine ⟨T / (1 - E), hb, ?_⟩
      have h3 : (1 - E) * (T / (1 - E)) = T := by field_simp
      have h4 := Real.arctan_nonneg.mpr hb
      nlinarith
  obtain ⟨b, hb, hb'⟩ := hfar
  have := intermediate_value_Icc hb hcont.continuousOn
  obtain ⟨t, ht, e⟩ := this ⟨by simpa using hT.le, hb'⟩
  have e : t - E * (t - Real.arctan t) = T := e
  refine ⟨t, ?_, ?_⟩
  · rcases ht.1.lt_or_eq with h | h
    · exact h
    · rw [← h] at e
      simp at e
      linarith
  · rw [e, hTd, Real.arctan_tan (by linarith) h1]
    rw [mul_div_cancel₀ _ (by linarith)]
    exact Real.sin_pi_div_two

/-- **C82** (the peak is reached). For a shape factor above one and curvature below one on the driving side, the largest longitudinal force
without slip angle over all slip ratios is exactly the peak plus the vertical shift. -/
theorem C82_peak {d : Dict ℝ} {opt : Bool} {i : In} {o : Out} (h : Gives d opt { i with alpha := 0 } o)
    (hw : ∀ kappa, cosX (par d) i.Fz kappa (par d "RHX1") ≠ 0)
    (hC : 1 < Cx (par d)) (hD : 0 < Dx (par d) i.Fz i.gamma) (he : 0 ≤ par d "epsilonx") (hK : 0 < o.Kxk) (hE : Ex (par d) i.Fz 1 < 1) :
    IsGreatest {F | ∃ kappa o', Gives d opt { i with alpha := 0, kappa := kappa } o' ∧ F = o'.Fx}
      (Dx (par d) i.Fz i.gamma + Vx (par d) i.Fz) := by
  have hB : 0 < Bx (par d) i.Fz i.gamma := by
    obtain ⟨-, rfl⟩ := gives_inv h
    exact div_pos hK (denX_pos (by linarith) hD he)
  constructor
  · obtain ⟨t, ht, e⟩ := reaches hC hE
    have hk := hasKeys_of h
    obtain ⟨h1, h2, -⟩ := (forces_iff _ _ _ _).mp ((gives_iff d opt _ o hk).mp h)
    have hg : ∃ o', Gives d opt { i with alpha := 0, kappa := t / Bx (par d) i.Fz i.gamma - Hx (par d) i.Fz } o' :=
      ⟨_, (gives_iff _ _ _ _ hk).mpr ((forces_iff _ _ _ _).mpr ⟨⟨h1.nominal, h1.stiff, h1.moving, h1.cosine, h1.lon, h1.lat, hw _, h1.weightY⟩,
        fun e => ⟨(h2 e).speed, (h2 e).friction, (h2 e).stiffness⟩, rfl⟩)⟩
    obtain ⟨o', ho'⟩ := hg
    refine ⟨_, o', ho', ?_⟩
    rw [((C82_pure ho').1 rfl).2]
    have hx : 0 < t / Bx (par d) i.Fz i.gamma := by positivity
    have hEx : Ex (par d) i.Fz (t / Bx (par d) i.Fz i.gamma) = Ex (par d) i.Fz 1 := by
      unfold Ex
      rw [Real.sign_of_pos hx, Real.sign_of_pos one_pos]
    unfold pureX curve
    simp only [sub_add_cancel]
    rw [hEx, mul_div_cancel₀ _ hB.ne', e, mul_one]
  · rintro F ⟨kappa, o', h', rfl⟩
    rw [((C82_pure h').1 rfl).2]
    unfold pureX
    have := mul_le_mul_of_nonneg_left (Real.sin_le_one (Cx (par d) * curve (Bx (par d) i.Fz i.gamma)
      (Ex (par d) i.Fz (kappa + Hx (par d) i.Fz)) (kappa + Hx (par d) i.Fz))) hD.le
    linarith

end Lumos.Tyre
