import Verif.Tyre.Spec
/-!
# The moments of the MF5.2 tyre as formulas, and when the code's numbers are finite
-/

namespace Lumos.Tyre

open Lumos Io Veh

/-! ## Specification -/

/-- The overturning moment of a camber, a load and a side force. -/
noncomputable def overturning (p : Pars) (gamma Fz Fy : ℝ) : ℝ :=
  p "UNLOADED_RADIUS" * Fz * p "LMX" * (p "QSX1" * p "LVMX" - p "QSX2" * gamma + p "QSX3" * (Fy / p "FNOMIN"))

/-- The rolling resistance moment. -/
noncomputable def rolling (p : Pars) (Fz vx Fx : ℝ) : ℝ :=
  -p "UNLOADED_RADIUS" * Fz * p "LMY" * (p "QSY1" + p "QSY2" * (Fx / p "FNOMIN") + p "QSY3" * (vx / p "LONGVL") + p "QSY4" * (vx / p "LONGVL") ^ 4)

/-- The cornering stiffness, kept away from zero. -/
noncomputable def Kyp (p : Pars) (Fz gamma : ℝ) : ℝ := Ky p Fz gamma + p "epsilonk" * Real.sign (Ky p Fz gamma)

/-- The slip angles that count for the pneumatic trail and for the residual moment. -/
noncomputable def angleT (p : Pars) (i : In) : ℝ :=
  i.alpha + (p "QHZ1" + p "QHZ2" * dfz p i.Fz + (p "QHZ3" + p "QHZ4" * dfz p i.Fz) * i.gamma)
noncomputable def angleR (p : Pars) (i : In) : ℝ := i.alpha + (Hy p i.Fz i.gamma + Vy p i.Fz i.gamma / Kyp p i.Fz i.gamma)

/-- The slip angle that stands for a slip angle `a` and the slip ratio together. -/
noncomputable def equivalent (p : Pars) (i : In) (a : ℝ) : ℝ :=
  Real.arctan (Real.sqrt (Real.tan a ^ 2 + (Kx p i.Fz / Kyp p i.Fz i.gamma) ^ 2 * i.kappa ^ 2)) * Real.sign a

/-- Peak, slope and curvature of the pneumatic trail. -/
noncomputable def trailD (p : Pars) (Fz gamma : ℝ) : ℝ :=
  (p "QDZ1" + p "QDZ2" * dfz p Fz) * (1 + p "QDZ3" * gamma + p "QDZ4" * gamma ^ 2) * Fz * (p "UNLOADED_RADIUS" / (p "LFZO" * p "FNOMIN")) * p "LTR"
noncomputable def trailB (p : Pars) (Fz gamma : ℝ) : ℝ :=
  (p "QBZ1" + p "QBZ2" * dfz p Fz + p "QBZ3" * dfz p Fz ^ 2) * (1 + p "QBZ4" * gamma + p "QBZ5" * |gamma|) * p "LKY" / p "LMUY"
noncomputable def trailE (p : Pars) (i : In) : ℝ :=
  (p "QEZ1" + p "QEZ2" * dfz p i.Fz + p "QEZ3" * dfz p i.Fz ^ 2)
    * (1 + (p "QEZ4" + p "QEZ5" * i.gamma) * (2 / Real.pi) * Real.arctan (trailB p i.Fz i.gamma * p "QCZ1" * angleT p i))

/-- The pneumatic trail. -/
noncomputable def trail (p : Pars) (i : In) : ℝ :=
  p "LFZO" * (trailD p i.Fz i.gamma * Real.cos (p "QCZ1" * curve (trailB p i.Fz i.gamma) (trailE p i) (equivalent p i (angleT p i)))
    * Real.cos (Real.arccos (i.vx / speed p i.vx i.alpha)))

/-- The residual moment. -/
noncomputable def residual (p : Pars) (i : In) : ℝ :=
  i.Fz * p "UNLOADED_RADIUS" * ((p "QDZ6" + p "QDZ7" * dfz p i.Fz) * p "LRES" + (p "QDZ8" + p "QDZ9" * dfz p i.Fz) * i.gamma) * p "LMUY"
      * Real.sign i.vx * Real.cos i.alpha
    * Real.cos (Real.arctan ((p "QBZ9" * p "LKY" / p "LMUY" + p "QBZ10" * By p i.Fz i.gamma * Cy p) * equivalent p i (angleR p i)))

/-- The lever arm of the longitudinal force. -/
noncomputable def arm (p : Pars) (i : In) : ℝ :=
  p "UNLOADED_RADIUS" * (p "SSZ1" + p "SSZ2" * (forceY p i / p "FNOMIN") + (p "SSZ3" + p "SSZ4" * dfz p i.Fz) * i.gamma) * p "LS"

/-- The self-aligning moment. -/
noncomputable def aligning (p : Pars) (i : In) : ℝ :=
  -trail p i * (forceY p i - induced p i.Fz i.gamma i.alpha i.kappa) + residual p i + arm p i * forceX p i

/-- No division by zero in the computation of the moments. -/
structure FiniteMoments (p : Pars) (i : In) : Prop where
  speed : p "LONGVL" ≠ 0
  friction : p "LMUY" ≠ 0
  stiffness : Kyp p i.Fz i.gamma ≠ 0

/-! ## The code computes the formulas -/

theorem mx_ok {p : Pars} (h : p "FNOMIN" ≠ 0) (gamma Fz Fy : ℝ) : calculateMx p gamma Fz Fy = .ok (overturning p gamma Fz Fy) := by
  simp only [calculateMx, div_ok h, bind, Except.bind, pure, Except.pure]
  rfl

theorem my_eq {p : Pars} (h : p "FNOMIN" ≠ 0) (Fz vx Fx : ℝ) : calculateMy p Fz vx Fx =
    if p "LONGVL" = 0 then .error .zeroDivisionError else .ok (rolling p Fz vx Fx) := by
  by_cases h1 : p "LONGVL" = 0
  · rw [if_pos h1]
    simp only [calculateMy, div_ok h, div_zero' h1, bind, Except.bind]
  · rw [if_neg h1]
    simp only [calculateMy, div_ok h, div_ok h1, bind, Except.bind, pure, Except.pure]
    rfl

theorem sqrt_ok {x : ℝ} (h : 0 ≤ x) : sqrt x = .ok (Real.sqrt x) := if_pos h

theorem mz_eq {p : Pars} {i : In} (h0 : p "LFZO" * p "FNOMIN" ≠ 0) :
    calculateMz p i.kappa i.alpha i.gamma i.Fz i.vx (forceX p i) (Kx p i.Fz) (forceY p i) (induced p i.Fz i.gamma i.alpha i.kappa)
      (latOf p i) (basicOf p i) =
    if Kyp p i.Fz i.gamma = 0 ∨ p "LMUY" = 0 then .error .zeroDivisionError else .ok (aligning p i) := by
  have hF : p "FNOMIN" ≠ 0 := fun e => h0 (by rw [e, mul_zero])
  have h0' : (basicOf p i).Fz0_prime ≠ 0 := h0
  unfold calculateMz
  by_cases h1 : Kyp p i.Fz i.gamma = 0
  · rw [if_pos (Or.inl h1)]
    have h1' : (latOf p i).Kya + p "epsilonk" * Real.sign (latOf p i).Kya = 0 := h1
    simp only [div_zero' h1', bind, Except.bind]
  have h1' : (latOf p i).Kya + p "epsilonk" * Real.sign (latOf p i).Kya ≠ 0 := h1
  by_cases h2 : p "LMUY" = 0
  · rw [if_pos (Or.inr h2)]
    have h2' : (basicOf p i).LMUY_star = 0 := h2
    simp only [div_ok h1', div_ok h0', div_zero' h2', bind, Except.bind]
  have h2' : (basicOf p i).LMUY_star ≠ 0 := h2
  rw [if_neg (by tauto)]
  simp only [div_ok h1', div_ok h0', div_ok h2', div_ok hF, bind, Except.bind]
  rw [sqrt_ok (by positivity)]
  simp only
  rw [sqrt_ok (by positivity)]
  simp only [pure, Except.pure, mul_one, one_mul, add_sub_cancel_right]
  rfl

theorem moments_eq {p : Pars} {i : In} (h0 : p "LFZO" * p "FNOMIN" ≠ 0) : momentsOf p i =
    if p "LONGVL" = 0 ∨ Kyp p i.Fz i.gamma = 0 ∨ p "LMUY" = 0 then .error .zeroDivisionError
    else .ok (overturning p i.gamma i.Fz (forceY p i), rolling p i.Fz i.vx (forceX p i), aligning p i) := by
  have hF : p "FNOMIN" ≠ 0 := fun e => h0 (by rw [e, mul_zero])
  unfold momentsOf
  simp only [mx_ok hF, my_eq hF, mz_eq h0, bind, Except.bind, pure, Except.pure]
  by_cases h1 : p "LONGVL" = 0
  · simp [h1]
  by_cases h2 : Kyp p i.Fz i.gamma = 0 ∨ p "LMUY" = 0
  · simp [h1, h2]
  · simp [h1, h2]

theorem forces_iff (p : Pars) (opt : Bool) (i : In) (o : Out) : forces p opt i = .ok o ↔
    Finite p i ∧ (opt = false → FiniteMoments p i) ∧
    o = outOf p i (if opt then (0, 0, 0) else (overturning p i.gamma i.Fz (forceY p i), rolling p i.Fz i.vx (forceX p i), aligning p i)) := by
  constructor
  · intro h
    have hf := finite_of_ok h
    rw [forces_finite hf] at h
    refine ⟨hf, ?_⟩
    cases opt with
    | true =>
      simp only [if_true, pure, Except.pure, Except.bind, Except.ok.injEq] at h
      exact ⟨(fun e => nomatch e), by simp [h]⟩
    | false =>
      rw [moments_eq hf.nominal] at h
      by_cases hm : p "LONGVL" = 0 ∨ Kyp p i.Fz i.gamma = 0 ∨ p "LMUY" = 0
      · rw [if_pos hm] at h
        cases h
      · rw [if_neg hm] at h
        simp only [Except.bind, Except.ok.injEq, Bool.false_eq_true, if_false] at h
        exact ⟨fun _ => ⟨by tauto, by tauto, by tauto⟩, by simp [h]⟩
  · rintro ⟨hf, hm, rfl⟩
    rw [forces_finite hf]
    cases opt with
    | true => rfl
    | false =>
      obtain ⟨h1, h2, h3⟩ := hm rfl
      simp only [Bool.false_eq_true, if_false]
      rw [moments_eq hf.nominal, if_neg (by tauto)]
      rfl

end Lumos.Tyre
