import Verif.Tyre.Model
/-!
# The MF5.2 tyre as formulas (Pacejka, Tire and Vehicle Dynamics, 4.3.2), and when the code's numbers are finite
-/

namespace Lumos.Tyre

open Lumos Io Veh

/-- The argument of the magic formula: `atan (B x - E (B x - atan (B x)))`. -/
noncomputable def curve (B E x : ℝ) : ℝ := Real.arctan (B * x - E * (B * x - Real.arctan (B * x)))

/-- The relative deviation of the load from the nominal load. -/
noncomputable def dfz (p : Pars) (Fz : ℝ) : ℝ := (Fz - p "LFZO" * p "FNOMIN") / (p "LFZO" * p "FNOMIN")

/-! ## Longitudinal -/

/-- The coefficient of friction. -/
noncomputable def mux (p : Pars) (Fz gamma : ℝ) : ℝ := (p "PDX1" + p "PDX2" * dfz p Fz) * (1 - p "PDX3" * gamma ^ 2) * p "LMUX"

/-- The shape factor. -/
noncomputable def Cx (p : Pars) : ℝ := p "PCX1" * p "LCX"

/-- The peak. -/
noncomputable def Dx (p : Pars) (Fz gamma : ℝ) : ℝ := mux p Fz gamma * Fz

/-- The slip stiffness. -/
noncomputable def Kx (p : Pars) (Fz : ℝ) : ℝ := Fz * (p "PKX1" + p "PKX2" * dfz p Fz) * Real.exp (p "PKX3" * dfz p Fz) * p "LKX"

/-- The denominator of the stiffness factor. -/
noncomputable def denX (p : Pars) (Fz gamma : ℝ) : ℝ := Cx p * Dx p Fz gamma + p "epsilonx" * Real.sign (Dx p Fz gamma)

/-- The stiffness factor. -/
noncomputable def Bx (p : Pars) (Fz gamma : ℝ) : ℝ := Kx p Fz / denX p Fz gamma

/-- The horizontal shift. -/
noncomputable def Hx (p : Pars) (Fz : ℝ) : ℝ := (p "PHX1" + p "PHX2" * dfz p Fz) * p "LHX"

/-- The vertical shift. -/
noncomputable def Vx (p : Pars) (Fz : ℝ) : ℝ := Fz * (p "PVX1" + p "PVX2" * dfz p Fz) * p "LVX" * p "LMUX"

/-- The curvature factor at the shifted slip `x`. -/
noncomputable def Ex (p : Pars) (Fz x : ℝ) : ℝ :=
  min ((p "PEX1" + p "PEX2" * dfz p Fz + p "PEX3" * dfz p Fz ^ 2) * (1 - p "PEX4" * Real.sign x) * p "LEX") 1

/-- The force in pure longitudinal slip. -/
noncomputable def pureX (p : Pars) (Fz gamma kappa : ℝ) : ℝ :=
  Dx p Fz gamma * Real.sin (Cx p * curve (Bx p Fz gamma) (Ex p Fz (kappa + Hx p Fz)) (kappa + Hx p Fz)) + Vx p Fz

/-- The slope of the weighting function. -/
noncomputable def slopeX (p : Pars) (kappa : ℝ) : ℝ := p "RBX1" * Real.cos (Real.arctan (p "RBX2" * kappa)) * p "LXAL"

/-- The curvature of the weighting function. -/
noncomputable def bendX (p : Pars) (Fz : ℝ) : ℝ := min (p "REX1" + p "REX2" * dfz p Fz) 1

/-- The weighting function before normalisation, at the shifted slip angle `a`. -/
noncomputable def cosX (p : Pars) (Fz kappa a : ℝ) : ℝ := Real.cos (p "RCX1" * curve (slopeX p kappa) (bendX p Fz) a)

/-- The weight of the longitudinal force in combined slip. -/
noncomputable def weightX (p : Pars) (Fz kappa alpha : ℝ) : ℝ := cosX p Fz kappa (alpha + p "RHX1") / cosX p Fz kappa (p "RHX1")

/-! ## Lateral -/

/-- The coefficient of friction. -/
noncomputable def muy (p : Pars) (Fz gamma : ℝ) : ℝ := (p "PDY1" + p "PDY2" * dfz p Fz) * (1 - p "PDY3" * gamma ^ 2) * p "LMUY"

/-- The shape factor. -/
noncomputable def Cy (p : Pars) : ℝ := p "PCY1" * p "LCY"

/-- The peak. -/
noncomputable def Dy (p : Pars) (Fz gamma : ℝ) : ℝ := muy p Fz gamma * Fz

/-- The cornering stiffness. -/
noncomputable def Ky (p : Pars) (Fz gamma : ℝ) : ℝ :=
  p "PKY1" * (p "LFZO" * p "FNOMIN") * (1 - p "PKY3" * |gamma|) * Real.sin (2 * Real.arctan (Fz / (p "LFZO" * p "FNOMIN") / p "PKY2")) * p "LKY"

/-- The denominator of the stiffness factor. -/
noncomputable def denY (p : Pars) (Fz gamma : ℝ) : ℝ := Cy p * Dy p Fz gamma + p "epsilony" * Real.sign (Dy p Fz gamma)

/-- The stiffness factor. -/
noncomputable def By (p : Pars) (Fz gamma : ℝ) : ℝ := Ky p Fz gamma / denY p Fz gamma

/-- The horizontal shift. -/
noncomputable def Hy (p : Pars) (Fz gamma : ℝ) : ℝ := (p "PHY1" + p "PHY2" * dfz p Fz) * p "LHY" + p "PHY3" * gamma

/-- The vertical shift. -/
noncomputable def Vy (p : Pars) (Fz gamma : ℝ) : ℝ :=
  Fz * (p "PVY1" + p "PVY2" * dfz p Fz) * p "LVY" * p "LMUY" + Fz * (p "PVY3" + p "PVY4" * dfz p Fz) * gamma * p "LMUY"

/-- The curvature factor at the shifted slip angle `x`. -/
noncomputable def Ey (p : Pars) (Fz gamma x : ℝ) : ℝ :=
  min ((p "PEY1" + p "PEY2" * dfz p Fz) * (1 - (p "PEY3" + p "PEY4" * gamma) * Real.sign x) * p "LEY") 1

/-- The force in pure lateral slip. -/
noncomputable def pureY (p : Pars) (Fz gamma alpha : ℝ) : ℝ :=
  Dy p Fz gamma * Real.sin (Cy p * curve (By p Fz gamma) (Ey p Fz gamma (alpha + Hy p Fz gamma)) (alpha + Hy p Fz gamma)) + Vy p Fz gamma

/-- The slope of the weighting function. -/
noncomputable def slopeY (p : Pars) (alpha : ℝ) : ℝ := p "RBY1" * Real.cos (Real.arctan (p "RBY2" * (alpha - p "RBY3"))) * p "LYKA"

/-- The curvature of the weighting function. -/
noncomputable def bendY (p : Pars) (Fz : ℝ) : ℝ := min (p "REY1" + p "REY2" * dfz p Fz) 1

/-- The horizontal shift of the weighting function. -/
noncomputable def shiftY (p : Pars) (Fz : ℝ) : ℝ := p "RHY1" + p "RHY2" * dfz p Fz

/-- The weighting function before normalisation, at the shifted slip ratio `k`. -/
noncomputable def cosY (p : Pars) (Fz alpha k : ℝ) : ℝ := Real.cos (p "RCY1" * curve (slopeY p alpha) (bendY p Fz) k)

/-- The weight of the lateral force in combined slip. -/
noncomputable def weightY (p : Pars) (Fz alpha kappa : ℝ) : ℝ := cosY p Fz alpha (kappa + shiftY p Fz) / cosY p Fz alpha (shiftY p Fz)

/-- The largest side force that the slip ratio induces. -/
noncomputable def inducedPeak (p : Pars) (Fz gamma alpha : ℝ) : ℝ :=
  muy p Fz gamma * Fz * (p "RVY1" + p "RVY2" * dfz p Fz + p "RVY3" * gamma) * Real.cos (Real.arctan (p "RVY4" * alpha))

/-- The side force that the slip ratio induces. -/
noncomputable def induced (p : Pars) (Fz gamma alpha kappa : ℝ) : ℝ :=
  inducedPeak p Fz gamma alpha * Real.sin (p "RVY5" * Real.arctan (p "RVY6" * kappa)) * p "LVYKA"

/-! ## All numbers are finite -/

/-- The speed of the contact patch, kept away from zero. -/
noncomputable def speed (p : Pars) (vx alpha : ℝ) : ℝ := Real.sqrt (vx ^ 2 + (Real.tan alpha * vx) ^ 2) + p "epsilonv"

/-- No division by zero and no arc cosine out of range in the computation of the forces. -/
structure Finite (p : Pars) (i : In) : Prop where
  nominal : p "LFZO" * p "FNOMIN" ≠ 0
  stiff : p "PKY2" ≠ 0
  moving : speed p i.vx i.alpha ≠ 0
  cosine : -1 ≤ i.vx / speed p i.vx i.alpha ∧ i.vx / speed p i.vx i.alpha ≤ 1
  lon : denX p i.Fz i.gamma ≠ 0
  lat : denY p i.Fz i.gamma ≠ 0
  weightX : cosX p i.Fz i.kappa (p "RHX1") ≠ 0
  weightY : cosY p i.Fz i.alpha (shiftY p i.Fz) ≠ 0

/-- The forces. -/
noncomputable def forceX (p : Pars) (i : In) : ℝ := weightX p i.Fz i.kappa i.alpha * pureX p i.Fz i.gamma i.kappa

noncomputable def forceY (p : Pars) (i : In) : ℝ :=
  weightY p i.Fz i.alpha i.kappa * pureY p i.Fz i.gamma i.alpha + induced p i.Fz i.gamma i.alpha i.kappa

/-! ## The code computes the formulas -/

/-- The values of `_calculate_basic`. -/
noncomputable def basicOf (p : Pars) (i : In) : Basic :=
  { alpha_star := i.alpha, gamma_star := i.gamma, LMUX_star := p "LMUX", LMUY_star := p "LMUY", Fz0_prime := p "LFZO" * p "FNOMIN"
    alpha_prime := Real.arccos (i.vx / speed p i.vx i.alpha), LMUX_prime := p "LMUX", LMUY_prime := p "LMUY", dfz := dfz p i.Fz }

/-- The values of `_calculate_Fy0`. -/
noncomputable def latOf (p : Pars) (i : In) : Lat :=
  { Fy0 := pureY p i.Fz i.gamma i.alpha, muy := muy p i.Fz i.gamma, Kya := Ky p i.Fz i.gamma, SHy := Hy p i.Fz i.gamma
    SVy := Vy p i.Fz i.gamma, By := By p i.Fz i.gamma, Cy := Cy p }

theorem div_ok {a b : ℝ} (h : b ≠ 0) : div a b = .ok (a / b) := if_neg h

theorem div_zero' {a b : ℝ} (h : b = 0) : div a b = .error .zeroDivisionError := if_pos h

theorem basic_ok {p : Pars} {i : In} (h : Finite p i) : calculateBasic p i.alpha i.vx i.gamma i.Fz = .ok (basicOf p i) := by
  have h0 : 0 ≤ i.vx ^ 2 + (Real.tan i.alpha * i.vx) ^ 2 := by positivity
  have h1 := h.moving
  have h2 := h.cosine
  unfold speed at h1 h2
  simp only [calculateBasic, sqrt, if_pos h0, div, if_neg h.nominal, bind, Except.bind, pure, Except.pure, if_neg h1, arccos, if_pos h2, sub_self,
    zero_mul, add_zero, if_neg one_ne_zero, one_mul, div_one]
  rfl

theorem basic_inv {p : Pars} {i : In} {b : Basic} (h : calculateBasic p i.alpha i.vx i.gamma i.Fz = .ok b) :
    b = basicOf p i ∧ p "LFZO" * p "FNOMIN" ≠ 0 ∧ speed p i.vx i.alpha ≠ 0 ∧
      (-1 ≤ i.vx / speed p i.vx i.alpha ∧ i.vx / speed p i.vx i.alpha ≤ 1) := by
  have h0 : 0 ≤ i.vx ^ 2 + (Real.tan i.alpha * i.vx) ^ 2 := by positivity
  simp only [calculateBasic, sqrt, if_pos h0, div, bind, Except.bind, pure, Except.pure, arccos, sub_self,
    zero_mul, add_zero, if_neg one_ne_zero, one_mul, div_one] at h
  by_cases h1 : p "LFZO" * p "FNOMIN" = 0
  · simp [h1] at h
  rw [if_neg h1] at h
  simp only at h
  by_cases h2 : Real.sqrt (i.vx ^ 2 + (Real.tan i.alpha * i.vx) ^ 2) + p "epsilonv" = 0
  · rw [if_pos h2] at h
    cases h
  rw [if_neg h2] at h
  simp only at h
  by_cases h3 : -1 ≤ i.vx / speed p i.vx i.alpha ∧ i.vx / speed p i.vx i.alpha ≤ 1
  · have h3' := h3
    unfold speed at h3'
    rw [if_pos h3'] at h
    simp only [Except.ok.injEq] at h
    exact ⟨h ▸ rfl, h1, h2, h3⟩
  · have h3' := h3
    unfold speed at h3'
    rw [if_neg h3'] at h
    cases h

theorem fx0_eq (p : Pars) (i : In) : calculateFx0 p i.kappa i.gamma i.Fz (basicOf p i) =
    if denX p i.Fz i.gamma = 0 then .error .zeroDivisionError else .ok (pureX p i.Fz i.gamma i.kappa, Kx p i.Fz) := by
  by_cases h : denX p i.Fz i.gamma = 0
  · rw [if_pos h]
    unfold denX Cx Dx mux at h
    simp only [calculateFx0, basicOf, mul_one, div, if_pos h, bind, Except.bind]
  · rw [if_neg h]
    have h' := h
    unfold denX Cx Dx mux at h'
    simp only [calculateFx0, basicOf, mul_one, div, if_neg h', bind, Except.bind, pure, Except.pure]
    rfl

theorem fx_eq (p : Pars) (i : In) (F : ℝ) : calculateFx p i.kappa (basicOf p i) F =
    if cosX p i.Fz i.kappa (p "RHX1") = 0 then .error .zeroDivisionError
    else .ok (weightX p i.Fz i.kappa i.alpha * F, weightX p i.Fz i.kappa i.alpha) := by
  change (div (cosX p i.Fz i.kappa (i.alpha + p "RHX1")) (cosX p i.Fz i.kappa (p "RHX1"))).bind (fun G => .ok (G * F, G)) = _
  unfold div
  by_cases h : cosX p i.Fz i.kappa (p "RHX1") = 0
  · rw [if_pos h, if_pos h]
    rfl
  · rw [if_neg h, if_neg h]
    rfl

theorem fy0_eq {p : Pars} {i : In} (h0 : p "LFZO" * p "FNOMIN" ≠ 0) : calculateFy0 p i.Fz (basicOf p i) =
    if p "PKY2" = 0 ∨ denY p i.Fz i.gamma = 0 then .error .zeroDivisionError else .ok (latOf p i) := by
  have e1 : div i.Fz (basicOf p i).Fz0_prime = .ok (i.Fz / (p "LFZO" * p "FNOMIN")) := div_ok h0
  unfold calculateFy0
  by_cases h1 : p "PKY2" = 0
  · simp only [e1, bind, Except.bind, div_zero' h1]
    rw [if_pos (Or.inl h1)]
  by_cases h : denY p i.Fz i.gamma = 0
  · rw [if_pos (Or.inr h)]
    unfold denY Cy Dy muy at h
    simp only [e1, bind, Except.bind, div_ok h1]
    simp only [basicOf, mul_one, div_zero' h]
  · rw [if_neg (by tauto)]
    have h' := h
    unfold denY Cy Dy muy at h'
    simp only [e1, bind, Except.bind, div_ok h1]
    simp only [basicOf, mul_one, div_ok h', pure, Except.pure]
    rfl

theorem fy_eq (p : Pars) (i : In) (F : ℝ) : calculateFy p i.Fz i.kappa F (muy p i.Fz i.gamma) (basicOf p i) =
    if cosY p i.Fz i.alpha (shiftY p i.Fz) = 0 then .error .zeroDivisionError
    else .ok (weightY p i.Fz i.alpha i.kappa * F + induced p i.Fz i.gamma i.alpha i.kappa, weightY p i.Fz i.alpha i.kappa,
      induced p i.Fz i.gamma i.alpha i.kappa) := by
  have e : muy p i.Fz i.gamma * i.Fz * (p "RVY1" + p "RVY2" * dfz p i.Fz + p "RVY3" * i.gamma) * Real.cos (Real.arctan (p "RVY4" * i.alpha)) * 1
      * Real.sin (p "RVY5" * Real.arctan (p "RVY6" * i.kappa)) * p "LVYKA" = induced p i.Fz i.gamma i.alpha i.kappa := by
    rw [mul_one]
    rfl
  rw [← e]
  change (div (cosY p i.Fz i.alpha (i.kappa + shiftY p i.Fz)) (cosY p i.Fz i.alpha (shiftY p i.Fz))).bind _ = _
  unfold div
  by_cases h : cosY p i.Fz i.alpha (shiftY p i.Fz) = 0
  · rw [if_pos h, if_pos h]
    rfl
  · rw [if_neg h, if_neg h]
    rfl

/-- The output without moments. -/
noncomputable def outOf (p : Pars) (i : In) (m : ℝ × ℝ × ℝ) : Out :=
  { Fx := forceX p i, Fy := forceY p i, Mx := m.1, My := m.2.1, Mz := m.2.2, Kxk := Kx p i.Fz, Gxa := weightX p i.Fz i.kappa i.alpha
    Kya := Ky p i.Fz i.gamma, Gyk := weightY p i.Fz i.alpha i.kappa
    GSum := Real.sqrt (weightY p i.Fz i.alpha i.kappa ^ 2 + weightX p i.Fz i.kappa i.alpha ^ 2) }

/-- The moments of the full mode. -/
noncomputable def momentsOf (p : Pars) (i : In) : Py (ℝ × ℝ × ℝ) := do
  let Mx ← calculateMx p i.gamma i.Fz (forceY p i)
  let My ← calculateMy p i.Fz i.vx (forceX p i)
  let Mz ← calculateMz p i.kappa i.alpha i.gamma i.Fz i.vx (forceX p i) (Kx p i.Fz) (forceY p i) (induced p i.Fz i.gamma i.alpha i.kappa)
    (latOf p i) (basicOf p i)
  pure (Mx, My, Mz)

theorem gsum_ok (x y : ℝ) : sqrt (x ^ 2 + y ^ 2) = .ok (Real.sqrt (x ^ 2 + y ^ 2)) := by
  unfold sqrt
  rw [if_pos (by positivity)]

theorem forces_finite {p : Pars} {i : In} (h : Finite p i) (opt : Bool) : forces p opt i =
    (if opt then pure (0, 0, 0) else momentsOf p i).bind fun m => .ok (outOf p i m) := by
  have hf : ¬(p "PKY2" = 0 ∨ denY p i.Fz i.gamma = 0) := by
    rintro (h1 | h1)
    · exact h.stiff h1
    · exact h.lat h1
  simp only [forces, basic_ok h, fx0_eq, if_neg h.lon, fx_eq, if_neg h.weightX, fy0_eq h.nominal, if_neg hf, bind, Except.bind, pure, Except.pure]
  rw [show (latOf p i).muy = muy p i.Fz i.gamma from rfl, fy_eq, if_neg h.weightY]
  cases opt with
  | true =>
    simp only [if_true, gsum_ok]
    rfl
  | false =>
    simp only [momentsOf, bind, Except.bind, pure, Except.pure]
    simp only [Bool.false_eq_true, if_false, gsum_ok]
    rw [show (latOf p i).Fy0 = pureY p i.Fz i.gamma i.alpha from rfl]
    rw [show weightY p i.Fz i.alpha i.kappa * pureY p i.Fz i.gamma i.alpha + induced p i.Fz i.gamma i.alpha i.kappa = forceY p i from rfl,
      show weightX p i.Fz i.kappa i.alpha * pureX p i.Fz i.gamma i.kappa = forceX p i from rfl]
    rcases calculateMx p i.gamma i.Fz (forceY p i) with e | a
    · rfl
    rcases calculateMy p i.Fz i.vx (forceX p i) with e | c
    · rfl
    rcases calculateMz p i.kappa i.alpha i.gamma i.Fz i.vx (forceX p i) (Kx p i.Fz) (forceY p i) (induced p i.Fz i.gamma i.alpha i.kappa)
      (latOf p i) (basicOf p i) with e | d
    · rfl
    · rfl

theorem finite_of_ok {p : Pars} {i : In} {opt : Bool} {o : Out} (h : forces p opt i = .ok o) : Finite p i := by
  unfold forces at h
  rcases hb : calculateBasic p i.alpha i.vx i.gamma i.Fz with e | b
  · rw [hb] at h
    cases h
  obtain ⟨rfl, h1, h2, h3⟩ := basic_inv hb
  simp only [hb, fx0_eq, fx_eq, fy0_eq h1, bind, Except.bind] at h
  by_cases h4 : denX p i.Fz i.gamma = 0
  · simp [h4] at h
  by_cases h5 : cosX p i.Fz i.kappa (p "RHX1") = 0
  · simp [h4, h5] at h
  by_cases h6 : p "PKY2" = 0 ∨ denY p i.Fz i.gamma = 0
  · simp [h4, h5, h6] at h
  simp only [if_neg h4, if_neg h5, if_neg h6] at h
  rw [show (latOf p i).muy = muy p i.Fz i.gamma from rfl, fy_eq] at h
  by_cases h7 : cosY p i.Fz i.alpha (shiftY p i.Fz) = 0
  · simp [h7] at h
  exact ⟨h1, fun e => h6 (Or.inl e), h2, h3, h4, fun e => h6 (Or.inr e), h5, h7⟩

end Lumos.Tyre
