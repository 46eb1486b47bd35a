import Verif.Veh.TireModel
import Mathlib.Analysis.Real.Pi.Bounds
import Mathlib.Analysis.SpecialFunctions.Trigonometric.Bounds
/-!
# C59: the Perantoni tire
-/

namespace Lumos.Veh

open Lumos Io Io.Mdl

/-! ## Specification -/

/-- The straight line through a value at the load `Fz1` and a value at the load `Fz2`. -/
noncomputable def TireParams.line (q : TireParams) (v1 v2 Fz : ℝ) : ℝ := v1 + (v2 - v1) * ((Fz - q.Fz1) / (q.Fz2 - q.Fz1))

/-- The friction coefficients and slips "for the friction peak" at a load. -/
noncomputable def TireParams.mux (q : TireParams) : ℝ → ℝ := q.line q.mux1 q.mux2
noncomputable def TireParams.muy (q : TireParams) : ℝ → ℝ := q.line q.muy1 q.muy2
noncomputable def TireParams.kappaMax (q : TireParams) : ℝ → ℝ := q.line q.kappa1 q.kappa2
noncomputable def TireParams.alphaMax (q : TireParams) : ℝ → ℝ := q.line q.alpha1 q.alpha2

/-- A tire gives the forces `fx`, `fy` for a load and slips, whatever the other inputs. -/
def Gives (m : Mdl ℝ) (Fz kappa alpha fx fy : ℝ) : Prop :=
  ∀ vx gamma : ℝ, ∃ r, m.eval { inputs := some [("Fz", Fz), ("kappa", kappa), ("alpha", alpha), ("vx", vx), ("gamma", gamma)] } = .ok r ∧
    r.outputs.lookup "Fx" = some fx ∧ r.outputs.lookup "Fy" = some fy

/-! ## Helpers -/

noncomputable def TireParams.rho (q : TireParams) (Fz kappa alpha : ℝ) : ℝ :=
  Real.sqrt ((alpha / q.alphaMax Fz) ^ 2 + (kappa / q.kappaMax Fz) ^ 2 + 1 / 10 ^ 6)

noncomputable def shape (Q rho : ℝ) : ℝ := Real.sin (Q * Real.arctan (Real.pi / 2 / Real.arctan Q * rho))

noncomputable def TireParams.fx (q : TireParams) (Fz kappa alpha : ℝ) : ℝ :=
  q.mux Fz * shape q.Qx (q.rho Fz kappa alpha) * Fz * (kappa / q.kappaMax Fz) / q.rho Fz kappa alpha

noncomputable def TireParams.fy (q : TireParams) (Fz kappa alpha : ℝ) : ℝ :=
  -(q.muy Fz * shape q.Qy (q.rho Fz kappa alpha)) * Fz * (alpha / q.alphaMax Fz) / q.rho Fz kappa alpha

theorem gives (q : TireParams) (Fz kappa alpha : ℝ) : Gives (tire q) Fz kappa alpha (q.fx Fz kappa alpha) (q.fy Fz kappa alpha) := by
  intro vx gamma
  refine ⟨_, rfl, ?_, ?_⟩
  · show some _ = some _
    unfold TireParams.fx TireParams.rho TireParams.mux TireParams.alphaMax TireParams.kappaMax TireParams.line shape
    simp only [add_comm, mul_comm]
  · show some _ = some _
    unfold TireParams.fy TireParams.rho TireParams.muy TireParams.alphaMax TireParams.kappaMax TireParams.line shape
    simp only [add_comm, mul_comm]

theorem gives_iff (q : TireParams) (Fz kappa alpha fx fy : ℝ) :
    Gives (tire q) Fz kappa alpha fx fy ↔ fx = q.fx Fz kappa alpha ∧ fy = q.fy Fz kappa alpha := by
  constructor
  · intro h
    obtain ⟨r, e, h1, h2⟩ := h 0 0
    obtain ⟨r', e', h1', h2'⟩ := gives q Fz kappa alpha 0 0
    rw [e] at e'
    cases e'
    rw [h1] at h1'
    rw [h2] at h2'
    exact ⟨Option.some.inj h1', Option.some.inj h2'⟩
  · rintro ⟨rfl, rfl⟩
    exact gives q Fz kappa alpha

theorem rho_pos (q : TireParams) (Fz kappa alpha : ℝ) : 0 < q.rho Fz kappa alpha := Real.sqrt_pos.mpr (by positivity)

theorem rho_sq (q : TireParams) (Fz kappa alpha : ℝ) :
    q.rho Fz kappa alpha ^ 2 = (alpha / q.alphaMax Fz) ^ 2 + (kappa / q.kappaMax Fz) ^ 2 + 1 / 10 ^ 6 := Real.sq_sqrt (by positivity)

theorem shape_pos {Q rho : ℝ} (h0 : 0 < Q) (h2 : Q ≤ 2) (hr : 0 < rho) : 0 < shape Q rho := by
  have hQ : 0 < Real.arctan Q := Real.arctan_pos.mpr h0
  have ha : 0 < Real.arctan (Real.pi / 2 / Real.arctan Q * rho) := Real.arctan_pos.mpr (by have := Real.pi_pos; positivity)
  have hb := Real.arctan_lt_pi_div_two (Real.pi / 2 / Real.arctan Q * rho)
  apply Real.sin_pos_of_pos_of_lt_pi
  · positivity
  · have := mul_le_mul_of_nonneg_right h2 ha.le
    linarith

/-! ## C59 -/

/-- The force is determined by load and slips. -/
theorem C59_function (q : TireParams) (Fz kappa alpha : ℝ) : ∃ f : ℝ × ℝ, ∀ fx fy, Gives (tire q) Fz kappa alpha fx fy ↔ (fx, fy) = f :=
  ⟨(q.fx Fz kappa alpha, q.fy Fz kappa alpha), fun fx fy => by rw [gives_iff, Prod.mk.injEq]⟩

/-- The friction ellipse: whatever the slips, the force is strictly inside the ellipse with half axes `mux * Fz` and `muy * Fz`. -/
theorem C59_ellipse {q : TireParams} {Fz kappa alpha fx fy : ℝ} (h : Gives (tire q) Fz kappa alpha fx fy) :
    ∃ e f, fx = q.mux Fz * Fz * e ∧ fy = q.muy Fz * Fz * f ∧ e ^ 2 + f ^ 2 < 1 := by
  obtain ⟨rfl, rfl⟩ := (gives_iff ..).mp h
  have hp := rho_pos q Fz kappa alpha
  have hs := rho_sq q Fz kappa alpha
  refine ⟨shape q.Qx (q.rho Fz kappa alpha) * (kappa / q.kappaMax Fz) / q.rho Fz kappa alpha,
    -(shape q.Qy (q.rho Fz kappa alpha) * (alpha / q.alphaMax Fz) / q.rho Fz kappa alpha), ?_, ?_, ?_⟩
  · unfold TireParams.fx; ring
  · unfold TireParams.fy; ring
  · generalize q.rho Fz kappa alpha = ρ at *
    generalize kappa / q.kappaMax Fz = k at *
    generalize alpha / q.alphaMax Fz = a at *
    have b : ∀ Q, shape Q ρ ^ 2 ≤ 1 := fun Q => by
      unfold shape
      have := Real.sin_sq_add_cos_sq (Q * Real.arctan (Real.pi / 2 / Real.arctan Q * ρ))
      nlinarith [sq_nonneg (Real.cos (Q * Real.arctan (Real.pi / 2 / Real.arctan Q * ρ)))]
    rw [neg_sq, div_pow, div_pow, ← add_div, div_lt_one (by positivity), mul_pow, mul_pow, hs]
    have h1 := mul_le_mul_of_nonneg_right (b q.Qx) (sq_nonneg k)
    have h2 := mul_le_mul_of_nonneg_right (b q.Qy) (sq_nonneg a)
    have : (0 : ℝ) < 1 / 10 ^ 6 := by norm_num
    linarith

/-- The sign convention: the longitudinal force has the sign of the longitudinal slip, and the lateral force the sign opposite to the
lateral slip. -/
theorem C59_signs {q : TireParams} {Fz kappa alpha fx fy : ℝ} (h : Gives (tire q) Fz kappa alpha fx fy) (hF : 0 < Fz)
    (hx : 0 < q.mux Fz) (hy : 0 < q.muy Fz) (hk : 0 < q.kappaMax Fz) (ha : 0 < q.alphaMax Fz) (hQx : 0 < q.Qx ∧ q.Qx ≤ 2)
    (hQy : 0 < q.Qy ∧ q.Qy ≤ 2) : SignType.sign fx = SignType.sign kappa ∧ SignType.sign fy = -SignType.sign alpha := by
  obtain ⟨rfl, rfl⟩ := (gives_iff ..).mp h
  have hp := rho_pos q Fz kappa alpha
  have s1 := shape_pos hQx.1 hQx.2 hp
  have s2 := shape_pos hQy.1 hQy.2 hp
  have e1 : q.fx Fz kappa alpha = (q.mux Fz * shape q.Qx (q.rho Fz kappa alpha) * Fz / (q.kappaMax Fz * q.rho Fz kappa alpha)) * kappa := by
    unfold TireParams.fx; field_simp
  have e2 : q.fy Fz kappa alpha = (q.muy Fz * shape q.Qy (q.rho Fz kappa alpha) * Fz / (q.alphaMax Fz * q.rho Fz kappa alpha)) * -alpha := by
    unfold TireParams.fy; field_simp
  constructor
  · rw [e1, sign_mul, sign_pos (by positivity), one_mul]
  · rw [e2, sign_mul, sign_pos (by positivity), one_mul, Left.sign_neg]

/-- Mirror images. -/
theorem C59_mirror {q : TireParams} {Fz kappa alpha fx fy : ℝ} (h : Gives (tire q) Fz kappa alpha fx fy) :
    Gives (tire q) Fz kappa (-alpha) fx (-fy) ∧ Gives (tire q) Fz (-kappa) alpha (-fx) fy := by
  rw [gives_iff] at h ⊢
  rw [gives_iff]
  obtain ⟨rfl, rfl⟩ := h
  have r1 : q.rho Fz kappa (-alpha) = q.rho Fz kappa alpha := by unfold TireParams.rho; rw [neg_div, neg_sq]
  have r2 : q.rho Fz (-kappa) alpha = q.rho Fz kappa alpha := by unfold TireParams.rho; rw [neg_div, neg_sq]
  refine ⟨⟨?_, ?_⟩, ?_, ?_⟩
  · unfold TireParams.fx; rw [r1]
  · unfold TireParams.fy; rw [r1]; ring
  · unfold TireParams.fx; rw [r2]; ring
  · unfold TireParams.fy; rw [r2]

/-- The default parameters: the conditions of `C59_signs` hold up to a load of 22 kN. -/
theorem C59_default {Fz kappa alpha fx fy : ℝ} (h : Gives (tire defaultTire) Fz kappa alpha fx fy) (h0 : 0 < Fz) (h1 : Fz < 22000) :
    SignType.sign fx = SignType.sign kappa ∧ SignType.sign fy = -SignType.sign alpha := by
  have hp := Real.pi_pos
  refine C59_signs h h0 ?_ ?_ ?_ ?_ ?_ ?_
  · simp only [TireParams.mux, TireParams.line, defaultTire]; linarith
  · simp only [TireParams.muy, TireParams.line, defaultTire]; linarith
  · simp only [TireParams.kappaMax, TireParams.line, defaultTire]; linarith
  · simp only [TireParams.alphaMax, TireParams.line, defaultTire]; nlinarith
  · simp only [defaultTire]; norm_num
  · simp only [defaultTire]; norm_num

/-- Finding: above that the straight lines have run through zero and the longitudinal force has the wrong sign. (The lines are not
limited to loads between `Fz1` and `Fz2`.) -/
theorem C59_overload {Fz kappa alpha fx fy : ℝ} (h : Gives (tire defaultTire) Fz kappa alpha fx fy) (h0 : 22000 < Fz) (h1 : Fz < 46000) :
    SignType.sign fx = -SignType.sign kappa := by
  obtain ⟨rfl, rfl⟩ := (gives_iff ..).mp h
  have hp := rho_pos defaultTire Fz kappa alpha
  have s1 : 0 < shape defaultTire.Qx (defaultTire.rho Fz kappa alpha) :=
    shape_pos (by simp only [defaultTire]; norm_num) (by simp only [defaultTire]; norm_num) hp
  have hx : 0 < -defaultTire.mux Fz := by simp only [TireParams.mux, TireParams.line, defaultTire]; linarith
  have hk : 0 < defaultTire.kappaMax Fz := by simp only [TireParams.kappaMax, TireParams.line, defaultTire]; linarith
  have hF : 0 < Fz := by linarith
  have e1 : defaultTire.fx Fz kappa alpha = (-defaultTire.mux Fz * shape defaultTire.Qx (defaultTire.rho Fz kappa alpha) * Fz /
      (defaultTire.kappaMax Fz * defaultTire.rho Fz kappa alpha)) * -kappa := by
    unfold TireParams.fx; field_simp
  rw [e1, sign_mul, sign_pos (by positivity), one_mul, Left.sign_neg]

/-! ### Where the peak is -/

theorem le_arctan {t : ℝ} (ht : 0 ≤ t) : t / (1 + t ^ 2) ≤ Real.arctan t := by
  have h0 : 0 ≤ Real.arctan t := Real.arctan_nonneg.mpr ht
  have h := Real.sin_le (by linarith : 0 ≤ 2 * Real.arctan t)
  rw [Real.sin_two_mul] at h
  have ht : Real.sin (Real.arctan t) * Real.cos (Real.arctan t) = t / (1 + t ^ 2) := by
    rw [Real.sin_arctan, Real.cos_arctan, div_mul_div_comm, mul_one, Real.mul_self_sqrt (by positivity)]
  linarith

/-- The angle that `S` is made of. -/
theorem arctan_Q : Real.pi / 4 ≤ Real.arctan (19 / 10) ∧ Real.arctan (19 / 10) ≤ Real.pi / 2 / (12 / 10) := by
  constructor
  · rw [← Real.arctan_one]; exact Real.arctan_strictMono.monotone (by norm_num)
  · have h := Real.arctan_inv_of_pos (show (0 : ℝ) < 19 / 10 by norm_num)
    have := le_arctan (show (0 : ℝ) ≤ (19 / 10)⁻¹ by norm_num)
    rw [h] at this
    have : ((19 / 10 : ℝ)⁻¹ / (1 + (19 / 10)⁻¹ ^ 2)) = 190 / 461 := by norm_num
    have := Real.pi_lt_d2
    linarith

theorem le_arctan_12 : (175 / 200 : ℝ) ≤ Real.arctan (12 / 10) := by
  have h := Real.arctan_add (x := 1) (y := 1 / 11) (by norm_num)
  rw [Real.arctan_one, show ((1 + 1 / 11 : ℝ) / (1 - 1 * (1 / 11))) = 12 / 10 by norm_num] at h
  have := le_arctan (show (0 : ℝ) ≤ 1 / 11 by norm_num)
  rw [show (1 / 11 : ℝ) / (1 + (1 / 11) ^ 2) = 11 / 122 by norm_num] at this
  have := Real.pi_gt_d2
  linarith

/-- Finding: the greatest longitudinal force of the default tire at any load up to 22 kN is not at the slip "for the friction peak":
there is a smaller slip with a greater force. -/
theorem C59_peak {Fz : ℝ} (h0 : 0 < Fz) (h1 : Fz < 22000) :
    ∃ kappa fx fx', 0 < kappa ∧ kappa < defaultTire.kappaMax Fz ∧ Gives (tire defaultTire) Fz kappa 0 fx 0 ∧
      Gives (tire defaultTire) Fz (defaultTire.kappaMax Fz) 0 fx' 0 ∧ fx' < fx := by
  have hk : 0 < defaultTire.kappaMax Fz := by simp only [TireParams.kappaMax, TireParams.line, defaultTire]; linarith
  have hx : 0 < defaultTire.mux Fz := by simp only [TireParams.mux, TireParams.line, defaultTire]; linarith
  have p1 := Real.pi_gt_d2
  have p2 := Real.pi_lt_d2
  obtain ⟨a1, a2⟩ := arctan_Q
  set A := Real.arctan (19 / 10) with hA
  have hA0 : 0 < A := by linarith
  set S := Real.pi / 2 / A with hS
  have s1 : 12 / 10 ≤ S := by
    rw [hS, le_div_iff₀ hA0]
    rw [le_div_iff₀ (by norm_num)] at a2
    linarith
  have s2 : S ≤ 2 := by
    rw [hS, div_le_iff₀ hA0]; linarith
  -- the angle at which the sine is greatest
  have t1 : Real.pi / 2 / (19 / 10) < Real.arctan (12 / 10) := by
    have := le_arctan_12
    linarith
  set T := Real.tan (Real.pi / 2 / (19 / 10)) with hT
  have t2 : T < 12 / 10 := by
    rw [← Real.tan_arctan (12 / 10)]
    exact Real.tan_lt_tan_of_lt_of_lt_pi_div_two (by linarith) (Real.arctan_lt_pi_div_two _) t1
  have t3 : 1 < T := by
    rw [← Real.tan_pi_div_four]
    exact Real.tan_lt_tan_of_lt_of_lt_pi_div_two (by linarith) (by linarith) (by linarith)
  have t4 : Real.arctan T = Real.pi / 2 / (19 / 10) := Real.arctan_tan (by linarith) (by linarith)
  set ρ := T / S with hρ
  have r1 : 1 / 2 ≤ ρ := by rw [hρ, le_div_iff₀ (by linarith)]; linarith
  have r2 : ρ < 1 := by rw [hρ, div_lt_one (by linarith)]; linarith
  have r3 : S * ρ = T := by rw [hρ]; field_simp
  set k := Real.sqrt (ρ ^ 2 - 1 / 10 ^ 6) with hkd
  have k0 : (0 : ℝ) < ρ ^ 2 - 1 / 10 ^ 6 := by nlinarith
  have k1 : k ^ 2 = ρ ^ 2 - 1 / 10 ^ 6 := Real.sq_sqrt k0.le
  have k2 : 0 < k := Real.sqrt_pos.mpr k0
  have k3 : k < 1 := by nlinarith
  have zero : ∀ κ, defaultTire.fy Fz κ 0 = 0 := fun κ => by unfold TireParams.fy; simp
  have e1 : defaultTire.rho Fz (k * defaultTire.kappaMax Fz) 0 = ρ := by
    unfold TireParams.rho
    rw [mul_div_assoc, div_self hk.ne', mul_one, k1, zero_div]
    rw [show (0 : ℝ) ^ 2 + (ρ ^ 2 - 1 / 10 ^ 6) + 1 / 10 ^ 6 = ρ ^ 2 by ring]
    exact Real.sqrt_sq (by linarith)
  set ρ1 := defaultTire.rho Fz (defaultTire.kappaMax Fz) 0 with hρ1
  have e2 : 1 ≤ ρ1 := by
    rw [hρ1]
    unfold TireParams.rho
    rw [div_self hk.ne', zero_div]
    apply Real.le_sqrt_of_sq_le
    norm_num
  have f1 : shape (19 / 10) ρ = 1 := by
    unfold shape
    rw [← hA, ← hS, r3, t4, show (19 / 10 : ℝ) * (Real.pi / 2 / (19 / 10)) = Real.pi / 2 by ring, Real.sin_pi_div_two]
  have f2 : shape (19 / 10) ρ1 ≤ 1 - 4 / 10 ^ 5 := by
    unfold shape
    rw [← hA, ← hS]
    have g1 : 175 / 200 ≤ Real.arctan (S * ρ1) :=
      le_arctan_12.trans (Real.arctan_strictMono.monotone (by nlinarith))
    have g2 := Real.arctan_lt_pi_div_two (S * ρ1)
    set φ := 19 / 10 * Real.arctan (S * ρ1) with hφ
    rw [show φ = (φ - Real.pi / 2) + Real.pi / 2 by ring, Real.sin_add_pi_div_two]
    refine (Real.cos_le_cos_of_nonneg_of_le_pi (x := 1 / 100) (by norm_num) (by linarith) (by linarith)).trans ?_
    have := (abs_le.mp (Real.cos_bound (x := 1 / 100) (by norm_num [abs_le]))).2
    norm_num at this
    norm_num
    linarith
  refine ⟨k * defaultTire.kappaMax Fz, _, _, by positivity, by nlinarith, (gives_iff ..).mpr ⟨rfl, (zero _).symm⟩,
    (gives_iff ..).mpr ⟨rfl, (zero _).symm⟩, ?_⟩
  unfold TireParams.fx
  rw [e1, ← hρ1, show defaultTire.Qx = 19 / 10 from rfl, f1, mul_div_cancel_right₀ k hk.ne', div_self hk.ne', mul_one, mul_one]
  have big : 1 - 1 / 10 ^ 5 ≤ k / ρ := by
    rw [le_div_iff₀ (by linarith)]
    refine le_of_sq_le_sq ?_ k2.le
    rw [k1]
    nlinarith
  have small : shape (19 / 10) ρ1 / ρ1 ≤ 1 - 4 / 10 ^ 5 := by
    rw [div_le_iff₀ (by linarith)]
    nlinarith
  calc defaultTire.mux Fz * shape (19 / 10) ρ1 * Fz / ρ1 = defaultTire.mux Fz * Fz * (shape (19 / 10) ρ1 / ρ1) := by ring
    _ < defaultTire.mux Fz * Fz * (k / ρ) := by
      apply mul_lt_mul_of_pos_left _ (by positivity)
      linarith
    _ = _ := by ring

end Lumos.Veh
