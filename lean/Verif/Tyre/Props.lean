import Verif.Tyre.Moments
import Verif.Veh.Perantoni
/-!
# C82: the forces of the MF5.2 tyre
-/

namespace Lumos.Tyre

open Lumos Io Veh

/-! ## Specification -/

/-- The parameters of a dict. -/
noncomputable def par (d : Dict ℝ) : Pars := fun k => (d.lookup k).getD 0

/-- The tyre with the parameters `d`, called with five inputs. -/
noncomputable def tyre (d : Dict ℝ) (opt : Bool) (i : In) : Py (Ret ℝ) :=
  (Mdl.node (mf52 d opt) []).eval
    { inputs := some [("Fz", i.Fz), ("kappa", i.kappa), ("alpha", i.alpha), ("vx", i.vx), ("gamma", i.gamma)] }

/-- The tyre returns ten finite outputs. -/
def Gives (d : Dict ℝ) (opt : Bool) (i : In) (o : Out) : Prop :=
  ∃ r, tyre d opt i = .ok r ∧ r.outputs = [("Fx", o.Fx), ("Fy", o.Fy), ("Mx", o.Mx), ("My", o.My), ("Mz", o.Mz), ("Kxk", o.Kxk),
    ("Gxa", o.Gxa), ("Kya", o.Kya), ("Gyk", o.Gyk), ("GSum", o.GSum)]

/-- The dict has the parameters that are read. -/
def HasKeys (d : Dict ℝ) (opt : Bool) : Prop := ∀ k ∈ forceKeys ++ (if opt then [] else momentKeys), (d.lookup k).isSome

/-! ## The tyre evaluates the formulas -/

theorem tyre_eq (d : Dict ℝ) (opt : Bool) (i : In) (h : HasKeys d opt) :
    tyre d opt i = (forces (par d) opt i).bind fun o => .ok { outputs := [("Fx", o.Fx), ("Fy", o.Fy), ("Mx", o.Mx), ("My", o.My),
      ("Mz", o.Mz), ("Kxk", o.Kxk), ("Gxa", o.Gxa), ("Kya", o.Kya), ("Gyk", o.Gyk), ("GSum", o.GSum)] } := by
  unfold HasKeys at h
  have e : (Mdl.node (mf52 d opt) []).eval
      { inputs := some [("Fz", i.Fz), ("kappa", i.kappa), ("alpha", i.alpha), ("vx", i.vx), ("gamma", i.gamma)] } =
      Mdl.evalProg (Mdl.names (Mdl.node (mf52 d opt) [])) [] (Mdl.evalL []) []
        ((lift (if ∀ k ∈ forceKeys ++ (if opt then [] else momentKeys), (d.lookup k).isSome then .ok () else .error .keyError)
          : Stmt Unit) fun _ => (lift (forces (par d) opt i) : Stmt Out) fun o => .done { outputs := [("Fx", o.Fx), ("Fy", o.Fy), ("Mx", o.Mx),
            ("My", o.My), ("Mz", o.Mz), ("Kxk", o.Kxk), ("Gxa", o.Gxa), ("Kya", o.Kya), ("Gyk", o.Gyk), ("GSum", o.GSum)] }) := rfl
  unfold tyre
  rw [e, if_pos h]
  simp only [lift]
  rcases forces (par d) opt i with x | o
  · rfl
  · rfl

theorem gives_iff (d : Dict ℝ) (opt : Bool) (i : In) (o : Out) (hk : HasKeys d opt) : Gives d opt i o ↔ forces (par d) opt i = .ok o := by
  unfold Gives
  rw [tyre_eq d opt i hk]
  constructor
  · rintro ⟨r, h1, h2⟩
    rcases hf : forces (par d) opt i with x | o'
    · rw [hf] at h1
      cases h1
    · rw [hf] at h1
      cases h1
      simp only [List.cons.injEq, Prod.mk.injEq, true_and, and_true] at h2
      obtain ⟨a1, a2, a3, a4, a5, a6, a7, a8, a9, a10⟩ := h2
      cases o
      cases o'
      simp only at a1 a2 a3 a4 a5 a6 a7 a8 a9 a10
      subst a1 a2 a3 a4 a5 a6 a7 a8 a9 a10
      rfl
  · intro h
    rw [h]
    exact ⟨_, rfl, rfl⟩

theorem tyre_key (d : Dict ℝ) (opt : Bool) (i : In) (h : ¬HasKeys d opt) : tyre d opt i = .error .keyError := by
  unfold HasKeys at h
  have e : (Mdl.node (mf52 d opt) []).eval
      { inputs := some [("Fz", i.Fz), ("kappa", i.kappa), ("alpha", i.alpha), ("vx", i.vx), ("gamma", i.gamma)] } =
      Mdl.evalProg (Mdl.names (Mdl.node (mf52 d opt) [])) [] (Mdl.evalL []) []
        ((lift (if ∀ k ∈ forceKeys ++ (if opt then [] else momentKeys), (d.lookup k).isSome then .ok () else .error .keyError)
          : Stmt Unit) fun _ => (lift (forces (par d) opt i) : Stmt Out) fun o => .done { outputs := [("Fx", o.Fx), ("Fy", o.Fy), ("Mx", o.Mx),
            ("My", o.My), ("Mz", o.Mz), ("Kxk", o.Kxk), ("Gxa", o.Gxa), ("Kya", o.Kya), ("Gyk", o.Gyk), ("GSum", o.GSum)] }) := rfl
  unfold tyre
  rw [e, if_neg h]
  rfl

theorem hasKeys_of {d : Dict ℝ} {opt : Bool} {i : In} {o : Out} (h : Gives d opt i o) : HasKeys d opt := by
  by_contra hk
  obtain ⟨r, h1, -⟩ := h
  rw [tyre_key d opt i hk] at h1
  cases h1

theorem gives_inv {d : Dict ℝ} {opt : Bool} {i : In} {o : Out} (h : Gives d opt i o) :
    Finite (par d) i ∧ o = outOf (par d) i (if opt then (0, 0, 0)
      else (overturning (par d) i.gamma i.Fz (forceY (par d) i), rolling (par d) i.Fz i.vx (forceX (par d) i), aligning (par d) i)) := by
  have h1 := (forces_iff _ _ _ _).mp ((gives_iff d opt i o (hasKeys_of h)).mp h)
  exact ⟨h1.1, h1.2.2⟩

/-! ## Bounds of the magic formula -/

theorem arctan_le_self {u : ℝ} (h : 0 ≤ u) : Real.arctan u ≤ u := by
  have := Real.le_tan (Real.arctan_nonneg.mpr h) (Real.arctan_lt_pi_div_two u)
  rwa [Real.tan_arctan] at this

theorem abs_arctan_le (u : ℝ) : |Real.arctan u| ≤ |u| := by
  rcases le_total 0 u with h | h
  · rw [abs_of_nonneg (Real.arctan_nonneg.mpr h), abs_of_nonneg h]
    exact arctan_le_self h
  · have h' : 0 ≤ -u := by linarith
    have := arctan_le_self h'
    rw [Real.arctan_neg] at this
    rw [abs_of_nonpos (by simpa using Real.arctan_mono h), abs_of_nonpos h]
    exact this

theorem sub_arctan_nonneg {t : ℝ} (h : 0 ≤ t) : 0 ≤ t - Real.arctan t := sub_nonneg.mpr (arctan_le_self h)

theorem sub_arctan_le {t : ℝ} (h : 0 ≤ t) : t - Real.arctan t ≤ t ^ 3 := by
  have h1 := le_arctan h
  have h2 : t - t / (1 + t ^ 2) ≤ t ^ 3 := by
    rw [show t - t / (1 + t ^ 2) = t ^ 3 / (1 + t ^ 2) by field_simp; ring]
    exact div_le_self (by positivity) (by nlinarith [sq_nonneg t])
  linarith

theorem abs_sub_arctan (t : ℝ) : |t - Real.arctan t| ≤ |t| ^ 3 := by
  rcases le_total 0 t with h | h
  · rw [abs_of_nonneg (sub_arctan_nonneg h), abs_of_nonneg h]
    exact sub_arctan_le h
  · have h' : 0 ≤ -t := by linarith
    have h1 := sub_arctan_nonneg h'
    have h2 := sub_arctan_le h'
    rw [Real.arctan_neg] at h1 h2
    rw [abs_of_nonpos (by linarith), abs_of_nonpos h]
    linarith

theorem abs_curve_le {B E x t e : ℝ} (ht : |B * x| ≤ t) (he : |E| ≤ e) : |curve B E x| ≤ t + e * t ^ 3 := by
  unfold curve
  have h0 : 0 ≤ |B * x| := abs_nonneg _
  have h1 := abs_arctan_le (B * x - E * (B * x - Real.arctan (B * x)))
  have h2 : |B * x - E * (B * x - Real.arctan (B * x))| ≤ |B * x| + |E * (B * x - Real.arctan (B * x))| := abs_sub _ _
  rw [abs_mul E] at h2
  have h3 : |E| * |B * x - Real.arctan (B * x)| ≤ e * t ^ 3 :=
    mul_le_mul he ((abs_sub_arctan _).trans (pow_le_pow_left₀ h0 ht 3)) (abs_nonneg _) ((abs_nonneg _).trans he)
  linarith

/-- `cos (C y)` stays near 1 when `C y` is small. -/
theorem one_sub_le_cos {C y c s : ℝ} (hC : |C| ≤ c) (hy : |y| ≤ s) : 1 - (c * s) ^ 2 / 2 ≤ Real.cos (C * y) := by
  have h := Real.one_sub_sq_div_two_le_cos (x := C * y)
  have h1 : |C * y| ≤ c * s := by
    rw [abs_mul]
    exact mul_le_mul hC hy (abs_nonneg _) ((abs_nonneg _).trans hC)
  have h2 : (C * y) ^ 2 ≤ (c * s) ^ 2 := by
    rw [← sq_abs (C * y)]
    exact pow_le_pow_left₀ (abs_nonneg _) h1 2
  linarith

/-- A positive argument of the magic formula, when the curvature factor is at most one. -/
theorem curve_pos {B E x : ℝ} (hE : E ≤ 1) (h : 0 < B * x) : 0 < curve B E x := by
  unfold curve
  apply Real.arctan_pos.mpr
  have h1 := sub_arctan_nonneg h.le
  have h2 := Real.arctan_pos.mpr h
  nlinarith

theorem curve_neg {B E x : ℝ} (hE : E ≤ 1) (h : B * x < 0) : curve B E x < 0 := by
  unfold curve
  apply Real.arctan_lt_zero.mpr
  have h1 := sub_arctan_nonneg (t := -(B * x)) (by linarith)
  have h2 := Real.arctan_lt_zero.mpr h
  rw [Real.arctan_neg] at h1
  nlinarith

theorem curve_zero (B E : ℝ) : curve B E 0 = 0 := by simp [curve]

theorem abs_curve_lt (B E x : ℝ) : |curve B E x| < Real.pi / 2 := by
  rw [abs_lt]
  exact ⟨Real.neg_pi_div_two_lt_arctan _, Real.arctan_lt_pi_div_two _⟩

theorem sin_curve_pos {B C E x : ℝ} (h0 : 0 < C) (h2 : C ≤ 2) (hE : E ≤ 1) (h : 0 < B * x) : 0 < Real.sin (C * curve B E x) := by
  have h1 := curve_pos hE h
  have h3 := (abs_lt.mp (abs_curve_lt B E x)).2
  apply Real.sin_pos_of_pos_of_lt_pi (by positivity)
  nlinarith

theorem sin_curve_neg {B C E x : ℝ} (h0 : 0 < C) (h2 : C ≤ 2) (hE : E ≤ 1) (h : B * x < 0) : Real.sin (C * curve B E x) < 0 := by
  have h1 := curve_neg hE h
  have h3 := (abs_lt.mp (abs_curve_lt B E x)).1
  apply Real.sin_neg_of_neg_of_neg_pi_lt
  · nlinarith
  · nlinarith

end Lumos.Tyre
