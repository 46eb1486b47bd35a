import Verif.Cas.RotModel
import Mathlib.LinearAlgebra.UnitaryGroup
import Mathlib.LinearAlgebra.Matrix.Determinant.Basic
import Mathlib.Tactic.LinearCombination
import Mathlib.Tactic.FieldSimp
import Mathlib.Analysis.SpecialFunctions.Trigonometric.Basic
/-!
# C89: the rotation matrices are the rotations
-/

namespace Lumos.Cas

open Lumos Matrix

/-- Theorem (C89). The matrix of an angle in the plane turns every vector counterclockwise: as a complex number the vector is multiplied by
`exp(i angle)`. -/
theorem C89_plane (angle : ℝ) (v : Fin 2 → ℝ) :
    let w := rotationMatrix2D angle *ᵥ v
    (⟨w 0, w 1⟩ : ℂ) = Complex.exp (angle * Complex.I) * ⟨v 0, v 1⟩ := by
  intro w
  have e : Complex.exp (angle * Complex.I) = ⟨Real.cos angle, Real.sin angle⟩ := by
    rw [Complex.exp_mul_I]
    apply Complex.ext <;> simp [Complex.cos_ofReal_re, Complex.sin_ofReal_re, Complex.cos_ofReal_im, Complex.sin_ofReal_im]
  rw [e]
  apply Complex.ext
  · simp [w, rotationMatrix2D, dotProduct, Fin.sum_univ_two]; ring
  · simp [w, rotationMatrix2D, dotProduct, Fin.sum_univ_two]; ring

/-- Theorem (C89). The plane rotations keep lengths, keep orientation, and compose by adding angles. -/
theorem C89_plane_group (a b : ℝ) :
    rotationMatrix2D a ∈ Matrix.specialOrthogonalGroup (Fin 2) ℝ ∧ rotationMatrix2D (a + b) = rotationMatrix2D a * rotationMatrix2D b ∧
      rotationMatrix2D 0 = 1 := by
  refine ⟨?_, ?_, ?_⟩
  · rw [Matrix.mem_specialOrthogonalGroup_iff, Matrix.mem_orthogonalGroup_iff]
    have := Real.sin_sq_add_cos_sq a
    constructor
    · ext i j
      fin_cases i <;> fin_cases j <;> simp [rotationMatrix2D, mul_apply, Fin.sum_univ_two] <;> linarith
    · simp [rotationMatrix2D, det_fin_two]; linarith
  · ext i j
    fin_cases i <;> fin_cases j <;> simp [rotationMatrix2D, mul_apply, Fin.sum_univ_two, Real.sin_add, Real.cos_add] <;> ring
  · ext i j
    fin_cases i <;> fin_cases j <;> simp [rotationMatrix2D]

/-- `R` is the rotation by `angle` about the direction `axis` (right-hand rule): it fixes the axis and turns every vector `v` that is
perpendicular to it into `cos angle * v + sin angle * (u × v)`, where `u` is the axis scaled to length one. -/
def RotatesAbout (R : Matrix (Fin 3) (Fin 3) ℝ) (angle : ℝ) (axis : Fin 3 → ℝ) : Prop :=
  R *ᵥ axis = axis ∧ ∀ v : Fin 3 → ℝ, v ⬝ᵥ axis = 0 →
    R *ᵥ v = Real.cos angle • v + (Real.sin angle / Real.sqrt (axis ⬝ᵥ axis)) • (axis ⨯₃ v)

theorem dot3 (a b : Fin 3 → ℝ) : a ⬝ᵥ b = a 0 * b 0 + a 1 * b 1 + a 2 * b 2 := by
  simp [dotProduct, Fin.sum_univ_three]

theorem rodrigues_entry (angle : ℝ) (u : Fin 3 → ℝ) : rodrigues angle u =
    !![Real.cos angle + (1 - Real.cos angle) * (u 0 * u 0), -Real.sin angle * u 2 + (1 - Real.cos angle) * (u 0 * u 1),
        Real.sin angle * u 1 + (1 - Real.cos angle) * (u 0 * u 2);
      Real.sin angle * u 2 + (1 - Real.cos angle) * (u 1 * u 0), Real.cos angle + (1 - Real.cos angle) * (u 1 * u 1),
        -Real.sin angle * u 0 + (1 - Real.cos angle) * (u 1 * u 2);
      -Real.sin angle * u 1 + (1 - Real.cos angle) * (u 2 * u 0), Real.sin angle * u 0 + (1 - Real.cos angle) * (u 2 * u 1),
        Real.cos angle + (1 - Real.cos angle) * (u 2 * u 2)] := by
  ext i j
  fin_cases i <;> fin_cases j <;> simp [rodrigues, outer3]

theorem mulVec3 (A : Matrix (Fin 3) (Fin 3) ℝ) (v : Fin 3 → ℝ) (i : Fin 3) : (A *ᵥ v) i = A i 0 * v 0 + A i 1 * v 1 + A i 2 * v 2 := by
  simp [mulVec, dotProduct, Fin.sum_univ_three]

theorem rodrigues_rotates (angle : ℝ) (u : Fin 3 → ℝ) (hu : u 0 * u 0 + u 1 * u 1 + u 2 * u 2 = 1) : RotatesAbout (rodrigues angle u) angle u := by
  constructor
  · funext i
    rw [mulVec3, rodrigues_entry]
    fin_cases i <;> simp
    · linear_combination (1 - Real.cos angle) * u 0 * hu
    · linear_combination (1 - Real.cos angle) * u 1 * hu
    · linear_combination (1 - Real.cos angle) * u 2 * hu
  · intro v hv
    rw [dot3] at hv
    funext i
    rw [mulVec3, rodrigues_entry, dot3, hu, Real.sqrt_one, div_one]
    fin_cases i <;> simp [crossProduct]
    · linear_combination (1 - Real.cos angle) * u 0 * hv
    · linear_combination (1 - Real.cos angle) * u 1 * hv
    · linear_combination (1 - Real.cos angle) * u 2 * hv

/-- The matrix of the cross product with `u`. -/
def cpm (u : Fin 3 → ℝ) : Matrix (Fin 3) (Fin 3) ℝ := !![0, -u 2, u 1; u 2, 0, -u 0; -u 1, u 0, 0]

theorem rodrigues_eq (angle : ℝ) (u : Fin 3 → ℝ) :
    rodrigues angle u = Real.cos angle • (1 : Matrix (Fin 3) (Fin 3) ℝ) + Real.sin angle • cpm u + (1 - Real.cos angle) • outer3 u u := rfl

theorem cpm_sq (u : Fin 3 → ℝ) (hu : u 0 * u 0 + u 1 * u 1 + u 2 * u 2 = 1) : cpm u * cpm u = outer3 u u - 1 := by
  ext i j
  fin_cases i <;> fin_cases j <;> simp [cpm, outer3, mul_apply, Fin.sum_univ_three] <;> first | ring1 | linear_combination hu | linear_combination -hu

theorem cpm_outer (u : Fin 3 → ℝ) : cpm u * outer3 u u = 0 := by
  ext i j
  fin_cases i <;> fin_cases j <;> simp [cpm, outer3, mul_apply, Fin.sum_univ_three] <;> ring

theorem outer_cpm (u : Fin 3 → ℝ) : outer3 u u * cpm u = 0 := by
  ext i j
  fin_cases i <;> fin_cases j <;> simp [cpm, outer3, mul_apply, Fin.sum_univ_three] <;> ring

theorem outer_sq (u : Fin 3 → ℝ) (hu : u 0 * u 0 + u 1 * u 1 + u 2 * u 2 = 1) : outer3 u u * outer3 u u = outer3 u u := by
  ext i j
  simp only [outer3, mul_apply, Fin.sum_univ_three]
  linear_combination (u i * u j) * hu

theorem rodrigues_add (a b : ℝ) (u : Fin 3 → ℝ) (hu : u 0 * u 0 + u 1 * u 1 + u 2 * u 2 = 1) :
    rodrigues a u * rodrigues b u = rodrigues (a + b) u := by
  simp only [rodrigues_eq, Real.cos_add, Real.sin_add, add_mul, mul_add, smul_mul_assoc, mul_smul_comm, one_mul, mul_one, cpm_sq u hu, cpm_outer,
    outer_cpm, outer_sq u hu, smul_zero]
  module

theorem rodrigues_transpose (a : ℝ) (u : Fin 3 → ℝ) : (rodrigues a u)ᵀ = rodrigues (-a) u := by
  ext i j
  fin_cases i <;> fin_cases j <;> simp [rodrigues_entry] <;> left <;> ring

theorem rodrigues_zero (u : Fin 3 → ℝ) : rodrigues 0 u = 1 := by simp [rodrigues_eq]

theorem rodrigues_so3 (a : ℝ) (u : Fin 3 → ℝ) (hu : u 0 * u 0 + u 1 * u 1 + u 2 * u 2 = 1) :
    rodrigues a u ∈ Matrix.specialOrthogonalGroup (Fin 3) ℝ := by
  rw [Matrix.mem_specialOrthogonalGroup_iff, Matrix.mem_orthogonalGroup_iff]
  have h : rodrigues a u * (rodrigues a u)ᵀ = 1 := by
    rw [rodrigues_transpose, rodrigues_add _ _ _ hu, add_neg_cancel, rodrigues_zero]
  refine ⟨h, ?_⟩
  have h1 : (rodrigues a u).det * (rodrigues a u).det = 1 := by
    have := congrArg det h
    rwa [det_mul, det_transpose, det_one] at this
  have h2 : 0 ≤ (rodrigues a u).det := by
    have : rodrigues a u = rodrigues (a / 2) u * rodrigues (a / 2) u := by rw [rodrigues_add _ _ _ hu]; congr 1; ring
    rw [this, det_mul]; exact mul_self_nonneg _
  nlinarith

theorem norm3_eq (axis : Fin 3 → ℝ) : norm3 axis = Real.sqrt (axis ⬝ᵥ axis) := by
  rw [norm3, dot3]; congr 1; ring

theorem norm3_pos (axis : Fin 3 → ℝ) (h : axis ≠ 0) : 0 < norm3 axis := by
  unfold norm3
  apply Real.sqrt_pos.2
  by_contra hn
  apply h
  have h0 := sq_nonneg (axis 0)
  have h1 := sq_nonneg (axis 1)
  have h2 := sq_nonneg (axis 2)
  funext i
  have e0 : axis 0 ^ 2 = 0 := by linarith
  have e1 : axis 1 ^ 2 = 0 := by linarith
  have e2 : axis 2 ^ 2 = 0 := by linarith
  fin_cases i
  · simpa using e0
  · simpa using e1
  · simpa using e2

theorem unit_axis (axis : Fin 3 → ℝ) (h : axis ≠ 0) :
    axis 0 / norm3 axis * (axis 0 / norm3 axis) + axis 1 / norm3 axis * (axis 1 / norm3 axis) + axis 2 / norm3 axis * (axis 2 / norm3 axis) = 1 := by
  have hp := norm3_pos axis h
  have e : norm3 axis ^ 2 = axis 0 ^ 2 + axis 1 ^ 2 + axis 2 ^ 2 := by
    rw [norm3, Real.sq_sqrt (by positivity)]
  field_simp
  linarith

/-- Theorem (C89). For every axis that is not zero, of any length, and every angle there is a matrix, and it is a proper rotation: it keeps
lengths and orientation, fixes the axis, and turns by the angle about it, by the right-hand rule. -/
theorem C89_space (angle : ℝ) (axis : Fin 3 → ℝ) (h : axis ≠ 0) :
    ∃ R, rotationMatrix3D angle axis false = .ok R ∧ R ∈ Matrix.specialOrthogonalGroup (Fin 3) ℝ ∧ RotatesAbout R angle axis := by
  have hp := norm3_pos axis h
  have hu := unit_axis axis h
  refine ⟨rodrigues angle (fun i => axis i / norm3 axis), ?_, rodrigues_so3 _ _ hu, ?_⟩
  · rw [rotationMatrix3D, if_neg (by simp), if_neg hp.ne']
  · obtain ⟨h1, h2⟩ := rodrigues_rotates angle (fun i => axis i / norm3 axis) hu
    have e : axis = norm3 axis • (fun i => axis i / norm3 axis) := by
      funext i; simp only [Pi.smul_apply, smul_eq_mul]; field_simp
    constructor
    · have h3 : rodrigues angle (fun i => axis i / norm3 axis) *ᵥ (norm3 axis • fun i => axis i / norm3 axis)
          = norm3 axis • fun i => axis i / norm3 axis := by rw [mulVec_smul, h1]
      rwa [← e] at h3
    · intro v hv
      rw [h2 v]
      · congr 1
        have e1 : (fun i => axis i / norm3 axis) ⬝ᵥ (fun i => axis i / norm3 axis) = 1 := by rw [dot3]; exact hu
        rw [e1, Real.sqrt_one, div_one, ← norm3_eq]
        funext i
        fin_cases i <;> simp [crossProduct] <;> ring
      · rw [dot3] at hv ⊢
        field_simp
        linarith

/-- Theorem (C89). Only one matrix rotates by an angle about an axis; so the function's result is determined by `RotatesAbout`. -/
theorem C89_space_unique (R S : Matrix (Fin 3) (Fin 3) ℝ) (angle : ℝ) (axis : Fin 3 → ℝ) (h : axis ≠ 0) (hR : RotatesAbout R angle axis)
    (hS : RotatesAbout S angle axis) : R = S := by
  have key : ∀ v, R *ᵥ v = S *ᵥ v := by
    intro v
    have hp : axis ⬝ᵥ axis ≠ 0 := by
      have := norm3_pos axis h
      rw [norm3_eq] at this
      exact (Real.sqrt_pos.1 this).ne'
    have e : v = ((v ⬝ᵥ axis) / (axis ⬝ᵥ axis)) • axis + (v - ((v ⬝ᵥ axis) / (axis ⬝ᵥ axis)) • axis) := by abel
    have hperp : (v - ((v ⬝ᵥ axis) / (axis ⬝ᵥ axis)) • axis) ⬝ᵥ axis = 0 := by
      rw [sub_dotProduct, smul_dotProduct, smul_eq_mul, div_mul_cancel₀ _ hp, sub_self]
    rw [e, mulVec_add, mulVec_add, mulVec_smul, mulVec_smul, hR.1, hS.1, hR.2 _ hperp, hS.2 _ hperp]
  ext i j
  have := congrFun (key (Pi.single j 1)) i
  simpa using this

/-- Theorem (C89). Rotations about one axis compose by adding the angles; angle zero is the identity; the opposite angle is the inverse; the
opposite axis is the opposite angle. -/
theorem C89_space_group (a b : ℝ) (axis : Fin 3 → ℝ) (A B : Matrix (Fin 3) (Fin 3) ℝ)
    (hA : rotationMatrix3D a axis false = .ok A) (hB : rotationMatrix3D b axis false = .ok B) :
    rotationMatrix3D (a + b) axis false = .ok (A * B) ∧ rotationMatrix3D 0 axis false = .ok 1 ∧
      rotationMatrix3D (-a) axis false = .ok Aᵀ ∧ A * Aᵀ = 1 ∧ rotationMatrix3D a (-axis) false = .ok Aᵀ := by
  have hn : norm3 axis ≠ 0 := by
    intro h0; simp [rotationMatrix3D, h0] at hA
  have hne : axis ≠ 0 := by
    rintro rfl; simp [norm3] at hn
  have hu := unit_axis axis hne
  simp only [rotationMatrix3D, if_neg hn, Bool.false_eq_true, if_false, Except.ok.injEq] at hA hB ⊢
  subst hA hB
  have hneg : norm3 (-axis) = norm3 axis := by simp [norm3]
  refine ⟨(rodrigues_add a b _ hu).symm, rodrigues_zero _, (rodrigues_transpose a _).symm, ?_, ?_⟩
  · rw [rodrigues_transpose, rodrigues_add _ _ _ hu, add_neg_cancel, rodrigues_zero]
  · rw [hneg, if_neg hn, rodrigues_transpose]
    congr 1
    ext i j
    fin_cases i <;> fin_cases j <;> simp [rodrigues_entry] <;> first | ring1 | (left; ring1)

/-- Theorem (C89). A zero axis has no matrix. -/
theorem C89_zero_axis (angle : ℝ) : rotationMatrix3D angle 0 false = .error .zeroDivisionError := by
  simp [rotationMatrix3D, norm3]

/-- Theorem (C89). With the flag for a normalized axis the result is the same if the axis has length one; otherwise it is not a rotation,
unless the angle is a multiple of a full turn: it does not keep the axis. -/
theorem C89_flag (angle : ℝ) (axis : Fin 3 → ℝ) :
    (axis ⬝ᵥ axis = 1 → rotationMatrix3D angle axis true = rotationMatrix3D angle axis false) ∧
    (axis ≠ 0 → axis ⬝ᵥ axis ≠ 1 → Real.cos angle ≠ 1 →
      ∃ R, rotationMatrix3D angle axis true = .ok R ∧ R *ᵥ axis ≠ axis) := by
  constructor
  · intro h
    have : norm3 axis = 1 := by rw [norm3_eq, h, Real.sqrt_one]
    simp [rotationMatrix3D, this]
  · intro h0 h1 hc
    refine ⟨_, rfl, fun hR => ?_⟩
    have hk : (axis ⬝ᵥ axis - 1) * (1 - Real.cos angle) ≠ 0 := mul_ne_zero (sub_ne_zero.2 h1) (sub_ne_zero.2 (Ne.symm hc))
    apply h0
    funext i
    have h2 := congrFun hR i
    rw [mulVec3, rodrigues_entry] at h2
    rw [dot3] at hk
    have : ((axis 0 * axis 0 + axis 1 * axis 1 + axis 2 * axis 2 - 1) * (1 - Real.cos angle)) * axis i = 0 := by
      fin_cases i <;> simp at h2 <;> simp only [Fin.zero_eta, Fin.mk_one, Fin.reduceFinMk] <;> linear_combination h2
    simpa [hk] using this

/-- A quarter turn about the vertical axis, given with length two, takes the first axis to the second. -/
example : ∃ R, rotationMatrix3D (Real.pi / 2) ![0, 0, 2] false = .ok R ∧ R *ᵥ ![1, 0, 0] = ![0, 1, 0] := by
  obtain ⟨R, h1, -, -, h2⟩ := C89_space (Real.pi / 2) ![0, 0, 2] (by intro h; simpa using congrFun h 2)
  refine ⟨R, h1, ?_⟩
  rw [h2 _ (by simp)]
  have : Real.sqrt (![(0 : ℝ), 0, 2] ⬝ᵥ ![0, 0, 2]) = 2 := by
    rw [dot3]; simp
  rw [this]
  funext i
  fin_cases i <;> simp [crossProduct]

end Lumos.Cas
