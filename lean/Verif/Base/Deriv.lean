import Verif.Base.Sparse
import Mathlib.Analysis.Calculus.Deriv.Basic
import Mathlib.Analysis.Calculus.Deriv.Mul
import Mathlib.Analysis.Calculus.Deriv.Add
import Mathlib.Analysis.Calculus.Deriv.Comp
/-!
# What "is the derivative" means

Specification only: partial derivatives of functions of a real vector given as a list, by Mathlib's
`HasDerivAt` along each coordinate. `x.set j t` is the vector `x` with its `j`-th entry replaced by `t`.
-/

namespace Lumos

/-- `J r j` is the partial derivative of the `r`-th component of `f` w.r.t. `x_j` at `x`
(for all `r < m`, `j < n`). -/
def IsJacobianAt (n m : Nat) (f : List ℝ → List ℝ) (x : List ℝ) (J : Nat → Nat → ℝ) : Prop :=
  ∀ r, r < m → ∀ j, j < n → HasDerivAt (fun t => (f (x.set j t)).getD r 0) (J r j) (x.getD j 0)

/-- `g` is the gradient of the scalar function `f` at `x`. -/
def IsGradientAt (n : Nat) (f : List ℝ → ℝ) (x : List ℝ) (g : Nat → ℝ) : Prop :=
  ∀ j, j < n → HasDerivAt (fun t => f (x.set j t)) (g j) (x.getD j 0)

/-- On the index pairs in `P`, `H i j` is the second partial derivative `∂²f/∂x_j∂x_i` at `x`: the gradient `g` of `f` exists near
`x` along every coordinate, and its `i`-th component has partial derivative `H i j`. -/
def IsHessianAt (n : Nat) (f : List ℝ → ℝ) (x : List ℝ) (P : Nat → Nat → Prop) (H : Nat → Nat → ℝ) : Prop :=
  ∃ g : List ℝ → Nat → ℝ, (∀ j, j < n → ∀ᶠ t in nhds (x.getD j 0), IsGradientAt n f (x.set j t) (g (x.set j t))) ∧
    ∀ i j, i < n → j < n → P i j → HasDerivAt (fun t => g (x.set j t) i) (H i j) (x.getD j 0)

/-- Dot product of two lists (`jnp.dot` / the Lagrangian term). -/
def dot (a b : List ℝ) : ℝ := (List.zipWith (· * ·) a b).sum

/-- Elementwise product and quotient of arrays of equal length. -/
def vmul (a b : List ℝ) : List ℝ := List.zipWith (· * ·) a b
noncomputable def vdiv (a b : List ℝ) : List ℝ := List.zipWith (· / ·) a b

@[simp] theorem length_vmul (a b : List ℝ) : (vmul a b).length = min a.length b.length := by simp [vmul]
@[simp] theorem length_vdiv (a b : List ℝ) : (vdiv a b).length = min a.length b.length := by simp [vdiv]

theorem getD_vmul {a b : List ℝ} (h : a.length = b.length) (i : Nat) :
    (vmul a b).getD i 0 = a.getD i 0 * b.getD i 0 := by
  by_cases hi : i < a.length
  · have hb : i < b.length := by omega
    simp [vmul, hi, hb]
  · have hb : b.length ≤ i := by omega
    have ha : a.length ≤ i := by omega
    simp [vmul, ha]

theorem getD_vdiv {a b : List ℝ} (h : a.length = b.length) (i : Nat) :
    (vdiv a b).getD i 0 = a.getD i 0 / b.getD i 0 := by
  by_cases hi : i < a.length
  · have hb : i < b.length := by omega
    simp [vdiv, hi, hb]
  · have hb : b.length ≤ i := by omega
    have ha : a.length ≤ i := by omega
    simp [vdiv, ha]

/-- Setting a coordinate commutes with elementwise scaling. -/
theorem vmul_set {x s : List ℝ} (h : x.length = s.length) (j : Nat) (t : ℝ) :
    vmul (x.set j t) s = (vmul x s).set j (t * s.getD j 0) := by
  apply List.ext_getElem?
  intro i
  by_cases hi : i < x.length
  · have hs : i < s.length := by omega
    by_cases hij : j = i
    · subst hij
      simp [vmul, hs, hi]
    · simp [vmul, hij, hi, hs]
  · have hs : s.length ≤ i := by omega
    have hx : x.length ≤ i := by omega
    simp [vmul, hs]

theorem vmul_vdiv_cancel {x s : List ℝ} (h : x.length = s.length) (hs : ∀ a ∈ s, a ≠ 0) :
    vmul (vdiv x s) s = x := by
  apply List.ext_getElem?
  intro i
  by_cases hi : i < x.length
  · have hi' : i < s.length := by omega
    have := hs _ (List.getElem_mem hi')
    simp [vmul, vdiv, hi, hi', this]
  · have hx : x.length ≤ i := by omega
    simp [vmul, vdiv, hx]

theorem vdiv_vmul_cancel {x s : List ℝ} (h : x.length = s.length) (hs : ∀ a ∈ s, a ≠ 0) :
    vdiv (vmul x s) s = x := by
  apply List.ext_getElem?
  intro i
  by_cases hi : i < x.length
  · have hi' : i < s.length := by omega
    have := hs _ (List.getElem_mem hi')
    simp [vmul, vdiv, hi, hi', this]
  · have hx : x.length ≤ i := by omega
    simp [vmul, vdiv, hx]

theorem getD_mem_ne {s : List ℝ} (hs : ∀ a ∈ s, a ≠ 0) {i : Nat} (hi : i < s.length) : s.getD i 0 ≠ 0 := by
  have := hs _ (List.getElem_mem hi)
  simpa [hi] using this

/-- A gradient at every vector is one near `x`. -/
theorem IsHessianAt.of_global {n : Nat} {f : List ℝ → ℝ} {x : List ℝ} {P : Nat → Nat → Prop} {H : Nat → Nat → ℝ}
    (hx : x.length = n) (h : ∃ g : List ℝ → Nat → ℝ, (∀ y : List ℝ, y.length = n → IsGradientAt n f y (g y)) ∧
      ∀ i j, i < n → j < n → P i j → HasDerivAt (fun t => g (x.set j t) i) (H i j) (x.getD j 0)) : IsHessianAt n f x P H := by
  obtain ⟨g, hg, hgg⟩ := h
  exact ⟨g, fun j _ => Filter.Eventually.of_forall fun t => hg _ (by simp [hx]), hgg⟩

/-- Two functions with the same Hessian data differ by nothing: helper to change `f` pointwise. -/
theorem IsHessianAt.congr {n : Nat} {f f' : List ℝ → ℝ} {x : List ℝ} {P : Nat → Nat → Prop}
    {H H' : Nat → Nat → ℝ} (h : IsHessianAt n f x P H) (hx : x.length = n)
    (hf : ∀ y : List ℝ, y.length = n → f' y = f y)
    (hH : ∀ i j, i < n → j < n → P i j → H' i j = H i j) : IsHessianAt n f' x P H' := by
  obtain ⟨g, hg, hgg⟩ := h
  refine ⟨g, ?_, ?_⟩
  · intro j hj
    filter_upwards [hg j hj] with t ht i hi
    refine (ht i hi).congr_of_eventuallyEq ?_
    exact Filter.Eventually.of_forall (fun r => hf _ (by simp [hx]))
  · intro i j hi hj hp
    rw [hH i j hi hj hp]
    exact hgg i j hi hj hp

end Lumos
