import Verif.Sim.Brach
/-!
# C93: the cycloid of examples/brachistochrone.py, and motions of the bead

`cycloid` gives the time, `T`, that the example compares the solved problem with.
-/

namespace Lumos.Cycloid

open Lumos Sim Io Real Set

/-! ## Model -/

/-- `np.linspace(0, b, N)`. -/
noncomputable def linspace (b : ℝ) (N : Nat) : List ℝ := (List.range N).map fun i : Nat => i * (b / (N - 1 : ℝ))

/-- `f` of `cycloid` (brachistochrone.py:33-34). -/
noncomputable def equation (dx dy θ : ℝ) : ℝ := -dy / dx - (1 - cos θ) / (θ - sin θ)

/-- `cycloid` (brachistochrone.py:20-49). `newton f x0` stands for `scipy.optimize.newton`, which returns a number or raises. The first
call of `f` divides by `dx`. Simplification: real numbers. -/
noncomputable def cycloid (newton : (ℝ → ℝ) → ℝ → Py ℝ) (dx dy : ℝ) (N : Nat) (g : ℝ) : Py (List ℝ × List ℝ × ℝ) :=
  if dx = 0 then .error .zeroDivisionError
  else do
    let θ2 ← newton (equation dx dy) (π / 2)
    let R := -dy / (1 - cos θ2)
    let θ := linspace θ2 N
    return (θ.map fun t => R * (t - sin t), θ.map fun t => -(R * (1 - cos t)), θ2 * √(R / g))

/-! ## Specification -/

/-- The speed, the position and the slope, as functions of the time on `[0, T]`, whose rates are what `TimeModel.forward` returns. -/
def Follows (g T : ℝ) (v x y θ : ℝ → ℝ) : Prop :=
  ∀ t ∈ Icc 0 T, ∃ r a b c,
    (Mdl.node (timeCls g) []).eval ⟨some [("v", v t), ("x", x t), ("y", y t)], some [("theta", θ t)], some t⟩ = .ok r ∧
      r.statesDot.lookup "v" = some a ∧ r.statesDot.lookup "x" = some b ∧ r.statesDot.lookup "y" = some c ∧
      HasDerivWithinAt v a (Icc 0 T) t ∧ HasDerivWithinAt x b (Icc 0 T) t ∧ HasDerivWithinAt y c (Icc 0 T) t

/-- A slide in the time `T` from rest at the origin to `(dx, dy)`. -/
structure Arrives (g dx dy T : ℝ) (v x y θ : ℝ → ℝ) : Prop where
  follows : Follows g T v x y θ
  rest : v 0 = 0
  start : x 0 = 0 ∧ y 0 = 0
  finish : x T = dx ∧ y T = dy

theorem Follows.rates {g T : ℝ} {v x y θ : ℝ → ℝ} (h : Follows g T v x y θ) {t : ℝ} (ht : t ∈ Icc 0 T) :
    HasDerivWithinAt v (-g * sin (θ t)) (Icc 0 T) t ∧ HasDerivWithinAt x (cos (θ t) * v t) (Icc 0 T) t ∧
      HasDerivWithinAt y (sin (θ t) * v t) (Icc 0 T) t := by
  obtain ⟨r, a, b, c, h0, h1, h2, h3, h4, h5, h6⟩ := h t ht
  have e : (Mdl.node (timeCls g) []).eval ⟨some [("v", v t), ("x", x t), ("y", y t)], some [("theta", θ t)], some t⟩ = .ok
      { statesDot := [("v", -g * sin (θ t)), ("x", cos (θ t) * v t), ("y", sin (θ t) * v t)], outputs := [("theta", θ t)] } := rfl
  rw [e, Except.ok.injEq] at h0
  subst h0
  cases h1; cases h2; cases h3
  exact ⟨h4, h5, h6⟩

theorem follows_of {g T : ℝ} {v x y θ : ℝ → ℝ} (h : ∀ t ∈ Icc 0 T, HasDerivWithinAt v (-g * sin (θ t)) (Icc 0 T) t ∧
    HasDerivWithinAt x (cos (θ t) * v t) (Icc 0 T) t ∧ HasDerivWithinAt y (sin (θ t) * v t) (Icc 0 T) t) : Follows g T v x y θ :=
  fun t ht => ⟨_, _, _, _, rfl, rfl, rfl, rfl, (h t ht).1, (h t ht).2.1, (h t ht).2.2⟩

end Lumos.Cycloid
