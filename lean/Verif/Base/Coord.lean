import Verif.Base.Deriv
import Mathlib.Analysis.Calculus.Deriv.Inv
import Mathlib.Algebra.BigOperators.Fin
/-! Derivatives of coordinates and of finite sums of coordinates. -/

namespace Lumos

/-- The derivative of a coordinate of a vector along a coordinate direction. -/
theorem hasDerivAt_coord (x : List ℝ) {c : Nat} (hc : c < x.length) (p : Nat) (t0 : ℝ) :
    HasDerivAt (fun t => (x.set c t).getD p 0) (if p = c then 1 else 0) t0 := by
  by_cases h : p = c
  · subst h
    have : (fun t => (x.set p t).getD p 0) = fun t => t := by
      funext t; simp [hc]
    rw [this, if_pos rfl]
    exact hasDerivAt_id t0
  · have : (fun t => (x.set c t).getD p 0) = fun _ => x.getD p 0 := by
      funext t
      simp only [List.getD_eq_getElem?_getD, List.getElem?_set_ne (Ne.symm h)]
    rw [this, if_neg h]
    exact hasDerivAt_const t0 _

theorem set_getD_self (x : List ℝ) (c : Nat) : x.set c (x.getD c 0) = x := by
  apply List.ext_getElem?
  intro i
  by_cases h : c = i
  · subst h
    by_cases hc : c < x.length
    · simp [hc]
    · simp [Nat.le_of_not_lt hc]
  · simp [List.getElem?_set_ne h]

/-- Assembling triplets that are listed by a map. -/
theorem assemble_map {ι : Type} (l : List ι) (r c : ι → Nat) (v : ι → ℝ) (i j : Nat) :
    assemble (l.map r) (l.map c) (l.map v) i j
      = (l.map fun a => if r a = i ∧ c a = j then v a else 0).sum := by
  induction l with
  | nil => simp [assemble]
  | cons a l ih => simp only [List.map_cons, assemble_cons, ih, List.sum_cons]

end Lumos
