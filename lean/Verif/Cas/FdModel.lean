import Verif.Base.Py
import Mathlib.Data.Real.Basic
/-!
# Finite difference weights

Models `finite_difference_coefficients` of `lumos/numpy/casadi_numpy/finite_difference_operators.py` (numbers, exact).
-/

namespace Lumos.Cas

open Lumos

/-- The array `delta` (finite_difference_operators.py:64): `delta[m, n, v]`. -/
abbrev Table := Nat → Nat → Nat → ℝ

/-- `delta[m, n, v] = y`. -/
def Table.set (t : Table) (m n v : Nat) (y : ℝ) : Table :=
  fun m' n' v' => if m' = m ∧ n' = n ∧ v' = v then y else t m' n' v'

/-- The index `m - 1` of an array with `M + 1` entries: `-1` is the last one. -/
def before (M m : Nat) : Nat := if m = 0 then M else m - 1

/-- The innermost loop (finite_difference_operators.py:77-80): one row `n`, one node `v`, all `m` in `range(k)`. -/
noncomputable def rowLoop (x : Nat → ℝ) (x0 : ℝ) (M n v : Nat) (c3 : ℝ) (t : Table) (k : Nat) : Table :=
  (List.range k).foldl (fun t m => t.set m n v (((x n - x0) * t m (n - 1) v - m * t (before M m) (n - 1) v) / c3)) t

/-- The loop over the nodes before `n` (finite_difference_operators.py:72-80): the table and `c2`. -/
noncomputable def nodeLoop (x : Nat → ℝ) (x0 : ℝ) (M n : Nat) (t : Table) (k : Nat) : Table × ℝ :=
  (List.range k).foldl (fun s v => (rowLoop x x0 M n v (x n - x v) s.1 (min n M + 1), s.2 * (x n - x v))) (t, 1)

/-- The loop for the new node (finite_difference_operators.py:81-89). -/
noncomputable def newLoop (x : Nat → ℝ) (x0 : ℝ) (M n : Nat) (c1 c2 : ℝ) (t : Table) (k : Nat) : Table :=
  (List.range k).foldl (fun t m =>
    t.set m n n (c1 / c2 * (m * t (before M m) (n - 1) (n - 1) - (x (n - 1) - x0) * t m (n - 1) (n - 1)))) t

/-- One pass of the outer loop (finite_difference_operators.py:68-90): the table and `c1`. -/
noncomputable def fdStep (x : Nat → ℝ) (x0 : ℝ) (M : Nat) (s : Table × ℝ) (n : Nat) : Table × ℝ :=
  let (t, c2) := nodeLoop x x0 M n s.1 n
  (newLoop x x0 M n s.2 c2 t (min n M + 1), c2)

/-- The outer loop for `n` from 1 to `N` (finite_difference_operators.py:64-90). -/
noncomputable def fdLoop (x : Nat → ℝ) (x0 : ℝ) (M N : Nat) : Table × ℝ :=
  (List.range N).foldl (fun s k => fdStep x x0 M s (k + 1)) (Table.set (fun _ _ _ => 0) 0 0 0 1, 1)

/-- What the function returns: the weights, or an exception as a value (it is returned, not raised). -/
inductive FdResult where
  | weights (w : List ℝ)
  | valueError

/-- `finite_difference_coefficients(x, x0, derivative_degree)` (finite_difference_operators.py:5-98). Two equal nodes divide by zero:
`ZeroDivisionError` (simplification: numpy numbers go on with infinities). -/
noncomputable def fdCoefficients (x : List ℝ) (x0 : ℝ) (M : Int) : Py FdResult :=
  if M < 1 then .ok .valueError
  else if (x.length : Int) - M < 1 then .ok .valueError
  else if ¬ x.Nodup then .error .zeroDivisionError
  else
    let N := x.length - 1
    .ok (.weights ((List.range (N + 1)).map fun v => (fdLoop (fun i => x.getD i 0) x0 M.toNat N).1 M.toNat N v))

end Lumos.Cas
