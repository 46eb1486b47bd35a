import Verif.NLP.Solve
/-!
# Optimality in the units of the solver and in the units of the user: model and specification

`NLPFunction.solve` hands IPOPT a scaled problem, starting point and multipliers, and returns the unscaled point
together with IPOPT's `info`. The specification says what it is for a point to be optimal for a problem given by a
cost and a residual function: the Karush-Kuhn-Tucker conditions (with tolerances), the second-order conditions, and
minimality itself.
-/

namespace Lumos.Kkt

open Lumos Lumos.NLP

/-! ## Model -/

/-- The multipliers of the constraints and of the bounds: the arguments `lagrange`, `zl`, `zu` of
`NLPFunction.solve`, and the entries `mult_g`, `mult_x_L`, `mult_x_U` of the `info` it returns. nlp.py:581-588. -/
structure Mult where
  lam : List ℝ
  zl : List ℝ
  zu : List ℝ

/-- `NLPFunction.solve` with the multipliers, which `Prob.solve` leaves out. nlp.py:581-649: `lagrange`, `zl` and
`zu` are handed to IPOPT as they are and IPOPT's `info` is returned as it is (see the TODO at nlp.py:613-614).
IPOPT's options and the parsing of its timing file are left out. -/
noncomputable def solveWarm (p : Prob) (lb ub : List EReal) (initGuess : Option (List ℝ)) (mult : Mult)
    (defaultGuess : List ℝ) (solver : Prob → SolverInput → Mult → List ℝ × Mult × Int) :
    Prob × Py (List ℝ × Mult × Int) :=
  let r : Prob × Option PyErr :=
    if p.objs.isEmpty then p.addObjective "const_obj" (constObj p.numDec) else (p, none)
  match r with
  | (q, some e) => (q, .error e)
  | (q, none) =>
    let x0 := initGuess.getD defaultGuess
    let input : SolverInput :=
      { n := q.numDec, m := q.numCon, lb := scaleBounds lb q.scales, ub := scaleBounds ub q.scales
        x0 := vdiv x0 q.scales }
    let out := solver q input mult
    if out.2.2 = -13 then (q, .error .runtimeError)
    else (q, .ok (vmul out.1 q.scales, out.2.1, out.2.2))

/-! ## The problem in the user's units -/

/-- The sum of the objectives as the user wrote them, at a point in the user's units. -/
def cost (p : Prob) (x : List ℝ) : ℝ := (p.objs.map fun o => o.2.obj x).sum

/-- The constraints as the user wrote them, in the order in which they were added. -/
def residual (p : Prob) (x : List ℝ) : List ℝ := (p.cons.map fun c => c.2.con x).flatten

/-- The constraint scales, in the same order. -/
def conScale (p : Prob) : List ℝ := (p.cons.map fun c => c.2.conScales).flatten

/-! ## Specification: optimality -/

/-- The Karush-Kuhn-Tucker conditions of "minimise a function with gradient `g` subject to `c = 0` (with Jacobian
`J`) and `lb ≤ x ≤ ub`", each up to its own tolerance. -/
structure KKT (n m : Nat) (dual prim comp : Nat → ℝ) (g : Nat → ℝ) (c : List ℝ) (J : Nat → Nat → ℝ) (lb ub : List EReal)
    (x : List ℝ) (w : Mult) : Prop where
  lengths : x.length = n ∧ w.lam.length = m ∧ w.zl.length = n ∧ w.zu.length = n
  feasible : c.length = m ∧ ∀ r, r < m → |c.getD r 0| ≤ prim r
  within : Within lb ub x
  sign : ∀ j, j < n → 0 ≤ w.zl.getD j 0 ∧ 0 ≤ w.zu.getD j 0
  stationary : ∀ j, j < n →
    |g j + ∑ r ∈ Finset.range m, w.lam.getD r 0 * J r j - w.zl.getD j 0 + w.zu.getD j 0| ≤ dual j
  lower : ∀ j, j < n → w.zl.getD j 0 = 0 ∨ ∃ l : ℝ, lb.getD j 0 = (l : EReal) ∧ (x.getD j 0 - l) * w.zl.getD j 0 ≤ comp j
  upper : ∀ j, j < n → w.zu.getD j 0 = 0 ∨ ∃ l : ℝ, ub.getD j 0 = (l : EReal) ∧ (l - x.getD j 0) * w.zu.getD j 0 ≤ comp j

/-- The optimality conditions of "minimise `f` subject to `F = 0` and the bounds". -/
def Stationary (n m : Nat) (dual prim comp : Nat → ℝ) (f : List ℝ → ℝ) (F : List ℝ → List ℝ) (lb ub : List EReal)
    (x : List ℝ) (w : Mult) : Prop :=
  ∃ (g : Nat → ℝ) (J : Nat → Nat → ℝ), IsGradientAt n f x g ∧ IsJacobianAt n m F x J ∧
    KKT n m dual prim comp g (F x) J lb ub x w

/-- What IPOPT tests: the optimality conditions with the values returned by the callbacks. The bounds on the
constraints are zero in every problem that lumos builds (scaled_mesh_ocp.py:784-785, model_solver.py:108-109). -/
def Accepted (p : Prob) (dual prim comp : Nat → ℝ) (lb ub : List EReal) (z : List ℝ) (w : Mult) : Prop :=
  ∃ (g c vals : List ℝ) (rows cols : List Nat), p.gradient z = .ok g ∧ p.constraints z = .ok c ∧
    p.jacobianstructure = .ok (rows, cols) ∧ p.jacobian z = .ok vals ∧
    KKT p.numDec p.numCon dual prim comp (fun j => g.getD j 0) c (assemble rows cols vals) lb ub z w

/-- The quadratic form of a symmetric matrix of which the upper triangle is given. -/
def curvature (n : Nat) (H : Nat → Nat → ℝ) (d : Nat → ℝ) : ℝ :=
  ∑ i ∈ Finset.range n, ∑ j ∈ Finset.range n, if i < j then 2 * H i j * d i * d j else if i = j then H i i * d i * d i else 0

/-- A direction along which the constraints do not change to first order and which leaves no bound that is active. -/
def Tangent (n m : Nat) (J : Nat → Nat → ℝ) (lb ub : List EReal) (x : List ℝ) (w : Mult) (d : Nat → ℝ) : Prop :=
  (∀ r, r < m → ∑ j ∈ Finset.range n, J r j * d j = 0) ∧
  ∀ j, j < n →
    (lb.getD j 0 = ((x.getD j 0 : ℝ) : EReal) → 0 ≤ d j ∧ (0 < w.zl.getD j 0 → d j = 0)) ∧
    (ub.getD j 0 = ((x.getD j 0 : ℝ) : EReal) → d j ≤ 0 ∧ (0 < w.zu.getD j 0 → d j = 0))

/-- The second-order sufficient condition. -/
def Curved (n m : Nat) (H : Nat → Nat → ℝ) (J : Nat → Nat → ℝ) (lb ub : List EReal) (x : List ℝ) (w : Mult) : Prop :=
  ∀ d : Nat → ℝ, (∃ j, j < n ∧ d j ≠ 0) → Tangent n m J lb ub x w d → 0 < curvature n H d

/-- `x` is feasible and no feasible point is better. -/
def Best (n : Nat) (f : List ℝ → ℝ) (P : List ℝ → Prop) (x : List ℝ) : Prop :=
  (x.length = n ∧ P x) ∧ ∀ y : List ℝ, y.length = n → P y → f x ≤ f y

/-- `x` is feasible and no feasible point nearby is better. -/
def LocallyBest (n : Nat) (f : List ℝ → ℝ) (P : List ℝ → Prop) (x : List ℝ) : Prop :=
  (x.length = n ∧ P x) ∧ ∃ ε : ℝ, 0 < ε ∧
    ∀ y : List ℝ, y.length = n → P y → (∀ j, j < n → |y.getD j 0 - x.getD j 0| < ε) → f x ≤ f y

/-- The multipliers in the user's units. -/
noncomputable def inUnits (p : Prob) (w : Mult) : Mult :=
  ⟨vdiv w.lam (conScale p), vdiv w.zl p.scales, vdiv w.zu p.scales⟩

end Lumos.Kkt
