import Mathlib.Analysis.Calculus.FDeriv.Symmetric
/-!
# Model of the dense problem of `NLPFunction` (lumos/optimal_control/nlp.py:441-511)

A user who derives a class from `NLPFunction` and gives it an objective and constraints gets dense derivatives by automatic differentiation.
`jax.grad`, `jax.jacobian` and `jax.hessian` are taken to give the exact partial derivatives; `jax.jit` with `static_argnums=(0,)` traces a
method when it is called for the first time on an object and runs the recorded computation afterwards (the arguments of later calls have the
same shapes: `n` variables, `m` multipliers).
-/

namespace Lumos.Dense

open scoped BigOperators

/-- What the user's class computes: it may read attributes of the object, `A`. -/
structure Sub (n m : Nat) (A : Type) where
  /-- `_compute_objective` (nlp.py:466-473). -/
  compute : A → (Fin n → ℝ) → ℝ
  /-- `constraints` (nlp.py:480-481). -/
  constraints : A → (Fin n → ℝ) → Fin m → ℝ

variable {n m : Nat} {A : Type}

/-- The partial derivative of `f` in variable `i`, as automatic differentiation computes it. -/
noncomputable def partialD (f : (Fin n → ℝ) → ℝ) (i : Fin n) (x : Fin n → ℝ) : ℝ := fderiv ℝ f x (Pi.single i 1)

/-- `lagrangian` (nlp.py:487-494). -/
def Sub.lagrangian (s : Sub n m A) (a : A) (lam : Fin m → ℝ) (sigma : ℝ) (x : Fin n → ℝ) : ℝ :=
  sigma * s.compute a x + ∑ k, lam k * s.constraints a x k

/-- `hessianstructure` (nlp.py:508-511): `np.triu_indices(num_dec)`, row by row. -/
def triu (n : Nat) : List (Fin n × Fin n) :=
  (List.finRange n).flatMap fun i => ((List.finRange n).filter fun j => i ≤ j).map fun j => (i, j)

/-- What is kept in `_last_iter_dec_var` (nlp.py:446-449, 463): nothing, numbers, or an abstract value of a trace. -/
inductive Kept (n : Nat) where
  | nothing
  | numbers (x : Fin n → ℝ)
  | tracer

/-- The object: the attributes that the user's methods read, the last decision variables, and for each compiled method the attributes that
it was compiled with. -/
structure Obj (n : Nat) (A : Type) where
  attrs : A
  last : Kept n := .nothing
  gradC : Option A := none
  jacC : Option A := none
  hessC : Option A := none

/-- What a user or IPOPT does with the object. -/
inductive Op (n m : Nat) (A : Type) where
  | set (a : A)
  | objective (x : Fin n → ℝ)
  | gradient (x : Fin n → ℝ)
  | constraints (x : Fin n → ℝ)
  | jacobian (x : Fin n → ℝ)
  | hessian (x : Fin n → ℝ) (lam : Fin m → ℝ) (sigma : ℝ)

/-- What a call returns. -/
inductive Ans (n m : Nat) where
  | none
  | number (v : ℝ)
  | vector (v : Fin n → ℝ)
  | values (v : Fin m → ℝ)
  | matrix (v : Fin m → Fin n → ℝ)
  | entries (v : List ℝ)

/-- One call: the object afterwards and the answer. -/
noncomputable def step (s : Sub n m A) (o : Obj n A) : Op n m A → Obj n A × Ans n m
  /- Assigning an attribute. The compiled methods are found by the identity of the object, so nothing is compiled again. -/
  | .set a => ({ o with attrs := a }, .none)
  /- `objective` (nlp.py:455-464), not compiled. -/
  | .objective x => ({ o with last := .numbers x }, .number (s.compute o.attrs x))
  /- `gradient` (nlp.py:475-478): of `_compute_objective`, so that nothing is kept. -/
  | .gradient x =>
    let a := o.gradC.getD o.attrs
    ({ o with gradC := some a }, .vector fun i => partialD (s.compute a) i x)
  | .constraints x => (o, .values (s.constraints o.attrs x))
  /- `jacobian` (nlp.py:483-485). -/
  | .jacobian x =>
    let a := o.jacC.getD o.attrs
    ({ o with jacC := some a }, .matrix fun k i => partialD (fun y => s.constraints a y k) i x)
  /- `hessian` (nlp.py:496-506): `lagrangian` calls `objective`, which during the trace keeps the traced value. -/
  | .hessian x lam sigma =>
    let a := o.hessC.getD o.attrs
    ({ o with hessC := some a, last := if o.hessC.isSome then o.last else .tracer },
      .entries ((triu n).map fun e => partialD (fun y => partialD (s.lagrangian a lam sigma) e.2 y) e.1 x))

/-- The object after a history. -/
noncomputable def run (s : Sub n m A) (o : Obj n A) : List (Op n m A) → Obj n A
  | [] => o
  | op :: ops => run s (step s o op).1 ops

end Lumos.Dense
