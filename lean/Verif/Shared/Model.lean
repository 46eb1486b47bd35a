import Verif.Solver.Model
/-!
# Several `ModelSolver`s of one model (lumos/optimal_control/model_solver.py:11-84, lumos/models/base.py:476-480, 630-659, 780-885)

A `ModelSolver` does not copy the model that it is given. Its constructor assigns the model's constraint outputs and the model's attribute
`model_algebra`, which every solver of this model reads when its constraints are evaluated, while the Jacobian and the parameters are its own.
All scales are one here: scaling is the subject of C75.
-/

namespace Lumos.Shared

open Lumos Lumos.Ocp

/-- A state-space model: its names and, for given parameters, its functions of states, inputs and mesh. `out p n` is the output `n`. -/
structure Mdl (P : Type) where
  states : List String
  inputs : List String
  outputs : List String
  residuals : List String
  f : P → List ℝ → List ℝ → ℝ → List ℝ
  out : P → String → List ℝ → List ℝ → ℝ → ℝ
  r : P → List ℝ → List ℝ → ℝ → List ℝ

variable {P : Type}

/-- The model with its parameters bound and the outputs `con` as constraint outputs (`_extract_con_outputs`, base.py:485-486). -/
def Mdl.explicit (m : Mdl P) (p : P) (con : List String) : ExplicitModel where
  states := m.states
  inputs := m.inputs
  conOutputs := con
  residuals := m.residuals
  f := m.f p
  h x u μ := con.map fun n => m.out p n x u μ
  r := m.r p

/-- A `ModelSolver`: the constraint outputs it was constructed for (the names of its variables and scales, its compiled Jacobian;
model_solver.py:47-53, 154-157) and its `flat_params` (line 64). -/
structure Sol (P : Type) where
  con : List String
  params : P

/-- The model object and the solvers made from it. `params` is `none` when the model holds symbols instead of numbers. -/
structure World (P : Type) where
  /-- `model.names.con_outputs`. -/
  con : List String
  /-- The constraint outputs that `model.model_algebra` was compiled for, if it was. -/
  algebra : Option (List String)
  params : Option P
  solvers : List (Sol P)

/-- What a user does with the model. -/
inductive Op (P : Type) where
  /-- `ModelSolver(model, "casadi", con_outputs)`. -/
  | new (con : Option (List String))
  /-- `model.set_recursive_params(...)`, with numbers. -/
  | setParams (p : P)
  /-- `model.set_con_outputs(...)`. -/
  | setCon (con : List String)

/-- The constructor (model_solver.py:35-84): the names of the model are replaced first; a repeated name is refused by `IntEnum`; an unknown
output is a KeyError while the functions are traced with symbols as parameters, and then `set_recursive_params(params)` (base.py:657) is not
reached. Simplified: a model that holds symbols is refused with a TypeError (casadi's error is not followed). -/
def new (m : Mdl P) (w : World P) (con : List String) : World P × Py Nat :=
  let w := { w with con := con }
  match w.params with
  | none => (w, .error .typeError)
  | some p =>
    if ¬ (Solver.inputNames (m.explicit p con)).Nodup then (w, .error .typeError)
    else if ¬ ∀ n ∈ con, n ∈ m.outputs then ({ w with params := none }, .error .keyError)
    else ({ w with algebra := some con, solvers := w.solvers ++ [⟨con, p⟩] }, .ok w.solvers.length)

/-- One action. -/
def step (m : Mdl P) (w : World P) : Op P → World P
  | .new con => (new m w (con.getD [])).1
  | .setParams p => { w with params := some p }
  | .setCon con => { w with con := con }

/-- A history. -/
def run (m : Mdl P) (w : World P) : List (Op P) → World P
  | [] => w
  | op :: ops => run m (step m w op) ops

/-- A model that was just made. -/
def fresh (con : List String) (p : P) : World P := ⟨con, none, some p, []⟩

/-- `constraints` of solver `i` (nlp.py:758-761; model_solver.py:65-68): `model.model_algebra.constraints(x, 0.0, flat_params)`, with the
`model_algebra` that the model has now; compiled code refuses an array of another length (RuntimeError; simplified: casadi repeats an array
of one element, which a model with a state never has). -/
noncomputable def World.constraints (m : Mdl P) (w : World P) (i : Nat) (x : List ℝ) : Py (List ℝ) :=
  match w.solvers[i]?, w.algebra with
  | some s, some con =>
    if x.length = (m.explicit s.params con).numVar then .ok ((m.explicit s.params con).flatImplicit x 0) else .error .runtimeError
  | _, _ => .error .indexError

/-- `jacobian` of solver `i` (model_solver.py:52-53, 69): the function compiled for this solver; `jac` gives the derivatives that casadi
compiles for a model. -/
def World.jacobian (jac : ExplicitModel → List ℝ → List ℝ) (m : Mdl P) (w : World P) (i : Nat) (x : List ℝ) : Py (List ℝ) :=
  match w.solvers[i]? with
  | some s => .ok (jac (m.explicit s.params s.con) x)
  | none => .error .indexError

/-- The constraint output scales that solver `i` reads when a scale is set (model_solver.py:168-171): those of its own dictionary, for the names
that the model has now. All are one. -/
def World.conScales (w : World P) (i : Nat) : Py (List ℝ) :=
  match w.solvers[i]? with
  | some s => w.con.mapM fun n => if n ∈ s.con then .ok 1 else .error .keyError
  | none => .error .indexError

end Lumos.Shared
