import Verif.Ocp.BuildMore
/-!
# Model of an OCP object in use (C97)

What happens to a constructed problem (`Ocp/Build`) when a user goes on calling its methods: bounds, scales, mesh scale,
parameters, further objectives and constraints, structures, evaluations and `solve`
(scaled_mesh_ocp.py:158-170, 191-204, 623-790; fixed_mesh_ocp.py:37-41; nlp.py:513-545, 581-646, 704-747, 780-816, 818-870).

The callables of the problem read `self._mesh_scale` and the parameters of the model when they are called. The components are
therefore a function of the mesh scale and the parameters in force: `prob ms p`. A method changes the components whatever those
are, and `now` is what is evaluated.
-/

namespace Lumos.Use

open Lumos DecVar DecVar.Layout NLP Bounds Ocp OCP

variable {P : Type}

/-- What does not change: the class, the layout, the transcription and the configuration (`S`), the functions of the model and
the unit problem for every value `p : P` of its parameters, the backend (`jax` or not) and whether the option
`hessian_approximation` is `"exact"`. `S.builtScale` is the mesh scale of the construction. -/
structure Kind (P : Type) where
  S : Setup
  model : P → ExplicitModel
  unit : P → UnitProblem
  jax : Bool
  exact : Bool

/-- The problem with the mesh scale `ms` and the parameters `p`; `cyc`: with the cyclic constraints. -/
def Kind.at (J : Kind P) (ms : Option ℝ) (p : P) (cyc : Bool) : Setup :=
  { J.S with
    isCyclic := cyc
    c := { J.S.c with M := J.model p, u := J.unit p, o := { J.S.c.o with fixedScale := ms } } }

/-- The object. -/
structure Use (P : Type) where
  J : Kind P
  scale : Option ℝ
  params : P
  prob : Option ℝ → P → Prob
  bounds : St EReal
  cl : List ℝ
  cu : List ℝ

/-- The constructor (scaled_mesh_ocp.py:78-150; fixed_mesh_ocp.py:23-35) with the model's parameters `p`. The components are those
which `Setup.build` makes; where it would raise there are none. -/
noncomputable def construct (J : Kind P) (p : P) : Py (Use P) := do
  let b ← (J.at J.S.builtScale p J.S.isCyclic).build
  return { J := J, scale := J.S.builtScale, params := p
           prob := fun ms q => match (J.at ms q J.S.isCyclic).build with
             | .ok b => b.prob
             | .error _ => Prob.init J.S.c.o.L.numDec
           bounds := b.bounds, cl := b.cl, cu := b.cu }

namespace Use

/-- The components, as they are evaluated now. -/
def now (u : Use P) : Prob := u.prob u.scale u.params

/-- A method that changes the components. -/
def act (u : Use P) (f : Prob → Prob × Option PyErr) : Use P × Option PyErr :=
  ({ u with prob := fun ms p => (f (u.prob ms p)).1 }, (f u.now).2)

end Use

/-- The exception of a computation. -/
def errOf {α : Type} : Py α → Option PyErr
  | .ok _ => none
  | .error e => some e

/-- `profile(x0, repeat=1, hessian=exact)` (nlp.py:818-870), which `solve` calls first under the jax backend
(scaled_mesh_ocp.py:194-198): the components one by one (they do not raise), then the composite callbacks. The time taken is not
modelled. -/
noncomputable def warmUp (exact : Bool) (x0 : List ℝ) (p : Prob) : Prob × Option PyErr :=
  match p.objective x0, p.gradient x0, p.constraints x0, p.jacobian x0 with
  | .error e, _, _, _ => (p, some e)
  | _, .error e, _, _ => (p, some e)
  | _, _, .error e, _ => (p, some e)
  | _, _, _, .error e => (p, some e)
  | .ok _, .ok _, .ok _, .ok _ =>
    if exact then
      ((p.hessian x0 (List.replicate p.numCon 1) 1).1, errOf (p.hessian x0 (List.replicate p.numCon 1) 1).2)
    else (p, none)

/-- A solver: what IPOPT does with the problem, the scaled bounds and start, and the limits of the constraints. -/
abbrev Solver := Prob → SolverInput → List ℝ → List ℝ → List ℝ × Int

/-- What `solve` gets besides the object: the guess of the user, the point of the warm-up and the default guess
(`get_init_guess`, random unless a class redefines it, scaled_mesh_ocp.py:1338-1339), and the solver. -/
structure SolveArgs where
  guess : Option (List ℝ)
  warm : List ℝ
  dflt : List ℝ
  solver : Solver

/-- `ScaledMeshOCP.solve` (scaled_mesh_ocp.py:191-204) with `NLPFunction.solve` (nlp.py:581-646): the warm-up under jax, the constant
objective if there is none, `cyipopt.Problem(...)` (nlp.py:513-545), which refuses limits of another length than the number of
constraints and then queries the structures, and the solver. The final log (C71) is not part of this model. -/
noncomputable def solveProb (jax exact : Bool) (lb ub : List EReal) (cl cu : List ℝ) (a : SolveArgs) (p : Prob) :
    Prob × Py (List ℝ × Int) :=
  let w := if jax then warmUp exact a.warm p else (p, none)
  match w.2 with
  | some e => (w.1, .error e)
  | none =>
    if cl.length ≠ w.1.numCon ∨ cu.length ≠ w.1.numCon then (solvedProb w.1, .error .valueError)
    else
      let r := w.1.solve lb ub a.guess a.dflt (fun q i => a.solver q.hessianstructure.1 i cl cu)
      (r.1.hessianstructure.1, r.2)

/-- A call of a public method. -/
inductive Call (P : Type)
  | bounds (c : Bounds.Call EReal)
  | setScales (cfgs : List ScaleConfig)
  | setMeshScale (ms : ℝ)
  | setParams (p : P)
  | addObjective (name : String) (o : Obj)
  | deleteObjective (name : String)
  | addConstraints (name : String) (c : Cons)
  | deleteConstraints (name : String)
  | setCons
  | hessianstructure
  | hessian (x lam : List ℝ) (sigma : ℝ)
  | solve (a : SolveArgs)

namespace Use

/-- What `solve` returns. -/
noncomputable def solve (u : Use P) (a : SolveArgs) : Py (List ℝ × Int) :=
  (solveProb u.J.jax u.J.exact u.bounds.lb u.bounds.ub u.cl u.cu a u.now).2

/-- The object after a call, and the exception raised. `update_bounds`, `update_boundary_conditions`, `set_*_bounds`
(scaled_mesh_ocp.py:623-638, 724-780), `set_scales` (640-722), `set_mesh_scale` (fixed_mesh_ocp.py:37-41; a scaled mesh has no such
method), `modify_model_param` (158-170; the parameters that result are `p`, C81; on a condensed problem it raises AttributeError,
C81, and here then changes nothing), `set_cons` (782-785) and the methods inherited from `CompositeProblem`. -/
noncomputable def step (u : Use P) : Call P → Use P × Option PyErr
  | .bounds c => ({ u with bounds := (c.run u.J.S.c.o.L u.bounds).1 }, (c.run u.J.S.c.o.L u.bounds).2)
  | .setScales cfgs =>
    u.act fun p => Ocp.setScales u.J.S.c.o.L (u.J.model u.params).nr u.J.S.isCondensed p cfgs
  | .setMeshScale ms => if u.J.S.builtScale = none then (u, some .attributeError) else ({ u with scale := some ms }, none)
  | .setParams p => if u.J.S.isCondensed then (u, some .attributeError) else ({ u with params := p }, none)
  | .addObjective name o => u.act fun p => p.addObjective name o
  | .deleteObjective name => u.act fun p => p.deleteObjective name
  | .addConstraints name c => u.act fun p => p.addConstraints name c
  | .deleteConstraints name => u.act fun p => p.deleteConstraints name
  | .setCons => ({ u with cl := List.replicate u.now.numCon 0, cu := List.replicate u.now.numCon 0 }, none)
  | .hessianstructure => u.act fun p => (p.hessianstructure.1, errOf p.hessianstructure.2)
  | .hessian x lam sigma => u.act fun p => ((p.hessian x lam sigma).1, errOf (p.hessian x lam sigma).2)
  | .solve a =>
    u.act fun p => ((solveProb u.J.jax u.J.exact u.bounds.lb u.bounds.ub u.cl u.cu a p).1,
      errOf (solveProb u.J.jax u.J.exact u.bounds.lb u.bounds.ub u.cl u.cu a p).2)

/-- A history; the program goes on after an exception. -/
noncomputable def run (u : Use P) (cs : List (Call P)) : Use P := cs.foldl (fun u c => (u.step c).1) u

/-- What a solver enforces: the constraints at the scaled point are between `cl` and `cu`. -/
def Feasible (u : Use P) (z : List ℝ) : Prop :=
  ∃ g, u.now.constraints z = .ok g ∧ List.Forall₂ (· ≤ ·) u.cl g ∧ List.Forall₂ (· ≤ ·) g u.cu

end Use

end Lumos.Use
