import Verif.NLP.Solve
import Verif.Ocp.AlgModel
import Verif.Base.Dict
/-!
# Model of `ModelSolver` (lumos/optimal_control/model_solver.py:10-260)

`ModelSolver` is a `CompositeProblem` over the stage variables of one model: states, inputs, states_dot and constraint
outputs, with the model algebra as its constraint. The casadi callbacks are data (`Alg`): compiling and evaluating
them is trusted, the theorems assume that they are the derivatives of the model algebra.
-/

namespace Lumos.Solver

open Lumos Lumos.NLP Lumos.Ocp

/-- The compiled callbacks returned by `model.make_model_algebra_cons("casadi")` with the mesh (0.0) and the flat
parameters bound, and the sparsity structures of `model.model_algebra` (base.py:780-885; model_solver.py:49-75). -/
structure Alg where
  jac : List ℝ → List ℝ
  hess : List ℝ → List ℝ → List ℝ
  jacStruct : List Nat × List Nat
  hessStruct : List Nat × List Nat

/-- The fields of a `ModelSolver`: those of the `CompositeProblem`, the bounds `lb`, `ub` (nlp.py:874-882), `cl`, `cu`
(model_solver.py:110-114) and `_var_scales` (154-157). `names` is the enum `_input_enum` (line 47). -/
structure MS where
  M : ExplicitModel
  names : List String
  prob : Prob
  lb : List EReal
  ub : List EReal
  cl : List ℝ
  cu : List ℝ
  varScales : Dict (Dict ℝ)

/-- `_construct_name`. model_solver.py:86-87. -/
def constructName (group name : String) : String := group ++ "." ++ name

/-- `input_names`. model_solver.py:94-103. -/
def inputNames (M : ExplicitModel) : List String :=
  M.groups.flatMap fun (g : String × List String) => g.2.map (constructName g.1)

namespace MS

/-- `get_var_idx`: lookup in the enum. model_solver.py:105-106. -/
def getVarIdx (s : MS) (group name : String) : Py Nat :=
  if constructName group name ∈ s.names then .ok (s.names.idxOf (constructName group name)) else .error .keyError

/-- `set_cons`. model_solver.py:108-112. -/
def setCons (s : MS) : MS :=
  { s with cl := List.replicate s.prob.numCon 0, cu := List.replicate s.prob.numCon 0 }

/-- The argument of `set_bounds`: a float or a pair. -/
inductive Bnd
  | exact (b : EReal)
  | pair (lo hi : EReal)

/-- model_solver.py:128-131. -/
def Bnd.lo : Bnd → EReal
  | .exact b => b
  | .pair l _ => l

def Bnd.hi : Bnd → EReal
  | .exact b => b
  | .pair _ h => h

/-- `set_bounds`. model_solver.py:114-139. The object after the call and the exception. -/
noncomputable def setBounds (s : MS) (group name : String) (b : Bnd) : MS × Option PyErr :=
  match s.getVarIdx group name with
  | .error e => (s, some e)
  | .ok i =>
    open Classical in
    if b.lo ≤ b.hi then ({ s with lb := s.lb.set i b.lo, ub := s.ub.set i b.hi }, none)
    else (s, some .assertionError)

/-- `get_bounds`. model_solver.py:141-144. -/
noncomputable def getBounds (s : MS) (group name : String) : Py (EReal × EReal) := do
  let i ← s.getVarIdx group name
  return (s.lb.getD i 0, s.ub.getD i 0)

/-- `get_var`. model_solver.py:226-228. An index beyond the array raises `IndexError`. -/
def getVar (s : MS) (x : List ℝ) (group name : String) : Py ℝ := do
  let i ← s.getVarIdx group name
  match x[i]? with
  | some v => return v
  | none => .error .indexError

/-- `self._var_scales[g][n]`. -/
def scaleOf (s : MS) (g n : String) : Py ℝ := do
  let d ← Dict.get s.varScales g
  Dict.get d n

/-- `[self._var_scales[g][n] for n in names]`. model_solver.py:166-171. -/
def scalesOf (s : MS) (g : String) (ns : List String) : Py (List ℝ) := ns.mapM fun (n : String) => s.scaleOf g n

/-- One step of the loop over variables: `self._dec_var_scales[index] = self._var_scales[g][n]`.
model_solver.py:185-188. -/
def putScale (s : MS) (acc : Py (List ℝ)) (gn : String × String) : Py (List ℝ) := do
  let d ← acc
  let i ← s.M.varIndexInFlat gn.1 gn.2
  let v ← s.scaleOf gn.1 gn.2
  return d.set i v

/-- All `(group, name)` pairs in loop order. model_solver.py:183-184. -/
def allVars (M : ExplicitModel) : List (String × String) :=
  M.groups.flatMap fun (g : String × List String) => g.2.map (fun n => (g.1, n))

/-- The loop that writes the decision-variable scales. model_solver.py:183-188. -/
def newScales (s : MS) : Py (List ℝ) := (allVars s.M).foldl s.putScale (.ok s.prob.scales)

/-- The scales of the model algebra in the order `states`, `con_outputs`, residuals. model_solver.py:164-179. -/
def algebraScales (s : MS) : Py (List ℝ) := do
  let a ← s.scalesOf "states" s.M.states
  let b ← s.scalesOf "con_outputs" s.M.conOutputs
  return a ++ b ++ List.replicate s.M.nr 1

/-- `_update_problem_scales`. model_solver.py:161-194. The decision-variable scales are one array shared with all
components; the loop cannot stop half way for the states of the theorems, so the model writes it at once. -/
noncomputable def updateProblemScales (s : MS) : MS × Option PyErr :=
  match s.algebraScales with
  | .error e => (s, some e)
  | .ok k =>
    let r := s.prob.setConScales "model_algebra" k
    match r.2 with
    | some e => ({ s with prob := r.1 }, some e)
    | none =>
      match s.newScales with
      | .error e => ({ s with prob := r.1 }, some e)
      | .ok d =>
        let q := r.1.setScales d
        ({ s with prob := q.1 }, q.2)

/-- `_set_default_var_scales`. model_solver.py:146-159. -/
noncomputable def setDefaultVarScales (s : MS) : MS × Option PyErr :=
  updateProblemScales { s with varScales := s.M.groups.map fun (g : String × List String) =>
    (g.1, g.2.map fun n => (n, (1 : ℝ))) }

/-- The constructor. model_solver.py:11-84. `modelOf` is the model after `set_con_outputs`, or the exception raised while
its algebra is traced (an unknown output). `IntEnum` refuses a repeated name with `TypeError`. -/
noncomputable def make (modelOf : List String → Py ExplicitModel) (backend : String)
    (conOutputs : Option (List String)) (alg : ExplicitModel → Alg) : Py MS :=
  if backend ≠ "casadi" then .error .assertionError
  else
    match modelOf (conOutputs.getD []) with
    | .error e => .error e
    | .ok M =>
      if ¬ (inputNames M).Nodup then .error .typeError
      else
        let p := Prob.init M.numVar
        match Cons.make M.numVar M.numRes (fun x => M.flatImplicit x 0) (alg M).jac (alg M).hess
            (some (alg M).jacStruct) (some (alg M).hessStruct) with
        | .error e => .error e
        | .ok c =>
          let r := p.addConstraints "model_algebra" c
          match r.2 with
          | some e => .error e
          | none =>
            let s : MS := { M := M, names := inputNames M, prob := r.1
                            lb := List.replicate M.numVar ⊥, ub := List.replicate M.numVar ⊤
                            cl := [], cu := [], varScales := [] }
            let t := s.setCons.setDefaultVarScales
            match t.2 with
            | some e => .error e
            | none => .ok t.1

/-- The groups whose scales can be set. model_solver.py:206. -/
def allowedGroups : List String := ["states", "inputs", "con_outputs"]

/-- `set_var_scale`. model_solver.py:196-219. -/
noncomputable def setVarScale (s : MS) (group name : String) (val : ℝ) : MS × Option PyErr :=
  open Classical in
  if ¬ 0 < val then (s, some .assertionError)
  else if group ∉ allowedGroups then (s, some .keyError)
  else
    match Dict.get s.varScales group with
    | .error e => (s, some e)
    | .ok d =>
      if name ∉ d.keys then (s, some .keyError)
      else updateProblemScales { s with varScales := Dict.set s.varScales group (Dict.set d name val) }

/-- The name of the objective: `f"{group}.{name}.weight={weight}"`; `fmt` prints a float. model_solver.py:255. -/
def objName (fmt : ℝ → String) (group name : String) (w : ℝ) : String :=
  group ++ "." ++ name ++ ".weight=" ++ fmt w

/-- `add_obj_from_var`: objective `weight * x[idx]`, gradient `weight` at `idx`, no Hessian entries.
model_solver.py:230-260. -/
noncomputable def addObjFromVar (fmt : ℝ → String) (s : MS) (group name : String) (w : ℝ) : MS × Py String :=
  match s.getVarIdx group name with
  | .error e => (s, .error e)
  | .ok i =>
    match Obj.make s.prob.numDec (fun x => w * x.getD i 0) (fun _ => (List.replicate s.prob.numDec 0).set i w)
        (fun _ => []) (some ([], [])) with
    | .error e => (s, .error e)
    | .ok o =>
      let r := s.prob.addObjective (objName fmt group name w) o
      match r.2 with
      | some e => ({ s with prob := r.1 }, .error e)
      | none => ({ s with prob := r.1 }, .ok (objName fmt group name w))

/-- `solve` (nlp.py:581-646) of a `ModelSolver`: `get_init_guess` is not defined (`AttributeError` without an initial
guess, raised after the constant objective was added and the solver constructed); `cyipopt.Problem` refuses constraint
bounds of another length than the number of constraints (nlp.py:513-544). The solver also receives `cl` and `cu`. -/
noncomputable def solve (s : MS) (guess : Option (List ℝ))
    (solver : Prob → SolverInput → List ℝ → List ℝ → List ℝ × Int) : MS × Py (List ℝ × Int) :=
  if s.cl.length ≠ s.prob.numCon ∨ s.cu.length ≠ s.prob.numCon then
    ({ s with prob := solvedProb s.prob }, .error .valueError)
  else
    match guess with
    | none => ({ s with prob := solvedProb s.prob }, .error .attributeError)
    | some x0 =>
      let r := s.prob.solve s.lb s.ub (some x0) [] (fun p i => solver p i s.cl s.cu)
      ({ s with prob := r.1 }, r.2)

/-- `hessian` (nlp.py:780-795): the callback of the model algebra reads `implicit_functions["_hessian"]`
(model_solver.py:55-56), a key that `make_model_algebra_cons` never creates (base.py:869-875). -/
noncomputable def hessian (s : MS) (x lagrange : List ℝ) (objFactor : ℝ) : Py (List ℝ) :=
  if hasKey s.prob.cons "model_algebra" then .error .keyError
  else (s.prob.hessian x lagrange objFactor).2

end MS

/-! ## Calls and histories -/

/-- One call on the solver object. -/
inductive Call
  | setBounds (group name : String) (b : MS.Bnd)
  | setVarScale (group name : String) (val : ℝ)
  | addObjFromVar (group name : String) (w : ℝ)
  | addObjective (name : String) (o : Obj)
  | deleteObjective (name : String)
  | addConstraints (name : String) (c : Cons)
  | deleteConstraints (name : String)
  | setCons
  | solve (guess : Option (List ℝ)) (solver : Prob → SolverInput → List ℝ → List ℝ → List ℝ × Int)

/-- The object after a call (the inherited methods act on the problem only), and the exception. -/
noncomputable def MS.step (fmt : ℝ → String) (s : MS) : Call → MS × Option PyErr
  | .setBounds g n b => s.setBounds g n b
  | .setVarScale g n v => s.setVarScale g n v
  | .addObjFromVar g n w =>
    ((s.addObjFromVar fmt g n w).1, match (s.addObjFromVar fmt g n w).2 with
      | .ok _ => none
      | .error e => some e)
  | .addObjective name o => ({ s with prob := (s.prob.addObjective name o).1 }, (s.prob.addObjective name o).2)
  | .deleteObjective name => ({ s with prob := (s.prob.deleteObjective name).1 }, (s.prob.deleteObjective name).2)
  | .addConstraints name c => ({ s with prob := (s.prob.addConstraints name c).1 }, (s.prob.addConstraints name c).2)
  | .deleteConstraints name =>
    ({ s with prob := (s.prob.deleteConstraints name).1 }, (s.prob.deleteConstraints name).2)
  | .setCons => (s.setCons, none)
  | .solve guess solver =>
    ((s.solve guess solver).1, match (s.solve guess solver).2 with
      | .ok _ => none
      | .error e => some e)

noncomputable def MS.runAll (fmt : ℝ → String) (s : MS) (cs : List Call) : MS :=
  cs.foldl (fun s c => (s.step fmt c).1) s

end Lumos.Solver
