import Verif.Base.Py
import Verif.Base.Np
import Verif.Base.Deriv
/-!
# Model of `lumos/optimal_control/nlp.py` (commit pinned in /repo)

User callables (`constraints`, `jacobian`, `hessian`, `objective`, `gradient`) are arbitrary total
functions on real vectors. Arrays are flat lists: the code allows `jacobian` values and structure arrays to
be higher-dimensional as long as their row-major views agree (nlp.py:88-91), so the model works on the
flattened views. Structure indices are natural numbers (NumPy would also accept negative ones).
Methods that mutate and may raise return the state *after* the call together with the exception raised, so
that partial effects are visible.
-/

namespace Lumos.NLP

open Lumos

/-- NumPy fancy indexing `a[idx]`; an index out of bounds raises `IndexError`. -/
def gather (a : List ℝ) (idx : List Nat) : Py (List ℝ) :=
  idx.mapM fun (i : Nat) => match a[i]? with
    | some v => (Except.ok v : Py ℝ)
    | none => Except.error PyErr.indexError

/-- `np.nonzero(np.ones((m, n)))`: all positions of an `m × n` matrix, row by row. (nlp.py:86, 97, 366) -/
def denseStructure (m n : Nat) : List Nat × List Nat :=
  ((List.range m).flatMap (fun r => List.replicate n r), (List.range m).flatMap (fun _ => List.range n))

/-- State of a `BaseConstraints` object. nlp.py:51-105 (fields set in `__init__`). -/
structure Cons where
  numIn : Nat
  numCon : Nat
  con : List ℝ → List ℝ
  jac : List ℝ → List ℝ
  hess : List ℝ → List ℝ → List ℝ
  jacStruct : List Nat × List Nat
  hessStruct : List Nat × List Nat
  inScales : List ℝ
  conScales : List ℝ
  jacScales : List ℝ
  hessScales : List ℝ

/-- `BaseConstraints.update_jac_scales`: `_jac_scales = _con_scales[rows] / _input_scales[cols]`.
nlp.py:160-174. The assignment happens last, so an exception leaves the object unchanged. -/
noncomputable def Cons.updateJacScales (c : Cons) : Py Cons := do
  let k ← gather c.conScales c.jacStruct.1
  let s ← gather c.inScales c.jacStruct.2
  return { c with jacScales := vdiv k s }

/-- `BaseConstraints.update_hess_scales`: `_hess_scales = 1 / (_input_scales[rows] * _input_scales[cols])`.
nlp.py:176-178. -/
noncomputable def Cons.updateHessScales (c : Cons) : Py Cons := do
  let r ← gather c.inScales c.hessStruct.1
  let s ← gather c.inScales c.hessStruct.2
  return { c with hessScales := (vmul r s).map (fun v => 1 / v) }

/-- `BaseConstraints.__init__`. nlp.py:52-105. `none` for a structure means dense. The `isinstance(int)`
assertions on `num_in`/`num_con` are type checks and hold by typing here. -/
noncomputable def Cons.make (numIn numCon : Nat) (con jac : List ℝ → List ℝ) (hess : List ℝ → List ℝ → List ℝ)
    (jacStruct hessStruct : Option (List Nat × List Nat)) : Py Cons := do
  let c : Cons :=
    { numIn := numIn, numCon := numCon, con := con, jac := jac, hess := hess
      jacStruct := match jacStruct with
        | none => denseStructure numCon numIn
        | some js => js
      hessStruct := match hessStruct with
        | none => denseStructure numIn numIn
        | some hs => hs
      inScales := List.replicate numIn 1
      conScales := List.replicate numCon 1
      jacScales := []
      hessScales := [] }
  let c ← c.updateJacScales
  c.updateHessScales

/-- `BaseConstraints.constraints`. nlp.py:107-111. -/
noncomputable def Cons.constraints (c : Cons) (x : List ℝ) : List ℝ :=
  vdiv (c.con (vmul x c.inScales)) c.conScales

/-- `BaseConstraints.jacobian`. nlp.py:113-116. -/
noncomputable def Cons.jacobian (c : Cons) (x : List ℝ) : List ℝ :=
  vdiv (c.jac (vmul x c.inScales)) c.jacScales

/-- `BaseConstraints.hessian`. nlp.py:118-127. -/
noncomputable def Cons.hessian (c : Cons) (x lagrange : List ℝ) : List ℝ :=
  vdiv (c.hess (vmul x c.inScales) (vdiv lagrange c.conScales)) c.hessScales

/-- `BaseConstraints.set_input_scales`. nlp.py:151-154. Returns the object after the call and the exception,
if any: the new scales are stored before the derived scales are recomputed. -/
noncomputable def Cons.setInputScales (c : Cons) (s : List ℝ) : Cons × Option PyErr :=
  let c1 := { c with inScales := s }
  match c1.updateJacScales with
  | .error e => (c1, some e)
  | .ok c2 =>
    match c2.updateHessScales with
    | .error e => (c2, some e)
    | .ok c3 => (c3, none)

/-- `BaseConstraints.set_con_scales`. nlp.py:156-158. -/
noncomputable def Cons.setConScales (c : Cons) (k : List ℝ) : Cons × Option PyErr :=
  let c1 := { c with conScales := k }
  match c1.updateJacScales with
  | .error e => (c1, some e)
  | .ok c2 => (c2, none)

/-- `LinearConstraints.__init__`. nlp.py:293-329: empty Hessian, Jacobian optionally evaluated once at
`np.ones(num_in)` and cached. -/
noncomputable def Cons.makeLinear (numIn numCon : Nat) (con jac : List ℝ → List ℝ)
    (jacStruct : List Nat × List Nat) (cacheJacobian : Bool := true) : Py Cons :=
  let jacToUse : List ℝ → List ℝ :=
    if cacheJacobian then
      let jacVal := jac (List.replicate numIn 1)
      fun _ => jacVal
    else jac
  Cons.make numIn numCon con jacToUse (fun _ _ => []) (some jacStruct) (some ([], []))

/-- State of a `BaseObjective` object. nlp.py:332-375. -/
structure Obj where
  numIn : Nat
  obj : List ℝ → ℝ
  grad : List ℝ → List ℝ
  hess : List ℝ → List ℝ
  hessStruct : List Nat × List Nat
  inScales : List ℝ
  hessScales : List ℝ

/-- `BaseObjective.update_hess_scales`. nlp.py:389-391. -/
noncomputable def Obj.updateHessScales (o : Obj) : Py Obj := do
  let r ← gather o.inScales o.hessStruct.1
  let s ← gather o.inScales o.hessStruct.2
  return { o with hessScales := (vmul r s).map (fun v => 1 / v) }

/-- `BaseObjective.__init__`. nlp.py:333-375. -/
noncomputable def Obj.make (numIn : Nat) (obj : List ℝ → ℝ) (grad hess : List ℝ → List ℝ)
    (hessStruct : Option (List Nat × List Nat)) : Py Obj :=
  let o : Obj :=
    { numIn := numIn, obj := obj, grad := grad, hess := hess
      hessStruct := match hessStruct with
        | none => denseStructure numIn numIn
        | some hs => hs
      inScales := List.replicate numIn 1
      hessScales := [] }
  o.updateHessScales

/-- `BaseObjective.set_input_scales`. nlp.py:377-387. -/
noncomputable def Obj.setInputScales (o : Obj) (s : List ℝ) : Obj × Option PyErr :=
  let o1 := { o with inScales := s }
  match o1.updateHessScales with
  | .error e => (o1, some e)
  | .ok o2 => (o2, none)

/-- `BaseObjective.objective`. nlp.py:393-402. -/
def Obj.objective (o : Obj) (x : List ℝ) : ℝ := o.obj (vmul x o.inScales)

/-- `BaseObjective.gradient`. nlp.py:404-413. -/
def Obj.gradient (o : Obj) (x : List ℝ) : List ℝ := vmul (o.grad (vmul x o.inScales)) o.inScales

/-- `BaseObjective.hessian`. nlp.py:425-438 (both branches of the `if` are the same expression). -/
noncomputable def Obj.hessian (o : Obj) (x : List ℝ) : List ℝ := vdiv (o.hess (vmul x o.inScales)) o.hessScales

/-- State of a `CompositeProblem`. nlp.py:668-695. The two dictionaries are insertion-ordered association
lists; `idxTriu = none` is Python's `None`. Components are held by value (the code holds references: sharing
one component object between two problems is outside the model). -/
structure Prob where
  numDec : Nat
  cons : List (String × Cons)
  objs : List (String × Obj)
  idxTriu : Option (List Bool)
  scales : List ℝ

/-- `CompositeProblem.__init__`. nlp.py:679-695, 884-886. (The default bounds are in `Solve.lean`.) -/
noncomputable def Prob.init (numDec : Nat) : Prob :=
  { numDec := numDec, cons := [], objs := [], idxTriu := none, scales := List.replicate numDec 1 }

/-- `name in dict`. -/
def hasKey {α : Type} (d : List (String × α)) (name : String) : Bool := d.any fun p => p.1 == name

/-- `dict.pop(name)` on an association list with distinct keys. -/
def dropKey {α : Type} (d : List (String × α)) (name : String) : List (String × α) :=
  d.filter fun p => p.1 != name

/-- `CompositeProblem.num_con`. nlp.py:697-702. -/
def Prob.numCon (p : Prob) : Nat := (p.cons.map fun c => c.2.numCon).sum

/-- `CompositeProblem.add_constraints`. nlp.py:704-719. -/
noncomputable def Prob.addConstraints (p : Prob) (name : String) (c : Cons) : Prob × Option PyErr :=
  if hasKey p.cons name then (p, some .valueError)
  else if c.numIn ≠ p.numDec then (p, some .valueError)
  else
    match c.setInputScales p.scales with
    | (_, some e) => (p, some e)
    | (c', none) => ({ p with cons := p.cons ++ [(name, c')] }, none)

/-- `CompositeProblem.delete_constraints`. nlp.py:721-723. -/
def Prob.deleteConstraints (p : Prob) (name : String) : Prob × Option PyErr :=
  if hasKey p.cons name then ({ p with cons := dropKey p.cons name }, none) else (p, some .keyError)

/-- `CompositeProblem.add_objective`. nlp.py:725-744. There is no check of `num_in`. -/
noncomputable def Prob.addObjective (p : Prob) (name : String) (o : Obj) : Prob × Option PyErr :=
  if hasKey p.objs name then (p, some .nameError)
  else
    match o.setInputScales p.scales with
    | (_, some e) => (p, some e)
    | (o', none) => ({ p with objs := p.objs ++ [(name, o')] }, none)

/-- `CompositeProblem.delete_objective`. nlp.py:746-747. -/
def Prob.deleteObjective (p : Prob) (name : String) : Prob × Option PyErr :=
  if hasKey p.objs name then ({ p with objs := dropKey p.objs name }, none) else (p, some .keyError)

/-- `CompositeProblem._compute_objective`. nlp.py:750-751. `np.hstack([])` raises `ValueError`. -/
def Prob.objective (p : Prob) (x : List ℝ) : Py ℝ :=
  if p.objs.isEmpty then .error .valueError
  else .ok (p.objs.map fun o => o.2.objective x).sum

/-- `np.sum(np.vstack(rows), axis=0)` for rows of one length `n`. -/
def sumRows (n : Nat) (rows : List (List ℝ)) : List ℝ :=
  rows.foldl (fun acc r => List.zipWith (· + ·) acc r) (List.replicate n 0)

/-- `CompositeProblem.gradient`. nlp.py:753-756. -/
def Prob.gradient (p : Prob) (x : List ℝ) : Py (List ℝ) :=
  if p.objs.isEmpty then .error .valueError
  else .ok (sumRows p.numDec (p.objs.map fun o => o.2.gradient x))

/-- `CompositeProblem.constraints`. nlp.py:758-761. -/
noncomputable def Prob.constraints (p : Prob) (x : List ℝ) : Py (List ℝ) :=
  if p.cons.isEmpty then .error .valueError
  else .ok (p.cons.map fun c => c.2.constraints x).flatten

/-- `CompositeProblem.jacobian`. nlp.py:763-764. -/
noncomputable def Prob.jacobian (p : Prob) (x : List ℝ) : Py (List ℝ) :=
  if p.cons.isEmpty then .error .valueError
  else .ok (p.cons.map fun c => c.2.jacobian x).flatten

/-- The loop of `CompositeProblem.jacobianstructure` with the running `row_offset`. nlp.py:772-776. -/
def jacLoop (rowOffset : Nat) : List (String × Cons) → List (List Nat) × List (List Nat)
  | [] => ([], [])
  | c :: cs =>
    let rest := jacLoop (rowOffset + c.2.numCon) cs
    (c.2.jacStruct.1.map (· + rowOffset) :: rest.1, c.2.jacStruct.2 :: rest.2)

/-- `CompositeProblem.jacobianstructure`. nlp.py:766-778. -/
def Prob.jacobianstructure (p : Prob) : Py (List Nat × List Nat) :=
  if p.cons.isEmpty then .error .valueError
  else .ok ((jacLoop 0 p.cons).1.flatten, (jacLoop 0 p.cons).2.flatten)

/-- All structure pairs in the order used by the Hessian. nlp.py:801-804. -/
def Prob.hessPieces (p : Prob) : List (List Nat × List Nat) :=
  (p.cons.map fun c => c.2.hessStruct) ++ (p.objs.map fun o => o.2.hessStruct)

/-- `CompositeProblem.hessianstructure`: also stores the upper-triangle mask. nlp.py:797-811. -/
def Prob.hessianstructure (p : Prob) : Prob × Py (List Nat × List Nat) :=
  if p.hessPieces.isEmpty then (p, .error .valueError)
  else
    let rows := (p.hessPieces.map Prod.fst).flatten
    let cols := (p.hessPieces.map Prod.snd).flatten
    let mask := List.zipWith (fun r c => decide (r ≤ c)) rows cols
    ({ p with idxTriu := some mask }, .ok (keep mask rows, keep mask cols))

/-- `CompositeProblem.split_constraints`. nlp.py:813-816; `dict(zip(names, values))`. -/
def Prob.splitConstraints {α : Type} (p : Prob) (c : List α) : List (String × List α) :=
  let indices := p.cons.map fun c => c.2.numCon
  (p.cons.map Prod.fst).zip (Np.split c (Np.cumsum indices.dropLast))

/-- `dict[name]` lookup (`KeyError` cannot happen where it is used). -/
def lookupD {α : Type} (d : List (String × List α)) (k : String) : List α :=
  match d.find? (fun p => p.1 == k) with
  | some p => p.2
  | none => []

/-- `CompositeProblem.hessian`. nlp.py:780-795. Boolean indexing with a mask of another length than the
values raises `IndexError`. -/
noncomputable def Prob.hessian (p : Prob) (x lagrange : List ℝ) (objFactor : ℝ) : Prob × Py (List ℝ) :=
  let r : Prob × Py (List Bool) := match p.idxTriu with
    | some m => (p, .ok m)
    | none =>
      let q := p.hessianstructure
      match q.2 with
      | .error e => (q.1, .error e)
      | .ok _ => (q.1, .ok (q.1.idxTriu.getD []))
  match r.2 with
  | .error e => (r.1, .error e)
  | .ok mask =>
    let lam := p.splitConstraints lagrange
    let vals := (p.cons.map fun c => c.2.hessian x (lookupD lam c.1))
      ++ (p.objs.map fun o => (o.2.hessian x).map (· * objFactor))
    if vals.isEmpty then (r.1, .error .valueError)
    else if mask.length ≠ vals.flatten.length then (r.1, .error .indexError)
    else (r.1, .ok (keep mask vals.flatten))

/-- A loop `for c in d.values(): f(c)` over mutable components that stops at the first exception. -/
def applyAll {α : Type} (f : α → α × Option PyErr) : List (String × α) → List (String × α) × Option PyErr
  | [] => ([], none)
  | (k, a) :: rest =>
    match f a with
    | (a', some e) => ((k, a') :: rest, some e)
    | (a', none) =>
      let r := applyAll f rest
      ((k, a') :: r.1, r.2)

/-- The part of `ScaledMeshOCP.set_scales` that installs new decision-variable scales `s` in the problem and
in every objective and constraint. scaled_mesh_ocp.py:669, 678-684. -/
noncomputable def Prob.setScales (p : Prob) (s : List ℝ) : Prob × Option PyErr :=
  let o := applyAll (fun o : Obj => o.setInputScales s) p.objs
  match o.2 with
  | some e => ({ p with scales := s, objs := o.1 }, some e)
  | none =>
    let c := applyAll (fun c : Cons => c.setInputScales s) p.cons
    ({ p with scales := s, objs := o.1, cons := c.1 }, c.2)

/-- `self._constraints[name].set_con_scales(k)`. scaled_mesh_ocp.py:705-707, 721-722. -/
noncomputable def Prob.setConScales (p : Prob) (name : String) (k : List ℝ) : Prob × Option PyErr :=
  match p.cons.find? (fun c => c.1 == name) with
  | none => (p, some .keyError)
  | some c =>
    let r := c.2.setConScales k
    ({ p with cons := p.cons.map fun d => if d.1 == name then (d.1, r.1) else d }, r.2)

end Lumos.NLP
