import Verif.Use.Model
/-!
# C97: specification — what a user has asked for

`Book` records, from the calls alone, which settings are in force: it knows nothing of components, callables or structures.
-/

namespace Lumos.Use

open Lumos DecVar DecVar.Layout NLP Bounds Ocp OCP

variable {P : Type}

/-- What the calls so far ask for. `time`, `penalty`, `cyclic`: the objectives and the constraint of the construction that are
still there; `objs`, `cons`: the user's own, in order; `limits`: the number of rows when the limits of the constraints were set
last; `changed`: a component was added or deleted since the structure of the Hessian was last queried. -/
structure Book (P : Type) where
  scales : List ScaleConfig
  scale : Option ℝ
  params : P
  bounds : List (Bounds.Call EReal)
  time : Bool
  penalty : Bool
  objs : List (String × (List ℝ → ℝ))
  cyclic : Bool
  cons : List (String × Nat × (List ℝ → List ℝ))
  limits : Nat
  changed : Bool

/-- The number of rows of the problem of a kind with the user's constraints. -/
def builtRows (J : Kind P) (p : P) (cyc : Bool) : Nat :=
  let L := J.S.c.o.L
  let nx := L.size "states"
  let ny := L.size "con_outputs"
  let nr := (J.model p).nr
  let cyclicRows := if cyc then
    ((L.namesOf "states").map ("states." ++ ·) ++ (L.namesOf "inputs").map ("inputs." ++ ·)).countP (· ∉ J.S.nonCyclic) else 0
  if J.S.isCondensed then L.numIntervals * (L.nspi - 1) * nx + L.numStages * (ny + nr) + cyclicRows
  else L.numStages * (nx + ny + nr) + L.numIntervals * (L.nspi - 1) * nx + cyclicRows

def Book.rows (J : Kind P) (b : Book P) : Nat := builtRows J b.params b.cyclic + (b.cons.map fun c => c.2.1).sum

/-- After the constructor. -/
def Book.init (J : Kind P) (p : P) : Book P :=
  { scales := J.S.scales, scale := J.S.builtScale, params := p, bounds := [], time := true, penalty := J.S.laptime
    objs := [], cyclic := J.S.isCyclic, cons := [], limits := builtRows J p J.S.isCyclic, changed := false }

/-- The names in use. -/
def Book.objNames (b : Book P) : List String :=
  (if b.time then ["time"] else []) ++ (if b.penalty then ["inputs_penalty"] else []) ++ b.objs.map Prod.fst

def Book.conNames (J : Kind P) (b : Book P) : List String :=
  "model_algebra" :: (if J.S.isCondensed then [] else ["continuity"]) ++ (if b.cyclic then ["cyclic"] else [])
    ++ b.cons.map Prod.fst

/-- Every call, noted. A call that must be refused changes nothing. -/
def Book.note (J : Kind P) (b : Book P) : Call P → Book P
  | .bounds c => { b with bounds := b.bounds ++ [c] }
  | .setScales cfgs => { b with scales := cfgs }
  | .setMeshScale ms => if J.S.builtScale = none then b else { b with scale := some ms }
  | .setParams p => if J.S.isCondensed then b else { b with params := p }
  | .addObjective name o =>
    if name ∈ b.objNames then b else { b with objs := b.objs ++ [(name, o.obj)], changed := true }
  | .deleteObjective name =>
    if name ∉ b.objNames then b
    else { b with time := b.time && name != "time", penalty := b.penalty && name != "inputs_penalty"
                  objs := b.objs.filter (fun o => o.1 != name), changed := true }
  | .addConstraints name c =>
    if name ∈ b.conNames J ∨ c.numIn ≠ J.S.c.o.L.numDec then b
    else { b with cons := b.cons ++ [(name, c.numCon, c.con)], changed := true }
  | .deleteConstraints name =>
    if name ∉ b.conNames J then b
    else { b with cyclic := b.cyclic && name != "cyclic", cons := b.cons.filter (fun c => c.1 != name), changed := true }
  | .setCons => { b with limits := b.rows J }
  | .hessianstructure => { b with changed := false }
  | .hessian _ _ _ => b
  | .solve _ =>
    { b with objs := if b.objNames = [] then [("const_obj", fun _ => 0)] else b.objs
             changed := if b.limits = b.rows J then false else if b.objNames = [] then true else b.changed }

def Book.noteAll (J : Kind P) (b : Book P) (cs : List (Call P)) : Book P := cs.foldl (Book.note J) b

/-- What the book says after a history on a new object. -/
def book (J : Kind P) (p : P) (cs : List (Call P)) : Book P := (Book.init J p).noteAll J cs

/-- The problem now asked for. -/
def Book.setup (J : Kind P) (b : Book P) : Setup := J.at b.scale b.params b.cyclic

/-- The names that belong to the construction. -/
def builtNames : List String := ["model_algebra", "continuity", "cyclic", "time", "inputs_penalty"]

/-- What a user must respect in one call. The settings stay among those (`V`) for which the model is right; added components are
right (their derivatives everywhere) and do not use the names of the construction; the constraints of the model are not deleted;
scales are given for known variables and not zero. Under jax, a problem is solved only while it has an objective, and with exact
Hessians only if the structure was queried after the last change of the components (`C97_second_solve`, `C97_no_objective`: it
raises otherwise). Bounds may be anything. -/
def GoodCall (J : Kind P) (V : Option ℝ → P → Prop) (b : Book P) : Call P → Prop
  | .bounds _ => True
  | .setScales cfgs => ∀ c ∈ cfgs, c.Known J.S.c.o.L ∧ c.value ≠ 0
  | .setMeshScale ms => V (some ms) b.params
  | .setParams p => V b.scale p
  | .addObjective name o => name ∉ builtNames ∧ ∃ s, GoodObj J.S.c.o.L.numDec s o
  | .deleteObjective _ => True
  | .addConstraints name c => name ∉ builtNames ∧ ∃ s, GoodCons c.numIn s c
  | .deleteConstraints name => name ≠ "model_algebra" ∧ name ≠ "continuity"
  | .setCons => True
  | .hessianstructure => True
  | .hessian _ _ _ => True
  | .solve a => J.jax = true → b.objNames ≠ [] ∧ a.warm.length = J.S.c.o.L.numDec ∧ (J.exact = true → b.changed = false)

/-- A history of such calls. -/
def GoodCalls (J : Kind P) (V : Option ℝ → P → Prop) (b : Book P) : List (Call P) → Prop
  | [] => True
  | c :: cs => GoodCall J V b c ∧ GoodCalls J V (b.note J c) cs

/-- What is asked of the model: for all settings in `V` (among them those of the construction) the construction would accept the
problem and the model's derivatives are right on `D p`; the model has the same number of residuals for all parameters. -/
structure Kind.Good (J : Kind P) (V : Option ℝ → P → Prop) (D : P → List ℝ → ℝ → Prop) : Prop where
  good : ∀ ms p, V ms p → (J.at ms p J.S.isCyclic).Good (D p)
  residuals : ∀ ms ms' p q, V ms p → V ms' q → (J.model p).nr = (J.model q).nr

/-- The value of the objectives asked for: the time (the mesh scale, or on a fixed mesh the state `time` at the end minus at the
start), the mean square of the steering in a laptime simulation, and the user's own. -/
noncomputable def Book.cost (J : Kind P) (b : Book P) (x : List ℝ) : ℝ :=
  let L := J.S.c.o.L
  (if b.time then
    match b.scale with
    | none => readScale (b.setup J).c.o x
    | some _ => readAt L x "states" "time" (L.numStages - 1) - readAt L x "states" "time" 0
   else 0)
  + (if b.penalty then (∑ s ∈ Finset.range L.numStages, readAt L x "inputs" "steer" s ^ 2) / (L.numStages : ℝ) else 0)
  + (b.objs.map fun o => o.2 x).sum

/-- The user's constraints hold. -/
def Book.UserHolds (b : Book P) (x : List ℝ) : Prop := ∀ c ∈ b.cons, ∀ v ∈ c.2.2 x, v = 0

end Lumos.Use
