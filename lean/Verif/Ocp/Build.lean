import Verif.Ocp.Scales
import Verif.Ocp.Cyclic
import Verif.Ocp.ContHess
import Verif.Ocp.CondHess
import Verif.Ocp.CondExample
import Verif.NLP.Solve
import Verif.Ocp.PenaltyModel
/-!
# Model of the construction of an OCP (scaled_mesh_ocp.py:78-150, 782-785, 1238-1333; fixed_mesh_ocp.py:25-110;
convolution.py:40-100; laptime_simulation.py:201-223)

The components are those of the other files: stage constraints (`StageModel`), continuity (`ContModel`), cyclic
constraints (`Cyclic`), condensed constraints (`CondModel`), time objective (`ContModel`), inputs penalty (`PenaltyModel`), bounds (`Bounds.Model`) and
scales (`Scales`). Logging, parameters and the reading of the model's names are not part of this file.
-/

namespace Lumos.Ocp

open Lumos DecVar DecVar.Layout NLP Bounds OCP

/-- What an OCP is built from: the transcribed model and the fields of `SimConfig` that matter here. `sample` is the point
`np.random.rand(num_dec)` drawn for the condensed structure (scaled_mesh_ocp.py:331). The callables of the problem read the
mesh scale when they are called: `c.o.fixedScale` is the one in force then, `builtScale` the one that was in force during the
construction, when the structures were computed (they differ after `set_mesh_scale`, fixed_mesh_ocp.py:37-41). `laptime`: the
class is `LaptimeSimulation`. -/
structure Setup where
  c : CondOCP
  builtScale : Option ℝ
  laptime : Bool
  isCyclic : Bool
  nonCyclic : List String
  isCondensed : Bool
  sample : List ℝ
  bounds : List (BoundConfig EReal)
  bcs : List (BC EReal)
  scales : List ScaleConfig

/-- The attributes of the object afterwards, and what `sim_config.bounds` has become. -/
structure Built where
  prob : Prob
  bounds : St EReal
  cl : List ℝ
  cu : List ℝ
  configBounds : List (BoundConfig EReal)

/-- A callable that may raise, as one of the total callables of `Cons` and `Obj`: the value where it does not raise.
The theorems below show that no callable of a built problem raises on a decision vector of the right length. -/
def valueOf (f : List ℝ → Py (List ℝ)) (x : List ℝ) : List ℝ :=
  match f x with
  | .ok v => v
  | .error _ => []

/-- See `valueOf`. -/
noncomputable def scalarOf (f : List ℝ → Py ℝ) (x : List ℝ) : ℝ :=
  match f x with
  | .ok v => v
  | .error _ => 0

/-- A method that mutates and may raise, in a constructor. -/
def orRaise {α : Type} (r : α × Option PyErr) : Py α :=
  match r.2 with
  | none => .ok r.1
  | some e => .error e

namespace Setup

/-- The problem as it was during the construction. -/
def constructed (S : Setup) : CondOCP := { S.c with o := { S.c.o with fixedScale := S.builtScale } }

/-- `_build_objective` (scaled_mesh_ocp.py:1309-1333; fixed_mesh_ocp.py:97-110). -/
noncomputable def timeObj (S : Setup) : Py Obj :=
  let o := S.c.o
  match o.fixedScale with
  | none => Obj.make o.L.numDec (scalarOf o.timeObjective) (valueOf o.timeGradient) (fun _ => []) (some ([], []))
  | some _ =>
    Obj.make o.L.numDec (scalarOf o.fixedTimeObjective) (valueOf o.fixedTimeGradient) (fun _ => []) (some ([], []))

/-- The second objective of `LaptimeSimulation._build_objective` (laptime_simulation.py:215-223). -/
noncomputable def penaltyObj (S : Setup) : Py Obj := do
  let L := S.c.o.L
  let hs ← inputsPenaltyStructure L
  Obj.make L.numDec (scalarOf (inputsPenalty L defaultWeights)) (valueOf (inputsPenaltyGrad L defaultWeights))
    (valueOf (inputsPenaltyHessian L defaultWeights)) (some hs)

/-- `_build_objective` of the three classes (scaled_mesh_ocp.py:1309-1333, fixed_mesh_ocp.py:97-110,
laptime_simulation.py:201-223). -/
noncomputable def buildObjective (S : Setup) (p : Prob) : Py Prob := do
  let p ← orRaise (p.addObjective "time" (← S.timeObj))
  if S.laptime then do orRaise (p.addObjective "inputs_penalty" (← S.penaltyObj)) else pure p

/-- `_build_model_algebra` (scaled_mesh_ocp.py:1281-1298) with `ConvConstraints.__init__` (convolution.py:40-100). -/
noncomputable def stageCons (S : Setup) : Py Cons := do
  let o := S.c.o
  let js ← o.stageJacStructure S.c.u
  let hs ← o.stageHessStructure S.c.u
  Cons.make o.L.numDec (o.L.numStages * S.c.u.numCon) (valueOf (o.stageConstraints S.c.u S.c.mesh))
    (valueOf (o.stageJacobian S.c.u S.c.mesh)) (fun x => valueOf (o.stageHessian S.c.u S.c.mesh x)) (some js) (some hs)

/-- `_build_continuity_cons` (scaled_mesh_ocp.py:1238-1249; fixed_mesh_ocp.py:74-95). -/
noncomputable def contCons (S : Setup) : Py Cons := do
  let o := S.c.o
  let js ← o.contJacStructure
  let js := (js.1.map Int.toNat, js.2.map Int.toNat)
  match o.fixedScale with
  | none => do
    let hs ← o.contHessStructure
    Cons.make o.L.numDec o.numContinuity (valueOf o.contConstraints) (valueOf o.contJacobian)
      (fun x => valueOf (o.contHessian x)) (some js) (some (hs.1.map Int.toNat, hs.2.map Int.toNat))
  | some _ => Cons.makeLinear o.L.numDec o.numContinuity (valueOf o.contConstraints) (valueOf o.contJacobian) js false

/-- `_build_cyclic_cons` (scaled_mesh_ocp.py:1300-1307). -/
noncomputable def cyclicCons (S : Setup) : Py Cons := do
  let L := S.c.o.L
  let states ← L.getNames "states"
  let inputs ← L.getNames "inputs"
  let vars ← buildCyclicVars states inputs S.nonCyclic
  let js ← cyclicStructure L vars
  Cons.makeLinear L.numDec vars.length (valueOf (cyclicConstraint L vars)) (valueOf (cyclicJacobian L vars)) js

/-- The object built by `_build_condensed_model_algebra` (scaled_mesh_ocp.py:1251-1279). -/
noncomputable def condCons (S : Setup) : Py Cons := do
  let js ← S.constructed.jacStructureAt S.sample
  let hs ← S.constructed.hessStructure
  Cons.make S.c.o.L.numDec S.c.numCon (valueOf S.c.constraints) (valueOf (S.c.jacobian js)) (fun x => valueOf (S.c.hessian x))
    (some js) (some hs)

/-- The components, in the order in which `__init__` adds them (scaled_mesh_ocp.py:122-132, 1251-1279). -/
noncomputable def assemble (S : Setup) : Py Prob := do
  let p := Prob.init S.c.o.L.numDec
  let p ← S.buildObjective p
  let p ← orRaise (p.addConstraints "model_algebra" (← S.stageCons))
  let p ← orRaise (p.addConstraints "continuity" (← S.contCons))
  let p ← if S.isCyclic then do orRaise (p.addConstraints "cyclic" (← S.cyclicCons)) else pure p
  if S.isCondensed then do
    let cc ← S.condCons
    let p ← orRaise (p.deleteConstraints "model_algebra")
    let p ← orRaise (p.deleteConstraints "continuity")
    orRaise (p.addConstraints "model_algebra" cc)
  else pure p

/-- `sim_config.bounds` after the condensed problem has appended the bounds on `states_dot`
(scaled_mesh_ocp.py:134-139). `BoundConfig(..., (0, 0))` passes its own validation (C19). -/
noncomputable def allBounds (S : Setup) (dotNames : List String) : List (BoundConfig EReal) :=
  S.bounds ++ if S.isCondensed then dotNames.map fun n => ⟨"states_dot", n, .scalar 0, .scalar 0⟩ else []

/-- `ScaledMeshOCP.__init__` (scaled_mesh_ocp.py:78-150). -/
noncomputable def build (S : Setup) : Py Built := do
  let L := S.c.o.L
  let p ← S.assemble
  let names ← L.getNames "states_dot"
  let s ← orRaise (Bounds.updateBounds L (Bounds.fresh L) (S.allBounds names))
  let s ← orRaise (Bounds.updateBCs L s S.bcs)
  let cl := List.replicate p.numCon 0
  let p ← orRaise (Ocp.setScales L S.c.M.nr S.isCondensed p S.scales)
  return { prob := p, bounds := s, cl := cl, cu := cl, configBounds := S.allBounds names }

end Setup

/-! ## Specification -/

/-- The value of a stage variable as a user reads it with `get_var(x, group, name, stage)`. -/
noncomputable def readAt (L : Layout) (x : List ℝ) (g n : String) (s : Nat) : ℝ :=
  match L.getVar x g n (some (s : Int)) with
  | .ok (.scalar a) => a
  | _ => 0

/-- The mesh scale: the fixed one, or the decision variable as a user reads it. -/
noncomputable def readScale (o : OCP) (x : List ℝ) : ℝ :=
  match o.fixedScale with
  | some s => s
  | none =>
    match o.L.getVar x "global" "mesh_scale" none with
    | .ok (.scalar a) => a
    | _ => 0

/-- The values of all variables of a group at a stage. -/
noncomputable def readGroup (L : Layout) (x : List ℝ) (g : String) (s : Nat) : List ℝ :=
  (L.namesOf g).map fun n => readAt L x g n s

/-- `x` solves the discretised optimal control problem: the transcription's equations hold in every interval for every
state, at every stage the model's state derivatives and outputs are the decision variables and its residuals are zero,
and, for a cyclic problem, every state and input that is not excluded has the same value at both ends. -/
structure IsSolution (S : Setup) (x : List ℝ) : Prop where
  defects : ∀ i l k : Nat, i < S.c.o.L.numIntervals → l < S.c.o.L.nspi - 1 → ∀ n nd, (S.c.o.L.namesOf "states")[k]? = some n →
    (S.c.o.L.namesOf "states_dot")[k]? = some nd →
    ∑ j ∈ Finset.range S.c.o.L.nspi, S.c.o.A l j * readAt S.c.o.L x "states" n (i * (S.c.o.L.nspi - 1) + j)
      = S.c.o.normLen.getD i 0 * readScale S.c.o x *
        ∑ j ∈ Finset.range S.c.o.L.nspi, S.c.o.B l j * readAt S.c.o.L x "states_dot" nd (i * (S.c.o.L.nspi - 1) + j)
  dynamics : ∀ s, s < S.c.o.L.numStages →
    S.c.M.f (readGroup S.c.o.L x "states" s) (readGroup S.c.o.L x "inputs" s) (S.c.mesh.getD s 0 * readScale S.c.o x)
      = readGroup S.c.o.L x "states_dot" s
  outputs : ∀ s, s < S.c.o.L.numStages →
    S.c.M.h (readGroup S.c.o.L x "states" s) (readGroup S.c.o.L x "inputs" s) (S.c.mesh.getD s 0 * readScale S.c.o x)
      = readGroup S.c.o.L x "con_outputs" s
  residuals : ∀ s, s < S.c.o.L.numStages →
    ∀ v ∈ S.c.M.r (readGroup S.c.o.L x "states" s) (readGroup S.c.o.L x "inputs" s)
      (S.c.mesh.getD s 0 * readScale S.c.o x), v = 0
  periodic : S.isCyclic = true → ∀ g n, (g = "states" ∨ g = "inputs") → n ∈ S.c.o.L.namesOf g →
    (g ++ "." ++ n) ∉ S.nonCyclic → readAt S.c.o.L x g n 0 = readAt S.c.o.L x g n (S.c.o.L.numStages - 1)

/-- Where the derivatives of a built problem are right: where those of the model are, at every stage and around it. -/
def Setup.dom (S : Setup) (D : List ℝ → ℝ → Prop) : List ℝ → Prop := nearDom S.c.o.L.numDec (S.c.o.stageDom S.c.mesh D)

/-- What the construction needs. The derivatives of the model are right at the points `D` of a stage (by default everywhere). -/
structure Setup.Good (S : Setup) (D : List ℝ → ℝ → Prop := fun _ _ => True) : Prop where
  cond : S.c.Good
  jac : UnitJac S.c.u D
  hess : UnitHess S.c.u Upper D
  meshFree : MeshFree S.c.o S.c.u
  /-- The class of the problem does not change. -/
  built : S.builtScale = none ↔ S.c.o.fixedScale = none
  /-- A laptime simulation has a fixed mesh and a steered vehicle. -/
  lap : S.laptime = true → S.c.o.fixedScale ≠ none ∧ "steer" ∈ S.c.o.L.namesOf "inputs"
  /-- A scaled mesh has the mesh scale as its last global variable. -/
  last : S.c.o.fixedScale = none → S.c.o.L.globals.getLast? = some "mesh_scale"
  /-- A fixed mesh minimises the state `time`. -/
  time : S.c.o.fixedScale ≠ none → "time" ∈ S.c.o.L.namesOf "states"
  dotless : S.isCyclic = true → (∀ n ∈ S.c.o.L.namesOf "states", Dotless n) ∧ ∀ n ∈ S.c.o.L.namesOf "inputs", Dotless n
  excluded : S.isCyclic = true → S.nonCyclic.Nodup ∧ (∀ v ∈ S.nonCyclic, (∃ n ∈ S.c.o.L.namesOf "states", v = "states." ++ n)
    ∨ ∃ n ∈ S.c.o.L.namesOf "inputs", v = "inputs." ++ n)
  /-- Something is left to be periodic. -/
  someCyclic : S.isCyclic = true → (∃ n ∈ S.c.o.L.namesOf "states", "states." ++ n ∉ S.nonCyclic)
    ∨ ∃ n ∈ S.c.o.L.namesOf "inputs", "inputs." ++ n ∉ S.nonCyclic
  /-- The sampled structure of a condensed problem misses no entry at the points where derivatives are wanted (see C29 for what happens
  otherwise). -/
  sample : S.isCondensed = true → S.sample.length = S.c.o.L.numDec ∧ ∀ x J, x.length = S.c.o.L.numDec → S.dom D x →
    S.c.bigJac x = .ok J → ∀ r p, r < S.c.numCon → p < S.c.o.L.numDec → J r p ≠ 0 → S.constructed.sampled S.sample r p ≠ 0
  known : ∀ c ∈ S.scales, c.Known S.c.o.L
  nonzero : ∀ c ∈ S.scales, c.value ≠ 0
  /-- The bounds and boundary conditions are accepted (C19-C21 say when). -/
  bounds : ∃ s t, Bounds.updateBounds S.c.o.L (Bounds.fresh S.c.o.L) (S.allBounds (S.c.o.L.namesOf "states_dot")) = (s, none)
    ∧ Bounds.updateBCs S.c.o.L s S.bcs = (t, none)

end Lumos.Ocp
