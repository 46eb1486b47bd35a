import Verif.Lap.Model
import Verif.Base.Dict
/-!
# Model of the configuration classes (lumos/optimal_control/config.py, laptime_simulation.py:107-137, drone_simulation.py:16-50)
-/

namespace Lumos.Config

open Lumos

/-- The dataclasses that a configuration is made of (config.py:7-75). -/
inductive Cls
  | bound | scale | bc | logging
  deriving DecidableEq, Repr

/-- The Python values in a configuration. Simplification: integers, floats and booleans with the same value are one number (as in
Python's `==`); dictionaries have string keys. -/
inductive V
  | none
  | num (a : EReal)
  | str (s : String)
  | arr (as : List EReal)
  | list (vs : List V)
  | tup (vs : List V)
  | dict (kvs : List (String × V))
  | obj (c : Cls) (fields : List (String × V))

mutual
/-- `dataclasses.asdict` of a value: a dataclass becomes the dictionary of its fields, containers are rebuilt, everything else is copied. -/
def asdict : V → V
  | .list vs => .list (asdictL vs)
  | .tup vs => .tup (asdictL vs)
  | .dict kvs => .dict (asdictF kvs)
  | .obj _ fields => .dict (asdictF fields)
  | .none => .none
  | .num a => .num a
  | .str s => .str s
  | .arr as => .arr as

/-- See `asdict`. -/
def asdictL : List V → List V
  | [] => []
  | v :: vs => asdict v :: asdictL vs

/-- See `asdict`. -/
def asdictF : List (String × V) → List (String × V)
  | [] => []
  | (k, v) :: kvs => (k, asdict v) :: asdictF kvs
end

/-- The fields of a class in the order of their declaration, and their defaults (config.py:7-75). -/
noncomputable def fieldsOf : Cls → List (String × Option V)
  | .bound => [("group", Option.none), ("name", Option.none), ("values", Option.none)]
  | .scale => [("group", Option.none), ("name", Option.none), ("value", Option.none)]
  | .bc => [("stage", Option.none), ("group", Option.none), ("name", Option.none), ("value", Option.none)]
  | .logging => [("sim_name", some (.str "simulation")), ("results_dir", some (.str "results")), ("log_every_nth_iter", some (.num 0))]

/-- The value of a field given as a keyword or by default. -/
def fieldValue (kw : List (String × V)) (f : String × Option V) : Py (String × V) :=
  match kw.lookup f.1, f.2 with
  | some v, _ => .ok (f.1, v)
  | Option.none, some v => .ok (f.1, v)
  | Option.none, Option.none => .error .typeError

/-- The generated `__init__` of a dataclass with keyword arguments: an unknown keyword and a missing argument raise TypeError. -/
def init (fs : List (String × Option V)) (kw : List (String × V)) : Py (List (String × V)) :=
  if ∀ k ∈ kw.map Prod.fst, k ∈ fs.map Prod.fst then fs.mapM (fieldValue kw) else .error .typeError

/-- Assertion. -/
def assertP (p : Prop) [Decidable p] : Py Unit := if p then .ok () else .error .assertionError

open Classical in
/-- `BoundConfig.__post_init__` (config.py:20-42) on the value of `values`. Simplifications: a value that is not a sequence of two raises
TypeError or ValueError alike here (TypeError); strings are not compared. -/
noncomputable def checkBounds : V → Py Unit
  | .tup [.num a, .num b] | .list [.num a, .num b] => assertP (a ≤ b)
  | .tup [.arr as, .arr bs] | .list [.arr as, .arr bs] => do
    assertP (as.length = bs.length)
    assertP (∀ p ∈ as.zip bs, p.1 ≤ p.2)
  | _ => .error .typeError

/-- `__post_init__` of a class; only `BoundConfig` has one. -/
noncomputable def check : Cls → List (String × V) → Py Unit
  | .bound, fields => match fields.lookup "values" with
    | some v => checkBounds v
    | Option.none => .error .attributeError
  | _, _ => .ok ()

/-- `cls(**d)`: TypeError when `d` is not a mapping. -/
noncomputable def make (c : Cls) : V → Py V
  | .dict kw => do
    let fields ← init (fieldsOf c) kw
    check c fields
    return .obj c fields
  | _ => .error .typeError

/-- `x and isinstance(x[0], dict)`, then `tuple(cls(**d) for d in x)` (config.py:147-157). Simplification: indexing a value that is not a
list or a tuple raises TypeError (for an array of numbers it gives a number). -/
noncomputable def convert (c : Cls) : V → Py V
  | .list [] => .ok (.list [])
  | .tup [] => .ok (.tup [])
  | .dict [] => .ok (.dict [])
  | .none => .ok .none
  | .list (.dict d :: vs) => do return .tup (← (.dict d :: vs).mapM (make c))
  | .tup (.dict d :: vs) => do return .tup (← (.dict d :: vs).mapM (make c))
  | .list vs => .ok (.list vs)
  | .tup vs => .ok (.tup vs)
  | _ => .error .typeError

/-- Assigning to a field. -/
def setField (c : List (String × V)) (k : String) (v : V) : List (String × V) := c.map fun f => if f.1 = k then (k, v) else f

/-- Reading a field. -/
def getField (c : List (String × V)) (k : String) : Py V :=
  match c.lookup k with
  | some v => .ok v
  | Option.none => .error .attributeError

/-- `if isinstance(self.transcription, str): self.transcription = (self.transcription,)` (config.py:144-145). -/
def wrapTranscription : V → V
  | .str s => .tup [.str s]
  | v => v

/-- One conversion step of `SimConfig.__post_init__`. -/
noncomputable def convertField (k : String) (cls : Cls) (c : List (String × V)) : Py (List (String × V)) := do
  let v ← getField c k
  return setField c k (← convert cls v)

/-- `SimConfig.__post_init__` (config.py:138-157). -/
noncomputable def postInit (c : List (String × V)) : Py (List (String × V)) := do
  let t ← getField c "transcription"
  let c ← convertField "bounds" .bound (setField c "transcription" (wrapTranscription t))
  let c ← convertField "scales" .scale c
  convertField "boundary_conditions" .bc c

/-- `v == name`. -/
def isStr (name : String) : V → Bool
  | .str s => s == name
  | _ => false

/-- `if name not in self.non_cyclic_vars: self.non_cyclic_vars.append(name)`: a tuple has no `append` (laptime_simulation.py:131-136).
Simplification: substring tests on a string are not modelled (TypeError here). -/
def addNonCyclic (v : V) (name : String) : Py V :=
  match v with
  | .list vs => if vs.any (isStr name) then .ok (.list vs) else .ok (.list (vs ++ [.str name]))
  | .tup vs => if vs.any (isStr name) then .ok (.tup vs) else .error .attributeError
  | _ => .error .typeError

/-- The configuration classes. -/
inductive Sim
  | sim | ltc | drone
  deriving DecidableEq, Repr

/-- A bound as an object. -/
noncomputable def ofBVal : Bounds.BVal EReal → V
  | .scalar a => .num a
  | .array as => .arr as

noncomputable def ofBound (b : Bounds.BoundConfig EReal) : V :=
  .obj .bound [("group", .str b.group), ("name", .str b.name), ("values", .tup [ofBVal b.lb, ofBVal b.ub])]

/-- A scale as an object. -/
noncomputable def ofScale (s : Ocp.ScaleConfig) : V :=
  .obj .scale [("group", .str s.group), ("name", .str s.name), ("value", .num (s.value : EReal))]

/-- A boundary condition as an object. -/
noncomputable def ofBC (stage : Int) (group name : String) (a : ℝ) : V :=
  .obj .bc [("stage", .num ((stage : ℝ) : EReal)), ("group", .str group), ("name", .str name), ("value", .num (a : EReal))]

/-- `get_default_boundary_conditions` (laptime_simulation.py:58-74) as objects. -/
noncomputable def ltcBCs (isCyclic : Bool) : List V :=
  if isCyclic then [ofBC 0 "states" "time" 0]
  else [ofBC 0 "states" "time" 0, ofBC 0 "states" "n" 0, ofBC 0 "states" "eta" 0, ofBC 0 "states" "vx" 50, ofBC 0 "states" "vy" 0,
    ofBC 0 "states" "yaw_rate" 0]

/-- The default bounds of the drone (drone_simulation.py:31-41). -/
noncomputable def droneBounds : List (Bounds.BoundConfig EReal) :=
  [LapSim.bound "states" "x" (-50) 50, LapSim.bound "states" "x_dot" (-50) 50, LapSim.bound "states" "z" (-50) 50,
   LapSim.bound "states" "z_dot" (-50) 50, LapSim.bound "states" "theta" (-10 * Real.pi) (10 * Real.pi), LapSim.bound "inputs" "f" 1 20,
   LapSim.bound "inputs" "omega" (-10) 10, LapSim.bound "global" "mesh_scale" 0.1 50]

/-- The default boundary conditions of the drone (drone_simulation.py:16-28). -/
noncomputable def droneBCs : List V :=
  [ofBC 0 "states" "x" 0, ofBC 0 "states" "x_dot" 0, ofBC 0 "states" "z" 0, ofBC 0 "states" "z_dot" 0, ofBC 0 "states" "theta" 0,
   ofBC (-1) "states" "x" 0, ofBC (-1) "states" "x_dot" 0, ofBC (-1) "states" "z" 5, ofBC (-1) "states" "z_dot" 0,
   ofBC (-1) "states" "theta" (2 * Real.pi)]

/-- The defaults that the classes do not share: `boundary_conditions`, `bounds`, `scales`, `con_output_names`
(config.py:132-135; laptime_simulation.py:114-119; drone_simulation.py:46-50). -/
noncomputable def defaultsOf : Sim → List V × List V × List V × List V
  | .sim => ([], [], [], [])
  | .ltc => (ltcBCs true, LapSim.defaultBounds.map ofBound, LapSim.defaultScales.map ofScale, LapSim.defaultConOutputs.map .str)
  | .drone => (droneBCs, droneBounds.map ofBound, [], [.str "sin_theta"])

/-- The fields of a configuration and their defaults (config.py:124-136; laptime_simulation.py:108). -/
noncomputable def simFields (k : Sim) : List (String × Option V) :=
  [("num_intervals", some (.num 99)), ("interval_points", some .none), ("transcription", some (.str "Trapezoidal")),
   ("is_cyclic", some (.num 0)), ("non_cyclic_vars", some (.list [])), ("is_condensed", some (.num 0)), ("backend", some (.str "jax")),
   ("hessian_approximation", some (.str "exact")), ("boundary_conditions", some (.tup (defaultsOf k).1)),
   ("bounds", some (.tup (defaultsOf k).2.1)), ("scales", some (.tup (defaultsOf k).2.2.1)),
   ("con_output_names", some (.tup (defaultsOf k).2.2.2)), ("logging_config", some .none)]
  ++ if k = .ltc then [("track", some .none)] else []

/-- `LTCConfig.__post_init__` after that of `SimConfig` (laptime_simulation.py:121-136). -/
noncomputable def ltcPost (c : List (String × V)) : Py (List (String × V)) := do
  let t ← getField c "track"
  match t with
  | .none => .error .valueError
  | _ => do
    let v ← getField c "non_cyclic_vars"
    let v ← addNonCyclic v "states.time"
    let v ← addNonCyclic v "inputs.track_heading"
    return setField c "non_cyclic_vars" v

/-- `SimConfig(**kw)`, `LTCConfig(**kw)`, `DroneSimulationConfig(**kw)`. -/
noncomputable def config (k : Sim) (kw : List (String × V)) : Py (List (String × V)) := do
  let c ← init (simFields k) kw
  let c ← postInit c
  if k = .ltc then ltcPost c else return c

/-- `to_dict` (config.py:159-161). -/
def toDict (c : List (String × V)) : List (String × V) := asdictF c

/-- `_initialize_logging` (scaled_mesh_ocp.py:793-805): whether there will be logging; AttributeError when `logging_config` has no
`sim_name`. -/
def startLogging (c : List (String × V)) : Py Bool := do
  match ← getField c "logging_config" with
  | .none => return false
  | .obj .logging _ => return true
  | _ => .error .attributeError

end Lumos.Config
