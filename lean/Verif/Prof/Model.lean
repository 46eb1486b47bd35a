import Verif.NLP.Model
import Verif.Base.Dict

/-!
# Model of `CompositeProblem.profile` (`lumos/optimal_control/nlp.py:818-871`)

The clock is an arbitrary sequence of readings. What the timed functions return is dropped, as in the code; what is kept is
which functions were called, in which order, what they did to the problem and what they raised. The functions of the
components are total (see NLP/Model).
-/

namespace Lumos.NLP.Prof

open Lumos

/-- The state of a run: the problem, the number of readings of the clock so far, and the functions called so far. -/
structure Run where
  prob : Prob
  ticks : Nat
  calls : List String

/-- A function to be timed, with its arguments: what it leaves of the problem and what it raises. -/
abbrev Fn := Prob → Prob × Option PyErr

/-- `_ = f(*args)` (nlp.py:826, 830). -/
def call (k : String) (f : Fn) (r : Run) : Run × Option PyErr :=
  ({ r with prob := (f r.prob).1, calls := r.calls ++ [k] }, (f r.prob).2)

/-- `for _ in range(repeat): _ = f(*args)` (nlp.py:829-830). -/
def callN (k : String) (f : Fn) : Nat → Run → Run × Option PyErr
  | 0, r => (r, none)
  | n + 1, r =>
    match call k f r with
    | (r, some e) => (r, some e)
    | (r, none) => callN k f n r

/-- The timed part of `time_function` (nlp.py:828-836): `range` of a negative number is empty; the division by `repeat`. -/
noncomputable def timed (repeat_ : Int) (clock : Nat → ℝ) (k : String) (f : Fn) (r : Run) : Run × Py ℝ :=
  let start := clock r.ticks
  match callN k f repeat_.toNat { r with ticks := r.ticks + 1 } with
  | (r, some e) => (r, .error e)
  | (r, none) =>
    let stop := clock r.ticks
    let r := { r with ticks := r.ticks + 1 }
    if repeat_ = 0 then (r, .error .zeroDivisionError) else (r, .ok ((stop - start) / repeat_))

/-- `time_function` (nlp.py:823-836). -/
noncomputable def timeFunction (once : Bool) (repeat_ : Int) (clock : Nat → ℝ) (k : String) (f : Fn) (r : Run) : Run × Py ℝ :=
  if once then
    match call k f r with
    | (r, some e) => (r, .error e)
    | (r, none) => timed repeat_ clock k f r
  else timed repeat_ clock k f r

/-- A function of a component: total, and without effect on the problem. -/
def component : Fn := fun p => (p, none)

/-- A method of the problem that does not change it. -/
def method {α : Type} (g : Prob → Py α) : Fn := fun p =>
  (p, match g p with
    | .ok _ => none
    | .error e => some e)

/-- `hessian` of the problem with multipliers one (nlp.py:862-869). -/
noncomputable def hessianOf (x0 : List ℝ) : Fn := fun p =>
  let r := p.hessian x0 (List.replicate p.numCon 1) 1
  (r.1, match r.2 with
    | .ok _ => none
    | .error e => some e)

/-- The functions timed, with the keys of their results (nlp.py:840-869). -/
noncomputable def jobs (p : Prob) (x0 : List ℝ) (hessian : Bool) : List (String × Fn) :=
  p.objs.flatMap (fun o => ["objective", "gradient", "hessian"].map fun m => (o.1 ++ "." ++ m, component))
  ++ p.cons.flatMap (fun c => (["constraints", "jacobian"].map fun m => (c.1 ++ "." ++ m, component))
      ++ if hessian then [(c.1 ++ "." ++ "hessian", component)] else [])
  ++ [("nlp.objective", method fun p => p.objective x0), ("nlp.gradient", method fun p => p.gradient x0),
      ("nlp.constraints", method fun p => p.constraints x0), ("nlp.jacobian", method fun p => p.jacobian x0)]
  ++ if hessian then [("nlp.hessian", hessianOf x0)] else []

/-- `results[key] = time_function(...)`, one after the other (nlp.py:838-869). -/
noncomputable def runJobs (once : Bool) (repeat_ : Int) (clock : Nat → ℝ) : List (String × Fn) → Run → Dict ℝ → Run × Py (Dict ℝ)
  | [], r, d => (r, .ok d)
  | (k, f) :: js, r, d =>
    match timeFunction once repeat_ clock k f r with
    | (r, .error e) => (r, .error e)
    | (r, .ok t) => runJobs once repeat_ clock js r (d.set k t)

/-- `profile` (nlp.py:818-871). -/
noncomputable def profile (p : Prob) (x0 : List ℝ) (repeat_ : Int) (hessian once : Bool) (clock : Nat → ℝ) : Run × Py (Dict ℝ) :=
  runJobs once repeat_ clock (jobs p x0 hessian) ⟨p, 0, []⟩ []

end Lumos.NLP.Prof
