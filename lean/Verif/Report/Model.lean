import Verif.NLP.Solve
import Verif.Tir.Model
/-!
# What `solve` tells IPOPT and what it reports

Models lumos/optimal_control/nlp.py:538-649 and 651-665: the options, the number of iterations and the times read from IPOPT's output file. The solution and the
scaling are `NLP.Prob.solve` (C17).
-/

namespace Lumos.Report

open Lumos NLP Tir

/-- The value of an option. -/
inductive Opt where
  | str (s : String)
  | int (i : Int)
  | float (q : ℚ)
  /-- Anything else, such as `None` or a list. -/
  | other
  deriving DecidableEq

/-- The machine: the name of the system (`platform.system()`) and the text files in the working directory. -/
structure Machine where
  system : String
  files : String → Option (List Char)

/-- `hsllib` (nlp.py:565-573); `none` if the variable is not assigned. -/
def hslPath (system : String) : Option String :=
  if system = "Darwin" then some "hsl/libcoinhsl.dylib"
  else if system = "Linux" then some "hsl/libcoinhsl.so"
  else if system = "Widows" then some "hsl/libcoinhsl.dll"
  else none

/-- `_get_default_ipopt_options` (nlp.py:548-579). An unassigned local variable is an UnboundLocalError, which is a NameError. -/
def defaultOptions (approx : String) (M : Machine) : Py (Dict Opt) :=
  let d : Dict Opt := [("mu_strategy", .str "adaptive"), ("tol", .float (1 / 1000)), ("linear_solver", .str "mumps"), ("print_level", .int 4),
    ("nlp_scaling_method", .str "user-scaling"), ("max_iter", .int 100), ("print_timing_statistics", .str "yes"),
    ("hessian_approximation", .str approx), ("fixed_variable_treatment", .str "make_parameter_nodual"), ("output_file", .str "ipopt.out")]
  match hslPath M.system with
  | none => .error .nameError
  | some lib => .ok (if (M.files lib).isSome then d.update [("hsllib", .str lib), ("linear_solver", .str "ma27")] else d)

/-- What a run of IPOPT does: the point and the status it returns, the `iter_count` of each call of `intermediate`, in order, and the files afterwards. -/
structure Run where
  x : List ℝ
  status : Int
  iters : List Nat
  files : String → Option (List Char)

/-- IPOPT: which options it accepts, and what a run does. -/
structure Ipopt where
  accepts : String → Opt → Bool
  run : Dict Opt → Prob → SolverInput → Machine → Run

/-- `for name, val in ipopt_options.items(): nlp.add_option(name, val)` (nlp.py:538-545): IPOPT's refusal is a TypeError. -/
def addOptions (I : Ipopt) : Dict Opt → Py Unit
  | [] => .ok ()
  | (n, v) :: d => if I.accepts n v then addOptions I d else .error .typeError

/-- `self._num_iter` after the calls of `intermediate` (nlp.py:651-665). The override in scaled_mesh_ocp.py:997-1013 sets it to the same. -/
def intermediates (k : Option Nat) : List Nat → Option Nat
  | [] => k
  | i :: is => intermediates (some i) is

/-! ## The times -/

/-- `\d+.\d+` at the beginning of the text: the longest run of digits, any character but a newline, and digits; failing that, at least three digits
(the second to last is then the "any character"). -/
def decimalAt (l : List Char) : Option (List Char) :=
  let d := l.takeWhile digit
  let long : Option (List Char) := match l.dropWhile digit with
    | c :: r => if c ≠ '\n' ∧ d ≠ [] ∧ r.takeWhile digit ≠ [] then some (d ++ c :: r.takeWhile digit) else none
    | [] => none
  match long with
  | some m => some m
  | none => if 3 ≤ d.length then some d else none

/-- The text after a prefix. -/
def after : List Char → List Char → Option (List Char)
  | [], l => some l
  | c :: p, d :: l => if c = d then after p l else none
  | _ :: _, [] => none

/-- The pattern `label \s*=\s*(\d+.\d+)` (nlp.py:636-637) at the beginning of the text: the group. -/
def matchAt (label l : List Char) : Option (List Char) :=
  match after label l with
  | none => none
  | some r =>
    match r.dropWhile space with
    | c :: r => if c = '=' then decimalAt (r.dropWhile space) else none
    | [] => none

/-- `re.findall(pattern, line)[0]`, if there is a match (nlp.py:643-645): the leftmost one. -/
def firstMatch (label : List Char) : List Char → Option (List Char)
  | [] => matchAt label []
  | c :: l =>
    match matchAt label (c :: l) with
    | some m => some m
    | none => firstMatch label l

/-- `for line in f: ... if match: info[name] = float(match[0])` (nlp.py:642-645): the last line that matches; ValueError if it is no number. -/
def timeIn (label : List Char) (t : Option Num) : List (List Char) → Py (Option Num)
  | [] => .ok t
  | l :: ls =>
    match firstMatch label l with
    | none => timeIn label t ls
    | some m =>
      match pyFloat m with
      | none => .error .valueError
      | some v => timeIn label (some v) ls

/-- nlp.py:636. -/
def nlpLabel : String := "Total seconds in NLP function evaluations "

/-- nlp.py:637. -/
def ipoptLabel : String := "Total seconds in IPOPT (w/o function evaluations) "

/-- `info` (nlp.py:626-645), as far as it is lumos that writes it, and the status. -/
structure Info where
  status : Int
  numIter : Option Nat
  nlpTime : Option Num
  ipoptTime : Option Num

/-- The file to read the times from (nlp.py:630-634), if any. A level that is no number cannot be compared (TypeError). Simplification: an `output_file` that is
no string counts as empty (IPOPT accepts only strings). -/
def timesFile (o : Dict Opt) : Py (Option String) := do
  let s ← o.get "print_timing_statistics"
  if s = .str "yes" then
    let l ← o.get "print_level"
    let q : ℚ ← match l with
      | .int i => .ok (i : ℚ)
      | .float q => .ok q
      | _ => .error .typeError
    if 4 ≤ q then
      match o.lookup "output_file" with
      | some (.str f) => return if f = "" then none else some f
      | _ => return none
    else return none
  else return none

/-- Reading the times (nlp.py:628-645). -/
def times (o : Dict Opt) (files : String → Option (List Char)) : Py (Option Num × Option Num) := do
  match ← timesFile o with
  | none => return (none, none)
  | some f =>
    match files f with
    | none => .error .fileNotFoundError
    | some text =>
      let a ← timeIn nlpLabel.toList none (readlines (translate text))
      let b ← timeIn ipoptLabel.toList none (readlines (translate text))
      return (a, b)

/-- A problem object: the problem, `_num_iter`, and the attribute `hessian_approximation`. -/
structure Object where
  prob : Prob
  numIter : Option Nat
  approx : String

/-- A call of `solve`: the bounds that the object has then, the guess, the guess that `get_init_guess` would give, and the user's options. -/
structure Call where
  lb : List EReal
  ub : List EReal
  guess : Option (List ℝ)
  dflt : List ℝ
  user : Dict Opt

/-- `ipopt_options` (nlp.py:602-603). -/
def options (approx : String) (M : Machine) (user : Dict Opt) : Py (Dict Opt) := (defaultOptions approx M).map fun d => d.update user

/-- `solve` (nlp.py:581-649): the object and the machine afterwards, and the result. -/
noncomputable def solve (I : Ipopt) (o : Object) (M : Machine) (c : Call) : Object × Machine × Py (List ℝ × Info) :=
  match (if o.prob.objs.isEmpty then o.prob.addObjective "const_obj" (constObj o.prob.numDec) else (o.prob, none) : Prob × Option PyErr) with
  | (q, some e) => ({ o with prob := q }, M, .error e)
  | (q, none) =>
    match (do let d ← options o.approx M c.user; addOptions I d; return d : Py (Dict Opt)) with
    | .error e => ({ o with prob := q }, M, .error e)
    | .ok d =>
      let r := I.run d q ⟨q.numDec, q.numCon, scaleBounds c.lb q.scales, scaleBounds c.ub q.scales, vdiv (c.guess.getD c.dflt) q.scales⟩ M
      let k := intermediates o.numIter r.iters
      let M' : Machine := { M with files := r.files }
      if r.status = -13 then ({ o with prob := q, numIter := k }, M', .error .runtimeError)
      else
        (({ o with prob := q, numIter := k }, M', (times d r.files).map fun t => (vmul r.x q.scales, ⟨r.status, k, t.1, t.2⟩)))

end Lumos.Report
