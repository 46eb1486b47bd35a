import Verif.Prof.Model
import Mathlib.Data.List.Infix
/-!
# Model of the benchmark (`regression_tests/run_benchmark.py`)

Constructing a simulation and solving it for a track are arbitrary: they may raise, and a solve may depend on what the one
simulation object that the sweep uses was used for before. Percentages and means are real numbers; pandas' mean of no numbers
(NaN) is `none`. Logging and the csv files are not modelled.
-/

namespace Lumos.Bench

open Lumos Lumos.NLP

/-- `_create_metric` (run_benchmark.py:14-15). -/
structure Metric where
  name : String
  unit : String
  value : Option ℝ

/-- The columns extracted from `info`, without the track itself (run_benchmark.py:82-91). -/
structure Row where
  status : Int
  numIter : Nat
  laptime : ℝ
  msg : String

/-- The row of `track_sweep_summary.csv` (run_benchmark.py:97-106). -/
structure Summary where
  numSuccess : Nat
  numTotal : Nat
  successPct : ℝ
  avgSuccessIter : Option ℝ

/-- The files of the sweep (run_benchmark.py:42-44); `listing` is what `os.listdir` returns, whose order is arbitrary. -/
def trackFiles (listing : List String) : List String :=
  (listing.filter fun f => ".csv".toList.isSuffixOf f.toList).map fun f => "data/tracks/" ++ f

/-- `[_solve_with_track(f) for f in track_files]` (run_benchmark.py:61-94): all on one object, in order; the first error ends it. -/
def runAll {S : Type} (solve : S → String → S × Py Row) : S → List String → Py (List Row)
  | _, [] => .ok []
  | s, f :: fs =>
    match solve s f with
    | (_, .error e) => .error e
    | (s', .ok r) =>
      match runAll solve s' fs with
      | .error e => .error e
      | .ok rs => .ok (r :: rs)

/-- pandas' `mean`. -/
noncomputable def mean (l : List ℝ) : Option ℝ := if l.length = 0 then none else some (l.sum / l.length)

/-- `results["status"] == 0` (run_benchmark.py:95). -/
def succeeded (rows : List Row) : List Row := rows.filter fun r => r.status == 0

/-- `results.loc[is_success, "num_iter"].mean()` (run_benchmark.py:103, 119). -/
noncomputable def avgIter (rows : List Row) : Option ℝ := mean ((succeeded rows).map fun r => (r.numIter : ℝ))

/-- The summary (run_benchmark.py:95-106). -/
noncomputable def summary (rows : List Row) : Summary where
  numSuccess := (succeeded rows).length
  numTotal := rows.length
  successPct := (succeeded rows).length / rows.length * 100
  avgSuccessIter := avgIter rows

/-- The metrics (run_benchmark.py:115-121). -/
noncomputable def sweepMetrics (rows : List Row) : List Metric :=
  [⟨"num_total", "-", some rows.length⟩,
   ⟨"failure_pct", "%", some ((1 - (succeeded rows).length / rows.length) * 100)⟩,
   ⟨"avg_success_iter", "iter", avgIter rows⟩]

/-- `sweep_tracks` (run_benchmark.py:39-123): `track_files[0]` of no files raises `IndexError`; `init` is the construction
of the simulation with the first track. -/
noncomputable def sweep {S : Type} (init : String → Py S) (solve : S → String → S × Py Row) (listing : List String) :
    Py (Summary × List Metric) :=
  match trackFiles listing with
  | [] => .error .indexError
  | f :: fs =>
    match init f with
    | .error e => .error e
    | .ok s =>
      match runAll solve s (f :: fs) with
      | .error e => .error e
      | .ok rows => .ok (summary rows, sweepMetrics rows)

/-- The metrics read from the results of `profile` (run_benchmark.py:144-155, 178-190). -/
def pick (results : Dict ℝ) (pre : String) : List String → Py (List Metric)
  | [] => .ok []
  | n :: ns =>
    match results.get n with
    | .error e => .error e
    | .ok v =>
      match pick results pre ns with
      | .error e => .error e
      | .ok ms => .ok (⟨pre ++ "." ++ n, "sec", some v⟩ :: ms)

/-- `profile_jax_jit` (run_benchmark.py:126-157) for the problem `p` with the guess `x0`. -/
noncomputable def profileJit (p : Prob) (x0 : List ℝ) (clock : Nat → ℝ) : Py (List Metric) :=
  match (Prof.profile p x0 1 true false clock).2 with
  | .error e => .error e
  | .ok d => pick d "jax_jit" ["model_algebra.constraints", "model_algebra.jacobian", "model_algebra.hessian"]

/-- `profile_nlp` (run_benchmark.py:160-192); `backend` and the number of intervals occur in the names. -/
noncomputable def profileNlp (backend num : String) (p : Prob) (x0 : List ℝ) (clock : Nat → ℝ) : Py (List Metric) :=
  match (Prof.profile p x0 10 true true clock).2 with
  | .error e => .error e
  | .ok d => pick d (backend ++ "." ++ num) ["nlp.objective", "nlp.gradient", "nlp.constraints", "nlp.jacobian", "nlp.hessian"]

/-- A profiled problem: the problem, its initial guess, and the readings of the clock. -/
structure Case where
  p : Prob
  x0 : List ℝ
  clock : Nat → ℝ

/-- `itertools.product(["casadi", "jax"], [100, 1000, 10000])`, with `str` of the numbers (run_benchmark.py:24-26, 188). -/
def grid : List (String × String) :=
  ["casadi", "jax"].flatMap fun b => ["100", "1000", "10000"].map fun n => (b, n)

/-- `metrics += profile_nlp(...)` for each of the grid (run_benchmark.py:24-30). -/
noncomputable def profileAll (c : String × String → Case) : List (String × String) → Py (List Metric)
  | [] => .ok []
  | g :: gs =>
    match profileNlp g.1 g.2 (c g).p (c g).x0 (c g).clock with
    | .error e => .error e
    | .ok ms =>
      match profileAll c gs with
      | .error e => .error e
      | .ok ms' => .ok (ms ++ ms')

/-- `create_metrics` (run_benchmark.py:19-36): what is written to `summary.json`, if anything is. -/
noncomputable def createMetrics {S : Type} (jit : Case) (c : String × String → Case) (init : String → Py S)
    (solve : S → String → S × Py Row) (listing : List String) : Py (List Metric) :=
  match profileJit jit.p jit.x0 jit.clock with
  | .error e => .error e
  | .ok a =>
    match profileAll c grid with
    | .error e => .error e
    | .ok b =>
      match sweep init solve listing with
      | .error e => .error e
      | .ok s => .ok (a ++ b ++ s.2)

end Lumos.Bench
