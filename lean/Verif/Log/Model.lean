import Verif.Base.Py
import Mathlib.Data.Real.Basic
import Mathlib.Data.List.Infix
/-!
# Model of the logging of a solve (lumos/optimal_control/scaled_mesh_ocp.py:793-899, 997-1013; nlp.py:441-465, 651-665)

The table of an iteration (`_create_result_df`, 901-995) is a parameter here; it is modelled in `Verif/Log/Table`. Files hold the
tables themselves: writing and reading a CSV or parquet file is taken to lose nothing.
-/

namespace Lumos.Log

open Lumos

/-- The arguments of IPOPT's intermediate callback: `alg_mod`, `iter_count` and the nine numbers after them
(scaled_mesh_ocp.py:63-75). -/
structure Metrics where
  algMod : Int
  iterCount : Nat
  rest : List ℝ

/-- One row of the table of an iteration: `iter`, `mesh` and the other columns. `iter` is None if no iteration was reported. -/
structure Row where
  iter : Option Nat
  mesh : ℝ
  vals : List (String × ℝ)

/-- One row of the metrics history: the metrics (missing in a row added by assigning to a new label), and the largest violation
with the place on the mesh, if these columns exist. -/
structure MRow where
  metrics : Option Metrics
  violation : Option (String × ℝ)

/-- What a file contains. -/
inductive File
  | table (t : List Row)
  | metrics (m : List MRow)

/-- The names of the files in the logging directory: `iter_<k>.csv`, `results.csv`, `metrics_history.csv`, `all_iters.parquet` and any
other. -/
inductive FName
  | iter (k : Nat)
  | results
  | metricsHistory
  | allIters
  | other (s : String)
  deriving DecidableEq

/-- Whether `glob("iter*.csv")` finds the file. -/
def FName.isIter : FName → Bool
  | .iter _ => true
  | .other s => s.startsWith "iter" && s.endsWith ".csv"
  | _ => false

/-- The files of the directory, without repetition of a name. -/
abbrev FS := List (FName × File)

/-- Writing a file. -/
def write (fs : FS) (n : FName) (f : File) : FS := (n, f) :: fs.filter fun p => p.1 ≠ n

/-- `os.remove`: FileNotFoundError (an OSError) if there is no such file. -/
def remove (fs : FS) (n : FName) : Py FS :=
  if n ∈ fs.map Prod.fst then .ok (fs.filter fun p => p.1 ≠ n) else .error .fileNotFoundError

/-- `pd.read_csv`. -/
def readTable (fs : FS) (n : FName) : Py (List Row) :=
  match fs.lookup n with
  | some (.table t) => .ok t
  | _ => .error .fileNotFoundError

/-- What a solve logs to: `LoggingConfig.log_every_nth_iter` (or None for no logging config), the table of an iteration at a scaled
decision vector, and the order in which the operating system lists the files. -/
structure Env where
  every : Option Nat
  df : List ℝ → Option Nat → Py (List Row)
  glob : FS → List FName
  glob_perm : ∀ fs, (glob fs).Perm ((fs.map Prod.fst).filter FName.isIter)

/-- The attributes `_num_iter`, `_last_iter_dec_var` and `_metrics_history_list`, and the directory. -/
structure St where
  numIter : Option Nat
  last : List ℝ
  history : List Metrics
  files : FS

/-- `_create_result_df`, as far as the files are concerned (scaled_mesh_ocp.py:901-995). -/
def writeTable (E : Env) (s : St) (name : FName) (k : Option Nat) : Py St := do
  let t ← E.df s.last k
  return { s with files := write s.files name (.table t) }

/-- `_log` (scaled_mesh_ocp.py:814-833). -/
def log (E : Env) (s : St) (m : Metrics) : Py St :=
  match E.every with
  | none => .ok s
  | some n =>
    let s := { s with history := s.history ++ [m] }
    if 0 < n ∧ m.iterCount % n = 0 then writeTable E s (.iter m.iterCount) (some m.iterCount) else .ok s

/-- `intermediate` (scaled_mesh_ocp.py:997-1013). -/
def intermediate (E : Env) (s : St) (m : Metrics) : Py St :=
  if m.algMod = 0 ∧ some m.iterCount = s.numIter then .ok s
  else do
    let s ← log E s m
    return { s with numIter := some m.iterCount }

/-- What IPOPT does, as far as the logging sees it: it evaluates the objective (nlp.py:452-464) and reports iterations. -/
inductive Event
  | objective (x : List ℝ)
  | report (m : Metrics)

/-- One event. -/
def step (E : Env) (s : St) : Event → Py St
  | .objective x => .ok { s with last := x }
  | .report m => intermediate E s m

/-- `[c for c in columns if "_con." in c]` (scaled_mesh_ocp.py:880). -/
def isCon (c : String) : Bool := decide ("_con.".toList <:+: c.toList)

/-- The absolute values of the constraint columns, row by row, with the name and the place on the mesh: `iter_df[con_names].abs().stack()`
(scaled_mesh_ocp.py:886). Simplification: the constraint columns of each table are its own, those of `df_list[0]` in the code; all
tables of a problem have the same columns. -/
noncomputable def violations (t : List Row) : List ((String × ℝ) × ℝ) :=
  t.flatMap fun r => (r.vals.filter fun c => isCon c.1).map fun c => ((c.1, r.mesh), |c.2|)

/-- `idxmax`: the first of the largest; ValueError if there is none. -/
noncomputable def idxmax : List ((String × ℝ) × ℝ) → Py (String × ℝ)
  | [] => .error .valueError
  | v :: vs => .ok (vs.foldl (fun best v => open Classical in if best.2 < v.2 then v else best) v).1

/-- `metrics_history_df.loc[k, columns] = ...` (scaled_mesh_ocp.py:888-891): the row with the label `k`, which is added at the end if
there is none. -/
def setRow (ms : List (Nat × MRow)) (k : Nat) (v : String × ℝ) : List (Nat × MRow) :=
  if k ∈ ms.map Prod.fst then ms.map fun r => if r.1 = k then (k, { r.2 with violation := some v }) else r
  else ms ++ [(k, ⟨none, some v⟩)]

/-- One round of the loop over `df_list` (scaled_mesh_ocp.py:885-892). -/
noncomputable def addViolation (ms : List (Nat × MRow)) (t : List Row) : Py (List (Nat × MRow)) := do
  let v ← idxmax (violations t)
  match t with
  | r :: _ => match r.iter with
    | some k => return setRow ms k v
    | none => throw .keyError
  | [] => throw .keyError

/-- The loop over `df_list` (scaled_mesh_ocp.py:885-892). -/
noncomputable def addViolations (ms : List (Nat × MRow)) (dfs : List (List Row)) : Py (List (Nat × MRow)) :=
  dfs.foldlM addViolation ms

/-- The order of `sort_values(["iter", "mesh"])` (scaled_mesh_ocp.py:864). -/
def rowLe (a b : Row) : Prop := a.iter.getD 0 < b.iter.getD 0 ∨ (a.iter.getD 0 = b.iter.getD 0 ∧ a.mesh ≤ b.mesh)

/-- `sort_values`. -/
noncomputable def sortRows (l : List Row) : List Row := open Classical in l.mergeSort fun a b => decide (rowLe a b)

/-- The file of the last iteration is dropped if there is one (scaled_mesh_ocp.py:849-856). -/
def dropLast (fs : FS) (n k : Nat) : Py FS := if k % n = 0 then remove fs (.iter k) else .ok fs

/-- `_log_final_iter` (scaled_mesh_ocp.py:835-899). -/
noncomputable def logFinal (E : Env) (s : St) : Py St :=
  match E.every with
  | none => .ok s
  | some n => do
    let s ← writeTable E s .results s.numIter
    if 0 < n then do
      let k ← match s.numIter with
        | some k => .ok k
        | none => .error .typeError
      let fs ← dropLast s.files n k
      let iterFiles := E.glob fs
      let names := iterFiles ++ [.results]
      let dfs ← names.mapM (readTable fs)
      let fs := write fs .allIters (.table (sortRows dfs.flatten))
      let fs ← iterFiles.foldlM remove fs
      let ms := (s.history.map fun m => (⟨some m, some ("NotRecorded", -1)⟩ : MRow)).zipIdx.map Prod.swap
      let ms ← addViolations ms dfs
      return { s with files := write fs .metricsHistory (.metrics (ms.map Prod.snd)) }
    else return { s with files := write s.files .metricsHistory (.metrics (s.history.map fun m => ⟨some m, none⟩)) }

/-- `solve` as far as the logging is concerned (scaled_mesh_ocp.py:194-205). -/
noncomputable def solve (E : Env) (s : St) (es : List Event) : Py St := do
  let s ← es.foldlM (step E) s
  logFinal E s

/-- After the construction (scaled_mesh_ocp.py:793-805, nlp.py:447-450). -/
def init (files : FS) : St := ⟨none, [], [], files⟩

end Lumos.Log
