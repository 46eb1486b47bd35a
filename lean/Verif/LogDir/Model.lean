import Verif.Log.Model

/-!
# Model of the directories that problems log to (`lumos/optimal_control/scaled_mesh_ocp.py:793-809`)

The directories on the disk are a list of paths with the files in each (as in `Log/Model`).
-/

namespace Lumos.Log.Dir

open Lumos Lumos.Log

/-- A moment, to the second, as `datetime.now()` gives it: the parts that the format uses. -/
structure Moment where
  year : Nat
  month : Nat
  day : Nat
  hour : Nat
  minute : Nat
  second : Nat
  deriving DecidableEq, Repr

/-- A number in decimals, with zeros in front up to `w` digits (`%m`, `%d`, `%H`, `%M`, `%S`). -/
def pad : Nat → Nat → List Char
  | 0, _ => []
  | w + 1, n => pad w (n / 10) ++ [Nat.digitChar (n % 10)]

/-- `datetime.now().strftime("%Y%m%d-%H%M%S")` (scaled_mesh_ocp.py:800). Simplification: the year has four digits. -/
def stamp (t : Moment) : List Char :=
  pad 4 t.year ++ pad 2 t.month ++ pad 2 t.day ++ ['-'] ++ pad 2 t.hour ++ pad 2 t.minute ++ pad 2 t.second

/-- `subdir_name` (scaled_mesh_ocp.py:799-801). -/
def subdirName (t : Moment) (simName : String) : String := String.ofList (stamp t) ++ "_" ++ simName

/-- `os.path.join(a, b)` for a `b` that does not begin with "/" (posixpath). -/
def join (a b : String) : String := if a = "" ∨ a.toList.getLast? = some '/' then a ++ b else a ++ "/" ++ b

/-- `config.sim_name`, `config.results_dir` (config.py:72-77). -/
structure Config where
  simName : String
  resultsDir : String

/-- The directories on the disk. -/
abbrev Disk := List (String × FS)

/-- `Path(d).mkdir(parents=True, exist_ok=True)` (scaled_mesh_ocp.py:803). Simplification: the parents are not listed. -/
def mkdir (disk : Disk) (d : String) : Disk := if (disk.lookup d).isSome then disk else disk ++ [(d, [])]

/-- `self._logging_dir` (scaled_mesh_ocp.py:799-802). -/
def loggingDir (c : Config) (now : Moment) : String := join c.resultsDir (subdirName now c.simName)

/-- `_initialize_logging` (scaled_mesh_ocp.py:793-804): the disk after it and what the problem starts to log with. -/
def startLogging (disk : Disk) (c : Config) (now : Moment) : Disk × St :=
  let disk := mkdir disk (loggingDir c now)
  (disk, init ((disk.lookup (loggingDir c now)).getD []))

end Lumos.Log.Dir
