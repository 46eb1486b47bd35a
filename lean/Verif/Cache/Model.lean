import Mathlib.Data.Set.Function
import Mathlib.Logic.Function.Basic
/-!
# Model of the library cache of the casadi backend (lumos/models/base.py:809-853)

`_make_casadi_model_algebra_cons` writes the generated C code to the fixed file `nlpfunctions.c` of the working directory, takes the MD5 sum of
that file, and uses `./<md5>.so` if it exists; otherwise it lets gcc compile `nlpfunctions.c` to it. Several processes may do so in one
directory, and each may be stopped at any point.

`Text` are file contents, `H` the names of libraries. Simplifications: after truncating the file the generator writes all of it in one step; the
file is read for the sum in one step, and by gcc in one step, at the moment gcc starts; gcc creates the library file and completes it in two
steps; nobody else changes or removes these files; the library functions are identified with the text they were compiled from.
-/

namespace Lumos.Cache

/-- The contents of a library file: incomplete, or compiled from a text. -/
inductive Lib (Text : Type)
  | part
  | full (t : Text)

/-- The working directory: `nlpfunctions.c` and the libraries. -/
structure Dir (Text H : Type) where
  cfile : Text
  libs : H → Option (Lib Text)

/-- Where a process is in `_make_casadi_model_algebra_cons`. -/
inductive Phase (Text H : Type)
  | start
  /-- The generator has opened (and emptied) the file (base.py:830, `codegen.generate()`). -/
  | truncated
  /-- The generator is done. -/
  | generated
  /-- The MD5 sum is known (base.py:834-840). -/
  | hashed (h : H)
  /-- The library was not there (base.py:842). -/
  | missing (h : H)
  /-- gcc has read a text and is writing the library (base.py:846-848). -/
  | compiling (h : H) (t : Text)
  /-- `cas.external` is next (base.py:852-853). -/
  | loading (h : H)
  /-- The process uses the functions compiled from `t`. -/
  | loaded (t : Text)
  /-- `cas.external` has raised an error. -/
  | failed
  /-- The process was stopped from outside. -/
  | stopped

variable {Text H : Type} [DecidableEq H]

/-- The parts that belong to the outside world: an empty file, the MD5 sum, whether gcc accepts a text, and whether the library made of a text
has the functions of the model (an empty text has none). -/
structure World (Text H : Type) where
  empty : Text
  md5 : Text → H
  compiles : Text → Bool
  hasFunctions : Text → Bool

/-- The next step of a process whose model has the code `c` (base.py:809-853). gcc's exit status is ignored (base.py:848); if gcc fails it
leaves no library. -/
def step (w : World Text H) (c : Text) (d : Dir Text H) : Phase Text H → Dir Text H × Phase Text H
  | .start => ({ d with cfile := w.empty }, .truncated)
  | .truncated => ({ d with cfile := c }, .generated)
  | .generated => (d, .hashed (w.md5 d.cfile))
  | .hashed h => match d.libs h with
    | some _ => (d, .loading h)
    | none => (d, .missing h)
  | .missing h =>
    if w.compiles d.cfile then ({ d with libs := Function.update d.libs h (some .part) }, .compiling h d.cfile)
    else (d, .loading h)
  | .compiling h t => ({ d with libs := Function.update d.libs h (some (.full t)) }, .loading h)
  | .loading h => match d.libs h with
    | some (.full t) => if w.hasFunctions t then (d, .loaded t) else (d, .failed)
    | _ => (d, .failed)
  | .loaded t => (d, .loaded t)
  | .failed => (d, .failed)
  | .stopped => (d, .stopped)

/-- The processes in a directory; process `i` makes the model with the code `code i`. -/
structure Sys (Text H : Type) where
  dir : Dir Text H
  phase : Nat → Phase Text H

/-- What happens next: a process makes a step, or it is stopped (killed, interrupted, out of power). -/
inductive Event
  | step (i : Nat)
  | stop (i : Nat)

/-- One event. -/
def next (w : World Text H) (code : Nat → Text) (s : Sys Text H) : Event → Sys Text H
  | .step i => { dir := (step w (code i) s.dir (s.phase i)).1
                 phase := Function.update s.phase i (step w (code i) s.dir (s.phase i)).2 }
  | .stop i => { s with phase := Function.update s.phase i .stopped }

/-- A history of events. -/
def run (w : World Text H) (code : Nat → Text) (s : Sys Text H) : List Event → Sys Text H
  | [] => s
  | e :: l => run w code (next w code s e) l

end Lumos.Cache
