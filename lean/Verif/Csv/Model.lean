import Verif.Tir.Float
import Verif.Lap.Model
/-!
# Model of reading a track file (lumos/models/tracks.py:139-151, with `pandas.read_csv`)

The file is a list of characters. Simplifications of `pandas.read_csv` with its default arguments: a quotation mark is an ordinary character, a byte order
mark is not skipped, numbers are exact rationals, and of a column only its cells are kept (a column with a cell that is not a number becomes a column of
strings, a column of `True` and `False` one of booleans: `fromTumText` says nothing about these, nor about infinities and NaN).
-/

namespace Lumos.Csv

open Lumos Tir Track

/-- The pieces of a text between the occurrences of a character. -/
def chop (d : Char) : List Char → List (List Char)
  | [] => [[]]
  | c :: l => if c = d then [] :: chop d l
    else match chop d l with
      | [] => [[c]]
      | x :: r => (c :: x) :: r

/-- A line that `read_csv` skips (`skip_blank_lines=True`). -/
def blank (l : List Char) : Bool := l.all fun c => c = ' ' || c = '\t'

/-- The records of a file: lines may end in `\n`, `\r\n` or `\r`, fields are separated by commas. -/
def records (text : List Char) : List (List (List Char)) := ((chop '\n' (translate text)).filter fun l => !blank l).map (chop ',')

/-- The strings that `read_csv` takes for a missing value. -/
def missing : List String := ["", "#N/A", "#N/A N/A", "#NA", "-1.#IND", "-1.#QNAN", "-NaN", "-nan", "1.#IND", "1.#QNAN", "<NA>", "N/A", "NA", "NULL", "NaN",
  "n/a", "nan", "null"]

/-- A cell: a number (maybe NaN), or some other text. -/
inductive Cell where
  | num (v : Num)
  | text (t : List Char)

/-- What `read_csv` makes of a field. -/
def cell (t : List Char) : Cell :=
  if String.ofList t ∈ missing then .num .nan
  else match bare (strip t) with
    | some v => .num v
    | none => .text t

/-- The data frame: the fields of the header, and the cells of the rows without those that became the index. -/
structure Frame where
  header : List (List Char)
  rows : List (List Cell)

/-- `pd.read_csv(file)`: the header is the first record; when the first row has more fields than the header, the first of its fields are the index; a row
with fewer fields is filled up with missing values; a later row with more fields is an error (a `ParserError`, which is a `ValueError`, as is the
`EmptyDataError` of a file without records). -/
def readCsv (text : List Char) : Py Frame :=
  match records text with
  | [] => .error .valueError
  | h :: rows =>
    let width := max h.length (rows.headD []).length
    if rows.any fun r => width < r.length then .error .valueError
    else .ok ⟨h, rows.map fun r => ((r ++ List.replicate (width - r.length) []).drop (width - h.length)).map cell⟩

/-- `df[name]`. A repeated name is renamed by `read_csv` to one with a dot, so the first one counts (for names without a dot). -/
def Frame.column (f : Frame) (name : String) : Py (List Cell) :=
  if name.toList ∈ f.header then .ok (f.rows.map fun r => r.getD (f.header.idxOf name.toList) (.num .nan)) else .error .keyError

/-- The numbers of a column, if all its cells are finite numbers. -/
def numbers (l : List Cell) : Option (List ℚ) := l.mapM fun
  | .num (.fin q) => some q
  | _ => none

/-- The numbers as reals. -/
noncomputable def reals (l : List ℚ) : List ℝ := l.map fun (q : ℚ) => (q : ℝ)

/-- `RaceTrack.from_tum_csv(file)` (tracks.py:139-151); `none` when a cell of a used column is not a finite number. -/
noncomputable def fromTumText (text : List Char) : Py (Option RaceTrack) := do
  let f ← readCsv text
  let x ← f.column "# x_m"
  let y ← f.column "y_m"
  let left ← f.column "w_tr_left_m"
  let right ← f.column "w_tr_right_m"
  match numbers x, numbers y, numbers left, numbers right with
  | some x, some y, some left, some right => do
    let t ← RaceTrack.fromCartesian (reals x) (reals y) (some (reals left)) (some (reals right))
    return some t
  | _, _, _, _ => return none

end Lumos.Csv
