import Verif.Base.Dict
import Mathlib.Data.Rat.Defs
import Mathlib.Algebra.Order.Field.Rat
/-!
# Reading a tyre data file

Models `lumos/models/tires/utils.py`.
-/

namespace Lumos.Tir

open Lumos

/-- What `float` returns: a number, an infinity or NaN. Finite numbers are exact (no rounding, no overflow to infinity). -/
inductive Num where
  | fin (q : ℚ)
  | inf (neg : Bool)
  | nan
deriving DecidableEq

/-- Characters that `float` strips from both ends. Simplification: the ASCII white space only (`str.isspace` has more). -/
def space (c : Char) : Bool := c = ' ' || c = '\t' || c = '\n' || c = '\r' || c = '\x0b' || c = '\x0c' ||
  c = '\x1c' || c = '\x1d' || c = '\x1e' || c = '\x1f'

/-- `str.strip()`. -/
def strip (l : List Char) : List Char := ((l.dropWhile space).reverse.dropWhile space).reverse

/-- An ASCII digit. Simplification: `float` also takes the other decimal digits of Unicode. -/
def digit (c : Char) : Bool := c = '0' || c = '1' || c = '2' || c = '3' || c = '4' || c = '5' || c = '6' || c = '7' || c = '8' || c = '9'

/-- The number that a string of digits stands for. -/
def natOf (l : List Char) : Nat := l.foldl (fun n c => 10 * n + (c.toNat - '0'.toNat)) 0

/-- Every underscore stands between two digits (CPython, `_Py_string_to_number_with_underscores`); `prev` tells whether the character before
is a digit. -/
def underscores (prev : Bool) : List Char → Bool
  | [] => true
  | c :: l => if c = '_' then prev && (match l with
      | [] => false
      | d :: _ => digit d) && underscores false l
    else underscores (digit c) l

/-- A string of digits, not empty. -/
def allDigits (l : List Char) : Option Nat := if l ≠ [] ∧ l.all digit then some (natOf l) else none

/-- An optional sign: is it a minus, and the rest. -/
def sign : List Char → Bool × List Char
  | '+' :: l => (false, l)
  | '-' :: l => (true, l)
  | l => (false, l)

/-- The text before the first character with the property, and the text after it, if there is one. -/
def cut (p : Char → Bool) : List Char → List Char × Option (List Char)
  | [] => ([], none)
  | c :: l => if p c then ([], some l) else ((c :: (cut p l).1), (cut p l).2)

/-- The exponent after `e`. -/
def exponent (l : List Char) : Option Int :=
  (allDigits (sign l).2).map fun n : Nat => if (sign l).1 then -(n : Int) else n

/-- Digits with at most one dot, and at least one digit. -/
def mantissa (l : List Char) : Option ℚ :=
  let c := cut (· = '.') l
  let frac := c.2.getD []
  (allDigits (c.1 ++ frac)).map fun n : Nat => (n : ℚ) / 10 ^ frac.length

/-- A decimal number without sign (the grammar `floatnumber` of the documentation of `float`). -/
def decimal (l : List Char) : Option ℚ :=
  let c := cut (fun c => c = 'e' || c = 'E') l
  match c.2 with
  | none => mantissa c.1
  | some e => match mantissa c.1, exponent e with
    | some m, some x => some (m * 10 ^ x)
    | _, _ => none

/-- `float(text)`; `none` is ValueError. -/
def pyFloat (text : List Char) : Option Num :=
  let t := strip text
  if underscores false t then
    let s := sign (t.filter (· ≠ '_'))
    let w := s.2.map Char.toLower
    if w = ['i', 'n', 'f'] ∨ w = ['i', 'n', 'f', 'i', 'n', 'i', 't', 'y'] then some (.inf s.1)
    else if w = ['n', 'a', 'n'] then some .nan
    else (decimal s.2).map fun q => .fin (if s.1 then -q else q)
  else none

/-- Reading in text mode turns `\r\n` and `\r` into `\n` (`open(file_path, "r")`, utils.py:30). -/
def translate : List Char → List Char
  | [] => []
  | '\r' :: '\n' :: l => '\n' :: translate l
  | '\r' :: l => '\n' :: translate l
  | c :: l => c :: translate l

/-- `f.readlines()` (utils.py:31): every line with its newline. -/
def readlines : List Char → List (List Char)
  | [] => []
  | c :: l => if c = '\n' then [c] :: readlines l
    else match readlines l with
      | [] => [[c]]
      | x :: r => (c :: x) :: r

/-- `=` or `$` (utils.py:37). -/
def sep (c : Char) : Bool := c = '=' || c = '$'

/-- `re.split("[=$]", line)` (utils.py:37). -/
def pieces : List Char → List (List Char)
  | [] => [[]]
  | c :: l => if sep c then [] :: pieces l
    else match pieces l with
      | [] => [[c]]
      | x :: r => (c :: x) :: r

/-- The body of the loop (utils.py:33-41): a line with `=`, its blanks removed, is split; the first two pieces are the name and the value; a
value that is not a number is discarded. -/
def readLine (params : Dict Num) (line : List Char) : Py (Dict Num) :=
  if '=' ∈ line then
    match pieces (line.filter (· ≠ ' ')) with
    | name :: val :: _ => match pyFloat val with
      | some v => .ok (params.set (String.ofList name) v)
      | none => .ok params
    | _ => .error .valueError
  else .ok params

/-- The loop over the lines (utils.py:33). -/
def readAll (params : Dict Num) : List (List Char) → Py (Dict Num)
  | [] => .ok params
  | line :: l => (readLine params line).bind fun p => readAll p l

/-- `read_tir_file` (utils.py:8-43) of a file with the given content (decoded; a file that cannot be opened or decoded raises there). -/
def readTirFile (text : List Char) : Py (Dict Num) := readAll [] (readlines (translate text))

/-- The constants added to the file (utils.py:51-58). -/
def extra : Dict Num := [("epsilonv", .fin (1 / 10 ^ 6)), ("epsilonx", .fin (1 / 10 ^ 3)), ("epsilonk", .fin (1 / 10 ^ 6)), ("epsilony", .fin (1 / 10 ^ 3))]

/-- `create_params_from_tir_file` (utils.py:48-60). -/
def createParams (text : List Char) : Py (Dict Num) := (readTirFile text).bind fun p => .ok (p.update extra)

end Lumos.Tir
