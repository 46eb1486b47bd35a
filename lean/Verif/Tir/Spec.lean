import Verif.Tir.Model
import Mathlib.Data.Nat.Digits.Defs
/-!
# What a tyre data file says

Specification for C86; only `Num`, `pyFloat` (the meaning of a value) and `sep` are shared with the model.
-/

namespace Lumos.Tir

/-- The line assigns the value `v` to the parameter `k`: it has an equals sign, and after removing the blanks, `k` is the text before the first
separator (`=` or `$`), and the text from there to the next separator or the end of the line is a number. -/
def Assigns (line : List Char) (k : String) (v : Num) : Prop :=
  '=' ∈ line ∧ ∃ s val rest, line.filter (· ≠ ' ') = k.toList ++ s :: val ++ rest ∧ sep s = true ∧
    (∀ c ∈ k.toList, sep c = false) ∧ (∀ c ∈ val, sep c = false) ∧ (∀ c ∈ rest.head?, sep c = true) ∧ pyFloat val = some v

/-- A decimal literal: sign, digits, digits after the dot, exponent. -/
structure Lit where
  sign : Option Bool
  int : List (Fin 10)
  frac : Option (List (Fin 10))
  exp : Option (Bool × Option Bool × List (Fin 10))

/-- At least one digit, and at least one in the exponent. -/
def Lit.Valid (l : Lit) : Prop := l.int ++ l.frac.getD [] ≠ [] ∧ ∀ e ∈ l.exp, e.2.2 ≠ []

/-- The character of a digit. -/
def digitChar (d : Fin 10) : Char := Char.ofNat (48 + d)

/-- The text of a sign; `true` is minus. -/
def signText : Option Bool → List Char
  | none => []
  | some false => ['+']
  | some true => ['-']

/-- How the literal is written. -/
def Lit.text (l : Lit) : List Char := signText l.sign ++ l.int.map digitChar ++
  (match l.frac with
    | none => []
    | some f => '.' :: f.map digitChar) ++
  (match l.exp with
    | none => []
    | some (up, s, d) => (if up then 'E' else 'e') :: signText s ++ d.map digitChar)

/-- The number with the given decimal digits, most significant first. -/
def number (l : List (Fin 10)) : Nat := Nat.ofDigits 10 (l.reverse.map Fin.val)

/-- The value of the literal. -/
def Lit.value (l : Lit) : ℚ :=
  (if l.sign = some true then -1 else 1) * (number (l.int ++ l.frac.getD []) / 10 ^ (l.frac.getD []).length) *
    10 ^ (match l.exp with
      | none => 0
      | some (_, s, d) => (if s = some true then -1 else 1) * (number d : Int))

/-- A line of a well-formed file. -/
inductive Item where
  /-- `NAME = number $ comment` with blanks around. -/
  | entry (name : List Char) (pad : Nat × Nat × Nat) (lit : Lit) (comment : Option (List Char))
  /-- `NAME = text $ comment`, the text without separators and not a number. -/
  | word (name : List Char) (text : List Char) (comment : Option (List Char))
  /-- Anything without an equals sign: section headers, comments, empty lines. -/
  | other (text : List Char)

/-- Text on one line. -/
def OneLine (l : List Char) : Prop := ∀ c ∈ l, c ≠ '\n' ∧ c ≠ '\r'

/-- A name: no blanks and no separators. -/
def IsName (l : List Char) : Prop := OneLine l ∧ ∀ c ∈ l, c ≠ ' ' ∧ sep c = false

/-- The line is well-formed. -/
def Item.Valid : Item → Prop
  | .entry n _ lit c => IsName n ∧ lit.Valid ∧ ∀ t ∈ c, OneLine t
  | .word n t c => IsName n ∧ OneLine t ∧ (∀ x ∈ t, sep x = false) ∧ pyFloat (t.filter (· ≠ ' ')) = none ∧ ∀ t ∈ c, OneLine t
  | .other t => OneLine t ∧ '=' ∉ t

/-- The comment of a line. -/
def commentText : Option (List Char) → List Char
  | none => []
  | some t => '$' :: t

/-- The text of a line, without its end. -/
def Item.text : Item → List Char
  | .entry n (a, b, c) lit cm => n ++ List.replicate a ' ' ++ '=' :: (List.replicate b ' ' ++ lit.text ++ List.replicate c ' ' ++ commentText cm)
  | .word n t cm => n ++ '=' :: (t ++ commentText cm)
  | .other t => t

/-- What the line says. -/
def Item.says : Item → Option (String × Num)
  | .entry n _ lit _ => some (String.ofList n, .fin lit.value)
  | _ => none

/-- The end of a line, on Unix, Windows and old Macs. -/
inductive Eol where
  | lf | crlf | cr

/-- Its text. -/
def Eol.text : Eol → List Char
  | .lf => ['\n']
  | .crlf => ['\r', '\n']
  | .cr => ['\r']

/-- A file: its lines and their ends. -/
def fileText (e : Eol) (items : List Item) : List Char := (items.map fun i => i.text ++ e.text).flatten

end Lumos.Tir
