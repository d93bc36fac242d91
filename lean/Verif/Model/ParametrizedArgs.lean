import Mathlib.Data.Rat.Defs
import Mathlib.Data.Nat.Notation

/-!
# Arguments with parameters

Models `parametrizedArg` (base/PyNucleus_base/utilsFem.py:1444-1475) and `argInterpreter` of the driver (1821-1834).

Simplifications: texts are lists of characters; the name has no characters with a meaning in regular expressions; the fields of the regular
expression exclude each other, so the match is found by reading from left to right without going back; `\s` is blank, tab and the ends of lines;
floating point numbers are rational.
-/

namespace PyNucleus.ParametrizedArgs

/-- The types of parameters (1451-1460). -/
inductive Ty where
  | str | int | float | bool
deriving DecidableEq

/-- The values of parameters. -/
inductive Val where
  | str (s : List Char)
  | int (z : Int)
  | float (q : ℚ)
  | bool (b : Bool)
deriving DecidableEq

/-- `\s*`. -/
def skip (l : List Char) : List Char := l.dropWhile Char.isWhitespace

/-- `[+-]?`. -/
def sign : List Char → List Char × List Char
  | '+' :: l => (['+'], l)
  | '-' :: l => (['-'], l)
  | l => ([], l)

/-- One field (1451-1458): the text and what follows. -/
def field : Ty → List Char → Option (List Char × List Char)
  | .str, l => if l.takeWhile Char.isAlpha = [] then none else some (l.takeWhile Char.isAlpha, l.dropWhile Char.isAlpha)
  | .int, l =>
    let s := sign l
    if s.2.takeWhile Char.isDigit = [] then none
    else some (s.1 ++ s.2.takeWhile Char.isDigit, s.2.dropWhile Char.isDigit)
  | .float, l =>
    let s := sign l
    if s.2.takeWhile Char.isDigit = [] then none
    else match s.2.dropWhile Char.isDigit with
      | '.' :: r => some (s.1 ++ s.2.takeWhile Char.isDigit ++ '.' :: r.takeWhile Char.isDigit, r.dropWhile Char.isDigit)
      | _ => none
  | .bool, l =>
    if ['T', 'r', 'u', 'e'].isPrefixOf l then some (['T', 'r', 'u', 'e'], l.drop 4)
    else if ['F', 'a', 'l', 's', 'e'].isPrefixOf l then some (['F', 'a', 'l', 's', 'e'], l.drop 5)
    else none

/-- The fields with commas between them (1462). -/
def fields : List Ty → List Char → Option (List (List Char) × List Char)
  | [], l => some ([], l)
  | [t], l => (field t (skip l)).map fun r => ([r.1], skip r.2)
  | t :: t' :: ts, l => (field t (skip l)).bind fun r =>
    match skip r.2 with
    | ',' :: r' => (fields (t' :: ts) r').map fun q => (r.1 :: q.1, q.2)
    | _ => none

/-- `\(?`. -/
def paren : List Char → List Char
  | '(' :: l => l
  | l => l

/-- `m.groups()` for the match at the begin of `s` (1462-1468). -/
def groups (name : List Char) (tys : List Ty) (s : List Char) : Option (List (List Char)) :=
  if name.isPrefixOf s then (fields tys (paren (s.drop name.length))).map Prod.fst else none

/-- `match` (1464-1465). -/
def matches' (name : List Char) (tys : List Ty) (s : List Char) : Bool := (groups name tys s).isSome

/-- The number of a digit. -/
def digit (c : Char) : Nat := c.toNat - '0'.toNat

/-- A sequence of digits. -/
def number (l : List Char) : Nat := l.foldl (fun a c => 10 * a + digit c) 0

/-- The sign in front of a number. -/
def signed {R : Type} [Neg R] (s : List Char) (x : R) : R := if s = ['-'] then -x else x

/-- `p(v)` (1469): a string, an integer, a floating point number; `bool` of a string is true unless it is empty. -/
def value : Ty → List Char → Val
  | .str, v => .str v
  | .int, v => .int (signed (sign v).1 (number (sign v).2 : Int))
  | .float, v =>
    let u := (sign v).2
    let fr := (u.dropWhile Char.isDigit).drop 1
    .float (signed (sign v).1 ((number (u.takeWhile Char.isDigit) : ℚ) + (number fr : ℚ) / ((10 ^ fr.length : ℕ) : ℚ)))
  | .bool, v => .bool (!v.isEmpty)

/-- `interpret` (1467-1469). -/
def interpret (name : List Char) (tys : List Ty) (s : List Char) : Option (List Val) :=
  (groups name tys s).map fun g => List.zipWith value tys g

/-- `argInterpreter` (1821-1834). -/
def accepted (values : List (List Char)) (args : List (List Char × List Ty)) (v : List Char) : Option (List Char) :=
  if v ∈ values then some v
  else if args.any (fun p => matches' p.1 p.2 v) then some v
  else none

end PyNucleus.ParametrizedArgs
