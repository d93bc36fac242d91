import Mathlib.Algebra.Order.Field.Basic

/-!
# Errors of solutions on coarse levels

Models `computeErrors` (base/PyNucleus_base/utilsFem.py:158-193).

Simplifications: numbers are elements of an ordered field; a row (the solution at one time) is a function
of the component, so the lengths of rows are not compared (163-165); prolongations and the norm are
parameters; `none` stands for a failing assertion, another error, or NaN.
-/

namespace PyNucleus.LevelErrors

variable {K : Type} [Field K] [LinearOrder K]

abbrev Row (K : Type) := Nat → K

/-- Prolongation of a row from `lvl` to `lvl + m` (172-176). -/
def prolong (P : Nat → Row K → Row K) (lvl : Nat) : Nat → Row K → Row K
  | 0, x => x
  | m + 1, x => P (lvl + m + 1) (prolong P lvl m x)

/-- The search for the time step (184-186). -/
def find : List K → K → Option Nat
  | _ :: t1 :: ts, t => if t1 < t then (find (t1 :: ts) t).map (· + 1) else some 0
  | _, _ => none

/-- One row of `uNew` (183-190). -/
def interpolate (ts : List K) (u : List (Row K)) (t : K) : Option (Row K) :=
  (find ts t).bind fun j =>
    let t0 := ts.getD j 0
    let t1 := ts.getD (j + 1) 0
    if t0 ≤ t ∧ t ≤ t1 ∧ t0 ≠ t1 then
      some fun i => (t1 - t) / (t1 - t0) * u.getD j 0 i + (t - t0) / (t1 - t0) * u.getD (j + 1) 0 i
    else none

/-- The rows `1, …, n-2` (182-190). -/
def inner (ts : List K) (u : List (Row K)) : List K → Option (List (Row K))
  | [] => some []
  | t :: l => (interpolate ts u t).bind fun r => (inner ts u l).map (r :: ·)

/-- `uNew` (179-191): the last assignment to a row counts. -/
def inTime (ts : List K) (u : List (Row K)) (fine : List K) : Option (List (Row K)) :=
  match u.head?, u.getLast?, fine with
  | some a, some b, _ :: t :: l => (inner ts u ((t :: l).dropLast)).map fun m => a :: m ++ [b]
  | _, some b, [_] => some [b]
  | _, _, _ => none

/-- `u - uFine` (192); numpy broadcasts a single row. -/
def minus (u v : List (Row K)) : Option (List (Row K)) :=
  if u.length = v.length then some (List.zipWith (fun a b i => a i - b i) u v)
  else match u, v with
    | [a], v => some (v.map fun b i => a i - b i)
    | u, [b] => some (u.map fun a i => a i - b i)
    | _, _ => none

/-- The error of one level (171-192). -/
def levelError {E : Type} (P : Nat → Row K → Row K) (norm : List (Row K) → E) (times : Option (List (List K)))
    (sols : List (List (Row K))) (lvl : Nat) : Option E :=
  let fine := sols.getLast?.getD []
  let u := (sols.getD lvl []).map (prolong P lvl (sols.length - 1 - lvl))
  let u := match times with
    | none => some u
    | some ts => inTime (ts.getD lvl []) u (ts.getLast?.getD [])
  u.bind fun u => (minus u fine).map norm

/-- The loop over the levels (170). -/
def errorList {E : Type} (f : Nat → Option E) : List Nat → Option (List E)
  | [] => some []
  | i :: l => (f i).bind fun e => (errorList f l).map (e :: ·)

/-- The assertion for the number of times (160-162). -/
def timesFit (times : Option (List (List K))) (sols : List (List (Row K))) : Bool :=
  match times with
  | none => true
  | some ts => (List.range sols.length).all fun i =>
      decide (i < ts.length ∧ (sols.getD i []).length = (ts.getD i []).length)

/-- `computeErrors` (158-193); `uFine = solutions[-1]` fails without levels. -/
def computeErrors {E : Type} (P : Nat → Row K → Row K) (norm : List (Row K) → E)
    (times : Option (List (List K))) (sols : List (List (Row K))) : Option (List E) :=
  if sols = [] then none
  else if timesFit times sols then
    errorList (levelError P norm times sols) (List.range (sols.length - 1))
  else none

end PyNucleus.LevelErrors
