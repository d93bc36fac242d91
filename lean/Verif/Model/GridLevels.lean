import Mathlib.Data.Rat.Floor
import Mathlib.Algebra.Order.Floor.Semiring

/-!
# The distribution of the levels of multigrid to processes

Models multilevelSolver/PyNucleus_multilevelSolver/geometricMG.py: `paramsForMG` (37-171).

Simplifications: numbers are rational, so overflow of the number of cells (76) and rounding are left out; of the
entries of a hierarchy only the number of refinements and the ranks are kept; `none` stands for an exception.
-/

namespace PyNucleus.GridLevels

/-- The initial number of cells (43-74). -/
def initialCells : Nat → Option Nat
  | 1 => some 2
  | 2 => some 8
  | 3 => some 48
  | _ => none

/-- `cells2dofsFactor` (45-72) for elements of degree `p`. -/
def dofFactor : Nat → Nat → Option ℚ
  | 1, 1 => some 1
  | 1, 2 => some 2
  | 1, 3 => some 3
  | 2, 1 => some (1 / 2)
  | 2, 2 => some 2
  | 2, 3 => some (9 / 2)
  | 3, 1 => some (1 / 6)
  | 3, 2 => some (27 / 20)
  | 3, 3 => some (9 / 2)
  | _, _ => none

/-- `numCells[i]` (75-76). -/
def cells (dim init i : Nat) : Nat := init * (2 ^ dim) ^ i

/-- The loop 77-79 from `cg`; `fuel` is `noRef - 1 - cg`. -/
def coarseGo (size : Nat → ℚ) (bound : ℚ) (cg : Nat) : Nat → Nat
  | 0 => cg
  | fuel + 1 => if size (cg + 1) < bound then coarseGo size bound (cg + 1) fuel else cg

/-- The number `cg` of the coarse grid (77-79). -/
def coarseGrid (size : Nat → ℚ) (bound : ℚ) (noRef : Nat) : Nat := coarseGo size bound 0 (noRef - 1)

/-- `numProcs[noRef - d]` for a level above the coarse grid (80-88). -/
def procsDown (numCells : Nat → Nat) (noRef avail : Nat) (repart : ℚ) : Nat → Nat
  | 0 => avail
  | d + 1 =>
    let perProc : ℚ := numCells noRef / avail
    let above := procsDown numCells noRef avail repart d
    if (numCells (noRef - (d + 1)) : ℚ) / above < repart * perProc then
      ⌈(numCells (noRef - (d + 1)) : ℚ) / perProc⌉₊ else above

/-- `numProcs[i]` (80-88). -/
def numProcs (numCells : Nat → Nat) (noRef avail : Nat) (repart : ℚ) (cg i : Nat) : Nat :=
  if i ≤ cg then 1 else procsDown numCells noRef avail repart (noRef - i)

/-- A hierarchy: number of refinements and ranks. -/
structure Group where
  noRef : Nat
  ranks : List Nat
deriving DecidableEq, Repr

/-- One turn of the loop 132-154 with the list in reverse order: one more refinement, or a new
hierarchy. -/
def extend (onRanks : List Nat) (procs : Nat → Nat) (gs : List Group) (lvl : Nat) : List Group :=
  match gs with
  | g :: rest =>
    if procs lvl = procs (lvl - 1) then ⟨g.noRef + 1, g.ranks⟩ :: rest
    else ⟨1, onRanks.take (procs lvl)⟩ :: g :: rest
  | [] => []

/-- `paramsForMG` (37-171); the coarsest hierarchy is the first one.  With `noRef = 0` the access `numCells[cg+1]` (78)
fails, and so does `onRanks[0]` (96) without ranks. -/
def paramsForMG (noRef : Nat) (onRanks : List Nat) (dim degree : Nat) (repart bound : ℚ) : Option (List Group) :=
  match initialCells dim, dofFactor dim degree, onRanks, noRef with
  | some init, some factor, r :: _, n + 1 =>
    let cg := coarseGrid (fun i => cells dim init i * factor) bound (n + 1)
    let procs := numProcs (cells dim init) (n + 1) onRanks.length repart cg
    some (((List.range (n + 1 - (cg + 2))).foldl (fun gs i => extend onRanks procs gs (cg + 2 + i))
      [⟨1, onRanks.take (procs (cg + 1))⟩, ⟨cg, [r]⟩]).reverse)
  | _, _, _, _ => none

end PyNucleus.GridLevels
