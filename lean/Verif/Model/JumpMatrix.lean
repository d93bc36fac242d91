import Mathlib.Algebra.Ring.Defs
import Mathlib.Algebra.BigOperators.Group.List.Defs

/-!
# Jump matrix

Models `assembleJumpMatrix` (fem/PyNucleus_fem/femCy.pyx:3268-3400): the matrix of the jumps of piecewise constant functions over the faces of a
mesh (vertices in one dimension, edges in two).

Simplifications: the faces of a cell, which `simplexMapper` encodes, are keys of any type, and the squares of their volumes a function of the key;
the pattern, which is found by the same loop, holds all entries that are added to; the matrix is a function of row and column.
-/

namespace PyNucleus.JumpMatrix

variable {F : Type} [DecidableEq F]

/-- The loops over cells and their faces (3307-3310, 3344-3346, 3382-3385). -/
def stream (faces : Nat → List F) (numCells : Nat) : List (Nat × F) :=
  (List.range numCells).flatMap fun c => (faces c).map fun f => (c, f)

/-- `lookup`, and the pairs that have been found: cell, other cell, face. -/
structure State (F : Type) where
  lookup : F → Option Nat
  out : List (Nat × Nat × F)

/-- One face of one cell: `lookup.pop`, or a new entry (3311-3312, 3319-3321). -/
def step (s : State F) (p : Nat × F) : State F :=
  match s.lookup p.2 with
  | some other => ⟨fun f => if f = p.2 then none else s.lookup f, s.out ++ [(p.1, other, p.2)]⟩
  | none => ⟨fun f => if f = p.2 then some p.1 else s.lookup f, s.out⟩

/-- All pairs. -/
def pairs (l : List (Nat × F)) : List (Nat × Nat × F) := (l.foldl step ⟨fun _ => none, []⟩).out

/-- The four calls of `addToEntry` for one pair (3313-3318). -/
def added {K : Type} [Ring K] (dof : Nat → Nat) (vol2 : F → K) (o : Nat × Nat × F) (i j : Nat) : K :=
  let I := dof o.1
  let J := dof o.2.1
  let v := vol2 o.2.2
  (if i = I ∧ j = I then v else 0) + (if i = J ∧ j = J then v else 0) + (if i = I ∧ j = J then -v else 0) + (if i = J ∧ j = I then -v else 0)

/-- The matrix. -/
def matrix {K : Type} [Ring K] (faces : Nat → List F) (numCells : Nat) (dof : Nat → Nat) (vol2 : F → K) (i j : Nat) : K :=
  ((pairs (stream faces numCells)).map fun o => added dof vol2 o i j).sum

end PyNucleus.JumpMatrix
