import Mathlib.Algebra.BigOperators.Group.List.Basic
import Mathlib.Logic.Function.Basic
import Mathlib.Data.Int.Notation

/-!
# Degrees of freedom of surfaces, and global shape functions

Models `getSurfaceDoFMap` and `getSurfaceToVolumeProlongation` (fem/PyNucleus_fem/femCy.pyx:1708-1745, 1748-1797) and `globalShapeFunction`
(fem/PyNucleus_fem/DoFMaps.pyx:1644-1703).

Simplifications: one degree of freedom per vertex (P2 and P3 fail at the assertions in 1732-1733, P0 is not modelled); arrays are functions, uninitialised ones are parameters; the search tree and the barycentric
coordinates are parameters; a point is inside a cell if no barycentric coordinate is negative.
-/

namespace PyNucleus.SurfaceProlongation

/-- The table of the surface map: the degrees of freedom of the volume at the vertices (1737-1745). -/
def surfaceDofs (v2d : Nat → Int) (cells : List (List Nat)) : List (List Int) := cells.map fun c => c.map v2d

/-- `dofSurface2dofVolume` if no vertices have been removed (1756-1766). -/
def byVertex (mem : Nat → Int) (cells : List (List Nat)) : Nat → Int :=
  cells.flatten.foldl (fun f v => Function.update f v (v : Int)) mem

/-- One turn of the first loop (1781-1784). -/
def markStep (f : Nat → Int) (m : Nat → Nat) (s : Int) : Nat → Nat :=
  if 0 ≤ s ∧ 0 ≤ f s.toNat then Function.update m (f s.toNat).toNat 1 else m

/-- The rows that are not empty (1774-1784); `D` is the sequence of the degrees of freedom of all cells of the surface. -/
def marks (f : Nat → Int) (D : List Int) : Nat → Nat := D.foldl (markStep f) fun _ => 0

/-- `indptr` (1785-1786). -/
def indptr (f : Nat → Int) (D : List Int) (r : Nat) : Nat := ((List.range r).map (marks f D)).sum

/-- One turn of the second loop (1790-1794). -/
def writeStep (f : Nat → Int) (ptr : Nat → Nat) (i : Nat → Int) (s : Int) : Nat → Int :=
  if 0 ≤ s ∧ 0 ≤ f s.toNat then Function.update i (ptr (f s.toNat).toNat) s else i

/-- `indices` (1787-1794). -/
def indices (f : Nat → Int) (D : List Int) (mem : Nat → Int) : Nat → Int := D.foldl (writeStep f (indptr f D)) mem

/-- Row `r` of the prolongation times `x` (1795-1797); all entries are 1. -/
def prolong {K : Type} [AddCommMonoid K] (f : Nat → Int) (D : List Int) (mem : Nat → Int) (x : Nat → K) (r : Nat) : K :=
  ((List.range (indptr f D (r + 1) - indptr f D r)).map fun k => x (indices f D mem (indptr f D r + k)).toNat).sum

/-- Cells and local numbers with the degree of freedom (1656-1660). -/
def occurrences (numCells perCell : Nat) (dofs : Nat → Nat → Int) (dof : Int) : List (Nat × Nat) :=
  (List.range numCells).flatMap fun c => ((List.range perCell).filter fun k => dofs c k = dof).map fun k => (c, k)

/-- `globalShapeFunction.eval` (1670-1703) in a point with barycentric coordinates `bary c` in cell `c`; `phi` are the local shape functions. -/
def shape {K : Type} [AddCommMonoid K] (dim numCells perCell : Nat) (dofs : Nat → Nat → Int) (inside : Nat → Bool) (phi : Nat → Nat → K)
    (dof : Int) : K :=
  if dim = 1 ∨ dim = 2 then
    (occurrences numCells perCell dofs dof).foldl (fun r o => if inside o.1 then r + phi o.1 o.2 else r) 0
  else 0

end PyNucleus.SurfaceProlongation
