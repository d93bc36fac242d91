import Mathlib.Data.List.Sort
import Mathlib.Data.List.Dedup

/-!
# Renumbering of degrees of freedom: reduced meshes, sorting, periodicity

Models `DoFMap.reorder` (fem/PyNucleus_fem/DoFMaps.pyx:392-399), `getReducedMeshDoFMap` (1415-1464),
`sort` (1470-1489), and `applyPeriodicity` (1590-1620).

Simplifications: the table of dofs is a list of rows; the new mesh of `getReducedMeshDoFMap` has the
selected cells in the given order; the result of `np.argsort` and the answers of the tree of scipy are
parameters; `none` stands for a failing assertion.
-/

namespace PyNucleus.DofRenumbering

/-- `reorder` (392-399). -/
def reorder (perm : List Nat) (dofs : List (List Int)) : List (List Int) :=
  dofs.map fun row => row.map fun d => if 0 ≤ d then (perm.getD d.toNat 0 : Int) else d

/-! ## Reduced meshes -/

/-- Cells with a dof (1425-1433). -/
def cellsWithDofs (dofs : List (List Int)) : List Nat :=
  (List.range dofs.length).filter fun c => (dofs.getD c []).any fun d => decide (0 ≤ d)

/-- `dofCheck` (1435-1441). -/
def dofCheck (numDofs : Nat) (dofs : List (List Int)) (sel : List Nat) : List Bool :=
  sel.foldl (fun t c => (dofs.getD c []).foldl (fun t d => if 0 ≤ d then t.set d.toNat true else t) t)
    (List.replicate numDofs false)

/-- `boundaryDoFMapping` and `boundaryDoFNew`. -/
structure Boundary where
  map : List (Int × Int)
  next : Int

/-- One entry (1451-1460). -/
def renumber (b : Boundary) (d : Int) : Int × Boundary :=
  if 0 ≤ d then (d, b)
  else match b.map.lookup d with
    | some v => (v, b)
    | none => (b.next, ⟨b.map ++ [(d, b.next)], b.next - 1⟩)

/-- The entries of one cell (1450-1460). -/
def renumberRow : Boundary → List Int → List Int × Boundary
  | b, [] => ([], b)
  | b, d :: l => ((renumber b d).1 :: (renumberRow (renumber b d).2 l).1, (renumberRow (renumber b d).2 l).2)

/-- The loop over the cells (1448-1460). -/
def renumberRows : Boundary → List (List Int) → List (List Int) × Boundary
  | b, [] => ([], b)
  | b, r :: l => ((renumberRow b r).1 :: (renumberRows (renumberRow b r).2 l).1, (renumberRows (renumberRow b r).2 l).2)

/-- The new map: its table, `num_dofs`, `num_boundary_dofs`. -/
structure Reduced where
  cells : List Nat
  dofs : List (List Int)
  numDofs : Nat
  numBoundaryDofs : Int

/-- `getReducedMeshDoFMap` (1415-1464). -/
def reduced (numDofs : Nat) (dofs : List (List Int)) (sel : Option (List Nat)) : Option Reduced :=
  let finish := fun sel : List Nat =>
    let r := renumberRows ⟨[], -1⟩ (sel.map fun c => dofs.getD c [])
    (⟨sel, r.1, numDofs, -r.2.next - 1⟩ : Reduced)
  match sel with
  | none => some (finish (cellsWithDofs dofs))
  | some sel => if (dofCheck numDofs dofs sel).all id then some (finish sel) else none

/-! ## Sorting -/

/-- `invIdx` (1483-1488); `u` is the uninitialised array. -/
def inverse (idx u : List Nat) : List Nat :=
  (List.range idx.length).foldl (fun inv dof => inv.set (idx.getD dof 0) dof) u

/-- `sort` (1470-1489). -/
def sort (idx u : List Nat) (dofs : List (List Int)) : List (List Int) := reorder (inverse idx u) dofs

/-! ## Periodicity -/

/-- `np.unique` (1608). -/
def unique (l : List Nat) : List Nat := (l.dedup).insertionSort (· ≤ ·)

/-- `remap` at the end (1608-1611); `image d` is the dof next to the image of dof `d`. -/
def remap (numDofs : Nat) (image : Nat → Nat) : List Nat :=
  ((List.range numDofs).map image).map fun r => (unique ((List.range numDofs).map image)).idxOf r

/-- `applyPeriodicity` (1590-1617): the table and `num_dofs`; `k` keeps its value 0 if there are no
dofs. -/
def applyPeriodicity (numDofs : Nat) (image : Nat → Nat) (dofs : List (List Int)) : List (List Int) × Nat :=
  (dofs.map fun row => row.map fun d => if 0 ≤ d then ((remap numDofs image).getD d.toNat 0 : Int) else d,
    (unique ((List.range numDofs).map image)).length - 1 + 1)

end PyNucleus.DofRenumbering
