import Mathlib.Algebra.Field.Defs
import Mathlib.Algebra.BigOperators.Group.Finset.Defs
import Mathlib.Data.Fintype.BigOperators
import Mathlib.Order.Defs.LinearOrder

/-!
# Centers of cells, and meshes of selected cells

Models `getCellCenters`, `getProjectedCenters` (fem/PyNucleus_fem/meshCy.pyx:657-694) and the cells of `getSubmesh2` (2513-2544).

Simplifications: a cell has `m + 1` vertices with coordinates in a field, which are given for one cell; the cells of a mesh are rows of any type, so
the loop over the `dim + 1` vertices (which is the right number only if the mesh is no surface) copies a row; `removeUnusedVertices` is not part of
this model; the new array is a function, not initialised, and `none` is a failed assertion.
-/

namespace PyNucleus.CellCenters

variable {K : Type} [Field K]

/-- `getCellCenters`, coordinate `k` of one cell (665-671). -/
def center (m : Nat) (v : Nat → Nat → K) (k : Nat) : K :=
  (List.range (m + 1)).foldl (fun s j => s + v j k) 0 * (1 / ((m + 1 : Nat) : K))

variable [LinearOrder K]

/-- `mins` (686-690). -/
def mins (m : Nat) (v : Nat → Nat → K) (k : Nat) : K := (List.range m).foldl (fun s j => min s (v (j + 1) k)) (v 0 k)

/-- `maxs` (687-691). -/
def maxs (m : Nat) (v : Nat → Nat → K) (k : Nat) : K := (List.range m).foldl (fun s j => max s (v (j + 1) k)) (v 0 k)

/-- `getProjectedCenters`, coordinate `k` of one cell (693). -/
def projected (m : Nat) (v : Nat → Nat → K) (k : Nat) : K := 1 / 2 * (mins m v k + maxs m v k)

/-- The loop over new numbers of cells (2528-2535): the new cells and `j`. -/
def renumber {R : Type} (cells : List R) (new : List Int) (mem : Nat → Option R) : (Nat → Option R) × Nat :=
  (cells.zip new).foldl (fun s p => if 0 ≤ p.2 then (fun i => if i = p.2.toNat then some p.1 else s.1 i, s.2 + 1) else s) (mem, 0)

/-- The cells of `getSubmesh2` (2521-2541). -/
def submesh2 {R : Type} (cells : List R) (new : List Int) (numCells : Int) (mem : Nat → Option R) : Option (Nat × (Nat → Option R)) :=
  if new.length = cells.length then
    let n := if numCells ≤ 0 then new.countP (fun i => decide (0 ≤ i)) else numCells.toNat
    let r := renumber cells new mem
    if r.2 = n then some (n, r.1) else none
  else some (new.length, fun k => if k < new.length then cells[(new.getD k 0).toNat]? else none)

end PyNucleus.CellCenters
