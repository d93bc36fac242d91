import Verif.Model.CellExchange
import Mathlib.Data.Rat.Floor

/-!
# Combination and comparison of degree of freedom maps, blocks of degrees of freedom

Models fem/PyNucleus_fem/DoFMaps.pyx: `DoFMap.combine` (1563-1588), `DoFMap.__eq__` (1622-1641) and `DoFMap.getCoordinateBlocks`
(1363-1413).

Simplifications: rows of `dofs` are lists, equally long; meshes are compared by an equality that is a parameter of type `Bool`;
coordinates are rational; the keys of the blocks are elements of a type with decidable equality; `none` stands for an exception.
-/

namespace PyNucleus.CombinedDofs

/-- A map: numbers of the degrees of freedom in each cell, negative for the boundary. -/
structure Map where
  dofs : List (List Int)
  numDofs : Nat
  numBoundary : Nat

/-- One entry of the combined map (1578-1587). -/
def combineEntry (n : Nat) (d1 d2 : Int) : Option Int :=
  if 0 ≤ d1 ∧ d2 < 0 then some d1
  else if d1 < 0 ∧ 0 ≤ d2 then some (n + d2)
  else none

/-- `combine` (1563-1588) for maps of the same type on the same mesh. -/
def combine (a b : Map) : Option Map :=
  if a.numDofs = b.numBoundary ∧ a.numBoundary = b.numDofs then
    ((List.zip a.dofs b.dofs).mapM fun r => (List.zip r.1 r.2).mapM fun e => combineEntry a.numDofs e.1 e.2).map fun d =>
      ⟨d, a.numDofs + b.numDofs, 0⟩
  else none

/-- `np.array(a)-np.array(b)` for rows of the same length: one row is used for all others, other numbers of rows raise an exception. -/
def broadcast (a b : List (List Int)) : Option (List (List Int × List Int)) :=
  if a.length = b.length then some (List.zip a b)
  else if a.length = 1 then some (b.map fun r => (a.headD [], r))
  else if b.length = 1 then some (a.map fun r => (r, b.headD []))
  else none

/-- `__eq__` (1622-1641) for maps of the same type: `max()` of an empty array raises an exception. -/
def equal (a b : Map) (sameMesh : Bool) : Option Bool :=
  if a.numDofs ≠ b.numDofs then some false
  else if a.numBoundary ≠ b.numBoundary then some false
  else
    match broadcast a.dofs b.dofs with
    | none => none
    | some [] => none
    | some rows => if rows.any (fun r => r.1 != r.2) then some false else some sameMesh

/-- `<INDEX_t>(fac*(c-min)+0.5)` with `fac = 1/(max-min)/delta` (1375-1383); the value is not negative. -/
def key (delta lo hi c : ℚ) : ℤ := ⌊1 / (hi - lo) / delta * (c - lo) + 1 / 2⌋

variable {κ : Type} [DecidableEq κ]

/-- The keys of `blocks` in their order (1380-1389). -/
def firsts (keys : List κ) : List κ := keys.foldl (fun ks k => if k ∈ ks then ks else ks ++ [k]) []

/-- The sizes of the blocks (1390-1395). -/
def sizes (keys : List κ) : List Nat := (firsts keys).map keys.count

/-- The pointers and the indices after the loop 1403-1409. -/
def filled (keys : List κ) : CellExchange.Buf Nat :=
  CellExchange.fill ⟨CellExchange.displ (sizes keys), fun _ => 0⟩ (keys.map (firsts keys).idxOf) (List.range keys.length)

/-- The final `indptr` (1410-1412). -/
def indptr (keys : List κ) : Nat → Nat := CellExchange.shiftBack (firsts keys).length (filled keys).ptr

/-- Row `b` of the graph that is returned (1413). -/
def row (keys : List κ) (b : Nat) : List Nat :=
  (List.range (indptr keys (b + 1) - indptr keys b)).map fun k => (filled keys).out (indptr keys b + k)

end PyNucleus.CombinedDofs
