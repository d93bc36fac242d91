import Verif.Model.Loops

/-!
# Model of `meshBase.removeUnusedVertices`

/repo/fem/PyNucleus_fem/meshCy.pyx 585-655.  The entry -1 of `mapping` is `none`; rows of arrays are lists.
-/

namespace PyNucleus.MeshVertices

open PyNucleus.Loops

variable {K : Type}

/-- `mapping` and the number of used vertices, 587 and 598-604. -/
def number (numVertices : Nat) (cells : List (List Nat)) : List (Option Nat) × Nat :=
  cells.foldl (fun s c => c.foldl (fun s v => if s.1.getD v none = none then (s.1.set v (some s.2), s.2 + 1) else s) s) (List.replicate numVertices none, 0)

/-- One vertex, 607-611. -/
def writeVertex (mapping : List (Option Nat)) (vertices mem : List (List K)) (i : Nat) : List (List K) :=
  match mapping.getD i none with
  | none => mem
  | some k => mem.set k (vertices.getD i [])

/-- The new vertices, 605-613; `mem` is the content of the new array. -/
def newVertices (mapping : List (Option Nat)) (vertices mem : List (List K)) : List (List K) :=
  forRange 0 mapping.length mem (writeVertex mapping vertices)

/-- Renumbered arrays: cells 614-620, boundary edges 644-648, boundary faces 649-653. -/
def renumber (mapping : List (Option Nat)) (rows : List (List Nat)) : List (List (Option Nat)) := rows.map fun r => r.map fun v => mapping.getD v none

/-- One boundary vertex, 635-640. -/
def keepVertex (mapping : List (Option Nat)) (bV : List Nat) (tags : List Int) (s : List Nat × List Int) (i : Nat) : List Nat × List Int :=
  match mapping.getD (bV.getD i 0) none with
  | none => s
  | some j => (s.1 ++ [j], s.2 ++ [tags.getD i 0])

/-- Boundary vertices and tags, 622-642.  The arrays have the right size, 626-632. -/
def newBoundaryVertices (mapping : List (Option Nat)) (bV : List Nat) (tags : List Int) : List Nat × List Int :=
  forRange 0 bV.length ([], []) (keepVertex mapping bV tags)

end PyNucleus.MeshVertices
