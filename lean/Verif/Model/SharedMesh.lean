import Verif.Model.SimplexMapper
import Mathlib.Data.List.Dedup

/-!
# Model of the refinement of a mesh interface

/repo/fem/PyNucleus_fem/meshOverlaps.pyx, `sharedMesh` 263-467.  Entries of `vertices` are (cell, local vertex), of `edges` and `faces` (cell, local
number, order).  `none`: an exception (425, or `pop` of an empty set).  `pop` takes an element of a Python set, given by the list of its elements.
The number −1 of `findFaceInCell` is replaced by 3; `getFaceVerticesLocal` treats both alike.
-/

namespace PyNucleus.SharedMesh

open PyNucleus.SimplexMapper

/-- `sharedMesh`, 263-277. -/
structure Shared where
  vertices : List (Nat × Nat)
  edges : List (Nat × Nat × Int)
  faces : List (Nat × Nat × Int)
  cells : List Nat

/-- `new_cells`, 332-336; `s` is `subcellsPerRef`. -/
def refineCells (s : Nat) (cells : List Nat) : List Nat := cells.flatMap fun c => (List.range s).map fun k => s * c + k

/-- `refine` in one dimension, 338-340. -/
def refine1 (S : Shared) : Shared := { S with cells := refineCells 2 S.cells, vertices := S.vertices.map fun v => (2 * v.1 + v.2, v.2) }

/-- The halves of an edge of a triangle, 346-363. -/
def halves2 (e : Nat × Nat × Int) : List (Nat × Nat × Int) :=
  if e.2.2 = 0 then [(4 * e.1 + e.2.1, 0, e.2.2), (4 * e.1 + (e.2.1 + 1) % 3, 2, e.2.2)]
  else [(4 * e.1 + (e.2.1 + 1) % 3, 2, e.2.2), (4 * e.1 + e.2.1, 0, e.2.2)]

/-- `refine` in two dimensions, 341-364. -/
def refine2 (S : Shared) : Shared :=
  { S with cells := refineCells 4 S.cells, vertices := S.vertices.map (fun v => (4 * v.1 + v.2, 0)), edges := S.edges.flatMap halves2 }

/-- The halves of an edge of a tetrahedron, 374-400. -/
def halves3 (e : Nat × Nat × Int) : List (Nat × Nat × Int) :=
  let h := if e.2.1 < 3 then [(8 * e.1 + e.2.1, e.2.1, e.2.2), (8 * e.1 + (e.2.1 + 1) % 3, e.2.1, e.2.2)]
    else [(8 * e.1 + (e.2.1 - 3), e.2.1, e.2.2), (8 * e.1 + 3, e.2.1, e.2.2)]
  if e.2.2 = 0 then h else h.reverse

/-- A row of `cells`. -/
def row (cells : List (List Nat)) (i : Nat) : List Nat := cells.getD i []
/-- Entries of a row. -/
def at' (l : List Nat) (i : Nat) : Nat := l.getD i 0

/-- Vertices of the face in the middle, 410-417. -/
def inner (kids : Nat → List Nat) (faceNo : Nat) : Nat × Nat × Nat :=
  if faceNo = 0 then (at' (kids 0) 2, at' (kids 1) 2, at' (kids 0) 1)
  else if faceNo = 1 then (at' (kids 0) 1, at' (kids 1) 3, at' (kids 0) 3)
  else if faceNo = 2 then (at' (kids 1) 2, at' (kids 2) 3, at' (kids 1) 3)
  else (at' (kids 0) 2, at' (kids 0) 3, at' (kids 2) 3)

/-- `set(a) & set(b)`. -/
def inter (a b : List Nat) : List Nat := (a.filter fun v => decide (v ∈ b)).dedup

/-- `perm[j]`, 435-439: the first position with the vertex; otherwise the old content `u`. -/
def position (face : Nat × Nat × Nat) (v u : Nat) : Nat := if face.1 = v then 0 else if face.2.1 = v then 1 else if face.2.2 = v then 2 else u

/-- `middleOrder`, 441-452. -/
def orderOf (p : Nat × Nat × Nat) : Int :=
  if p = (0, 1, 2) then 0 else if p = (1, 2, 0) then 1 else if p = (2, 0, 1) then 2 else if p = (1, 0, 2) then -1 else if p = (0, 2, 1) then -2 else -3

/-- Number of the child with the middle face, `middleFaceNo` and `middleOrder`, 408-452; `kids` are the rows `8*cellNo + j`, `u` the old contents of `perm`. -/
def middle (pop : List Nat → Option Nat) (u : Nat → Nat) (kids : Nat → List Nat) (faceNo : Nat) (order : Int) : Option (Nat × Nat × Int) := do
  let C := inner kids faceNo
  let q ← [4, 5, 6, 7].find? fun q => decide (C.1 ∈ kids q ∧ C.2.1 ∈ kids q ∧ C.2.2 ∈ kids q)
  let n := findFace (at' (kids q)) (sortFace C.1 C.2.1 C.2.2)
  let no := if n < 0 then 3 else n.toNat
  let face := faceGlobal (at' (kids q)) no 0
  let f := faceVertices faceNo order
  let F0 ← pop (inter (kids f.1) (kids f.2.1))
  let F1 ← pop (inter (kids f.2.1) (kids f.2.2))
  let F2 ← pop (inter (kids f.2.2) (kids f.1))
  pure (q, no, orderOf (position face F0 (u 0), position face F1 (u 1), position face F2 (u 2)))

/-- The quarters of a face, 403-463; `cells` are the cells of the refined mesh. -/
def quarters (pop : List Nat → Option Nat) (u : Nat → Nat) (cells : List (List Nat)) (e : Nat × Nat × Int) : Option (List (Nat × Nat × Int)) :=
  let f := faceVertices e.2.1 e.2.2
  (middle pop u (fun j => row cells (8 * e.1 + j)) e.2.1 e.2.2).map fun m =>
    [(8 * e.1 + f.1, e.2.1, e.2.2), (8 * e.1 + f.2.1, e.2.1, e.2.2), (8 * e.1 + f.2.2, e.2.1, e.2.2), (8 * e.1 + m.1, m.2.1, m.2.2)]

/-- `refine` in three dimensions, 365-465; `u i` are the old contents of `perm` at face `i`. -/
def refine3 (pop : List Nat → Option Nat) (u : Nat → Nat → Nat) (cells : List (List Nat)) (S : Shared) : Option Shared := do
  let f ← S.faces.zipIdx.mapM fun p => quarters pop (u p.2) cells p.1
  pure { cells := refineCells 8 S.cells, vertices := S.vertices.map (fun v => (8 * v.1 + v.2, v.2)), edges := S.edges.flatMap halves3, faces := f.flatten }

end PyNucleus.SharedMesh
