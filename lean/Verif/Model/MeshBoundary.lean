import Verif.Model.Refine

/-!
# Model of the boundary of a mesh

/repo/fem/PyNucleus_fem/meshCy.pyx 1790-2023.  Python sets and dictionaries are lists without repeated keys; keys `encode_edge(e)` and
`encode_face(f)` are the vertices themselves (C14).  The order in which a set is listed is unspecified: `order`.
-/

namespace PyNucleus.MeshBoundary

open PyNucleus.Refine (sortEdge sortFace)

variable {α β K : Type} [DecidableEq α]

/-- `try: s.remove(x) except KeyError: s.add(x)`. -/
def toggle (s : List α) (x : α) : List α := if x ∈ s then s.filter (· ≠ x) else s ++ [x]

/-- `try: del d[k] except KeyError: d[k] = v`. -/
def toggleD (d : List (α × β)) (p : α × β) : List (α × β) := if p.1 ∈ d.map Prod.fst then d.filter (fun q => q.1 ≠ p.1) else d ++ [p]

/-- `boundaryVertices`, 1792-1808. -/
def boundaryVertices (order : List Nat → List Nat) (cells : List (List Nat)) : List Nat :=
  order ((cells.flatMap fun c => [c.getD 0 0, c.getD 1 0]).foldl toggle [])

/-- The edges of a triangle with orientation and cell number, 1828-1836 and 1853-1861. -/
def cellEdges (c : List Nat) (cellNo : Nat) : List ((Nat × Nat) × Bool × Nat) :=
  let e0 := sortEdge (c.getD 0 0) (c.getD 1 0)
  let e1 := sortEdge (c.getD 1 0) (c.getD 2 0)
  let e2 := sortEdge (c.getD 2 0) (c.getD 0 0)
  [(e0, c.getD 0 0 == e0.1, cellNo), (e1, c.getD 1 0 == e1.1, cellNo), (e2, c.getD 2 0 == e2.1, cellNo)]

/-- `boundaryEdges(cells, returnBoundaryCells=True)`, 1851-1876: the edges and their cells.  `boundaryEdges(cells)`, 1826-1849, has the same edges. -/
def boundaryEdges (cells : List (List Nat)) : List (Nat × Nat) × List Nat :=
  let d := (cells.zipIdx.flatMap fun p => cellEdges p.1 p.2).foldl toggleD []
  (d.map fun q => if q.2.1 then q.1 else (q.1.2, q.1.1), d.map fun q => q.2.2)

/-- `boundaryVerticesFromBoundaryEdges`, 1879-1892. -/
def verticesOfEdges (order : List Nat → List Nat) (edges : List (Nat × Nat)) : List Nat :=
  order ((edges.flatMap fun e => [e.1, e.2]).foldl (fun s x => if x ∈ s then s else s ++ [x]) [])

/-- The faces of a tetrahedron, 1911-1914. -/
def cellFaces (c : List Nat) : List (List Nat) :=
  [sortFace (c.getD 0 0) (c.getD 1 0) (c.getD 2 0), sortFace (c.getD 0 0) (c.getD 1 0) (c.getD 3 0), sortFace (c.getD 0 0) (c.getD 2 0) (c.getD 3 0),
    sortFace (c.getD 1 0) (c.getD 2 0) (c.getD 3 0)]

/-- `boundaryFaces`, 1895-1928. -/
def boundaryFaces (order : List (List Nat) → List (List Nat)) (cells : List (List Nat)) : List (List Nat) := order ((cells.flatMap cellFaces).foldl toggle [])

/-- `boundaryEdgesFromBoundaryFaces`, 1996-2023. -/
def edgesOfFaces (order : List (Nat × Nat) → List (Nat × Nat)) (faces : List (List Nat)) : List (Nat × Nat) :=
  order ((faces.flatMap fun f => [sortEdge (f.getD 0 0) (f.getD 1 0), sortEdge (f.getD 0 0) (f.getD 2 0), sortEdge (f.getD 1 0) (f.getD 2 0)]).foldl
    (fun s x => if x ∈ s then s else s ++ [x]) [])

/-- Cross product of the edges of a face, 1968-1975. -/
def faceNormal [Field K] (X : Nat → Nat → K) (f : List Nat) (j : Nat) : K :=
  let x := fun j => X (f.getD 1 0) j - X (f.getD 0 0) j
  let y := fun j => X (f.getD 2 0) j - X (f.getD 0 0) j
  x ((j + 1) % 3) * y ((j + 2) % 3) - x ((j + 2) % 3) * y ((j + 1) % 3)

/-- The direction the normal is compared with, 1977-1987: `x` is the center of the face, `y` is minus the center of the cell. -/
def direction [Field K] (X : Nat → Nat → K) (f c : List Nat) (j : Nat) : K :=
  let x := (X (f.getD 0 0) j + X (f.getD 1 0) j + X (f.getD 2 0) j) / 3
  let y := (0 - X (c.getD 0 0) j - X (c.getD 1 0) j - X (c.getD 2 0) j - X (c.getD 3 0) j) * (1 / 4)
  x - y

/-- One boundary face, 1965-1992. -/
def orientFace [Field K] [LT K] [DecidableLT K] (X : Nat → Nat → K) (f c : List Nat) : List Nat :=
  if faceNormal X f 0 * direction X f c 0 + faceNormal X f 1 * direction X f c 1 + faceNormal X f 2 * direction X f c 2 < 0 then [f.getD 0 0, f.getD 2 0, f.getD 1 0] else f

/-- `boundaryFacesWithOrientation`, 1931-1993. -/
def boundaryFacesOriented [Field K] [LT K] [DecidableLT K] (X : Nat → Nat → K) (cells : List (List Nat)) : List (List Nat) :=
  ((cells.zipIdx.flatMap fun p => (cellFaces p.1).map fun f => (f, p.2)).foldl toggleD []).map fun q => orientFace X q.1 (cells.getD q.2 [])

end PyNucleus.MeshBoundary
