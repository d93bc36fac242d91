import Verif.Model.SimplexMapper

/-!
# Model of the boundary in terms of cells

`boundary1D`, `boundary2D`, `boundary3D` of /repo/fem/PyNucleus_fem/meshOverlaps.pyx, 40-219.  A cell is the list of its vertices.  The dictionaries
(`dict`, `tupleDict`, `faceVals`) are lists of keys and values; that the classes behave as maps is C02 and C79, their limit of 255 keys for one row is
left out.  They are gone through in the order `order`, which can be any reordering.  Loops over edges and faces are those of the mapper (C81).
-/

namespace PyNucleus.SurfaceEntities

open PyNucleus.SimplexMapper

/-- A row of `cells`. -/
def corner (c : List Nat) (k : Nat) : Nat := c.getD k 0

section
variable {κ V : Type} [DecidableEq κ]

/-- `enterValue` with `deleteHits`, and 51-55. -/
def enterDelete (d : List (κ × V)) (it : κ × V) : List (κ × V) := if d.any fun p => p.1 = it.1 then d.filter fun p => p.1 ≠ it.1 else d ++ [it]

/-- `enterValue` without `deleteHits`. -/
def enterKeep (d : List (κ × V)) (it : κ × V) : List (κ × V) := if d.any fun p => p.1 = it.1 then d else d ++ [it]

end

/-- Vertices with cell and local number in the order of the loops, 49-50. -/
def vertexItems (cells : List (List Nat)) : List (Nat × Nat × Nat) := cells.zipIdx.flatMap fun p => [(corner p.1 0, p.2, 0), (corner p.1 1, p.2, 1)]

/-- `boundary1D`, 40-63: cells and local numbers. -/
def boundary1D (cells : List (List Nat)) : List (Nat × Nat) := ((vertexItems cells).foldl enterDelete []).map Prod.snd

/-- Edges with their cells in the order of the loops, 80-83. -/
def edgeItems (cells : List (List Nat)) : List ((Nat × Nat) × Nat) := cells.zipIdx.flatMap fun p => (cellEdges2 (corner p.1)).map fun e => (e, p.2)

/-- One vertex of the cell `p.2` that is entered if it is new, 96-100 and others: `added_vertices` and the rows of `bvertices`. -/
def addVertex (cells : List (List Nat)) (s : List Nat × List (Nat × Int)) (p : Nat × Nat) : List Nat × List (Nat × Int) :=
  if p.1 ∈ s.1 then s else (p.1 :: s.1, s.2 ++ [(p.2, findVertex (cells.getD p.2 []) p.1)])

/-- The same with an array of the given size; `none` is a write behind its end. -/
def addVertexIn (size : Nat) (cells : List (List Nat)) (s : List Nat × List (Nat × Int)) (p : Nat × Nat) : Option (List Nat × List (Nat × Int)) :=
  if p.1 ∈ s.1 then some s else if s.2.length < size then some (p.1 :: s.1, s.2 ++ [(p.2, findVertex (cells.getD p.2 []) p.1)]) else none

/-- What can go wrong. -/
inductive Failure where
  | memory
  | hole
deriving DecidableEq

/-- Cell and local number of vertices and edges. -/
abbrev Result2 := List (Nat × Int) × List (Nat × Nat)

/-- `boundary2D`, 66-143.  In the second branch the array of vertices has the size found in the loop before. -/
def boundary2D (order : List ((Nat × Nat) × Nat) → List ((Nat × Nat) × Nat)) (cells : List (List Nat)) (assumeConnected : Bool) : Except Failure Result2 :=
  let eV := order ((edgeItems cells).foldl enterDelete [])
  let bedges := eV.map fun p => (p.2, findEdge2 (corner (cells.getD p.2 [])) p.1)
  let vertices := eV.flatMap fun p => [(p.1.1, p.2), (p.1.2, p.2)]
  if assumeConnected then
    match vertices.foldlM (addVertexIn eV.length cells) ([], []) with
    | none => .error .memory
    | some s => if s.2.length = eV.length then .ok (s.2, bedges) else .error .hole
  else .ok ((vertices.foldl (addVertex cells) ([], [])).2, bedges)

/-- Faces with their cells, 165-168. -/
def faceItems (cells : List (List Nat)) : List ((Nat × Nat × Nat) × Nat) := cells.zipIdx.flatMap fun p => (cellFaces (corner p.1)).map fun f => (f, p.2)

/-- Cell and local number of vertices, edges, and faces, and whether there is a warning. -/
structure Result3 where
  bvertices : List (Nat × Int)
  bedges : List (Nat × Nat)
  bfaces : List (Nat × Int)
  warning : Bool
deriving DecidableEq

/-- `boundary3D`, 146-219. -/
def boundary3D (order : List ((Nat × Nat × Nat) × Nat) → List ((Nat × Nat × Nat) × Nat)) (order' : List ((Nat × Nat) × Nat) → List ((Nat × Nat) × Nat))
    (cells : List (List Nat)) (assumeConnected : Bool) : Result3 :=
  let fV := order ((faceItems cells).foldl enterDelete [])
  let eV := order' ((fV.flatMap fun p => (faceEdges p.1).map fun e => (e, p.2)).foldl enterKeep [])
  let vertices := fV.flatMap fun p => [(p.1.1, p.2), (p.1.2.1, p.2), (p.1.2.2, p.2)]
  let bvertices := (vertices.foldl (addVertex cells) ([], [])).2
  { bvertices := bvertices
    bedges := eV.map fun p => (p.2, findEdge3 (corner (cells.getD p.2 [])) p.1)
    bfaces := fV.map fun p => (p.2, findFace (corner (cells.getD p.2 [])) p.1)
    warning := assumeConnected && decide (¬ (bvertices.length : Int) = 2 + eV.length - fV.length) }

end PyNucleus.SurfaceEntities
