import Verif.Model.EdgeKey

/-!
# Model of the simplex mapper

/repo/fem/PyNucleus_fem/simplexMapper.pyx.  A cell is the function `c` from local numbers to vertices (a row of `cells`), edges are pairs, faces
triples.  Vertices have an ordered type `α`; keys (`encode_edge`, `encode_face`) are those of integers.
-/

namespace PyNucleus.SimplexMapper

variable {α : Type} [LT α] [DecidableLT α]

/-- `sortEdge`, meshCy.pyx 812-816. -/
def sortEdge (c0 c1 : α) : α × α := if c0 < c1 then (c0, c1) else (c1, c0)

/-- `sortFace`, meshCy.pyx 839-856. -/
def sortFace (c0 c1 c2 : α) : α × α × α :=
  if c0 < c1 then
    if c0 < c2 then (if c1 < c2 then (c0, c1, c2) else (c0, c2, c1)) else (c2, c0, c1)
  else
    if c1 < c2 then (if c0 < c2 then (c1, c0, c2) else (c1, c2, c0)) else (c2, c1, c0)

/-- `temp_edges` of `simplexMapper2D.startLoopOverCellEdges`, 425-432. -/
def cellEdges2 (c : Nat → α) : List (α × α) := [sortEdge (c 0) (c 1), sortEdge (c 0) (c 2), sortEdge (c 1) (c 2)]

/-- `temp_edges` of `simplexMapper3D.startLoopOverCellEdges`, 470-480. -/
def cellEdges3 (c : Nat → α) : List (α × α) :=
  [sortEdge (c 0) (c 1), sortEdge (c 1) (c 2), sortEdge (c 2) (c 0), sortEdge (c 0) (c 3), sortEdge (c 1) (c 3), sortEdge (c 2) (c 3)]

/-- `temp_faces` of `startLoopOverCellFaces`, 482-490. -/
def cellFaces (c : Nat → α) : List (α × α × α) :=
  [sortFace (c 0) (c 1) (c 2), sortFace (c 0) (c 1) (c 3), sortFace (c 1) (c 2) (c 3), sortFace (c 0) (c 2) (c 3)]

/-- `temp_edges2` of `startLoopOverFaceEdges`, 492-499. -/
def faceEdges (f : α × α × α) : List (α × α) := [sortEdge f.1 f.2.1, sortEdge f.2.1 f.2.2, sortEdge f.2.2 f.1]

/-- State of the loops: the two tables and the one counter, 25-30 and 50-106. -/
structure Loops (α : Type) where
  edges : List (α × α)
  faces : List (α × α × α)
  faceEdges : List (α × α)
  counter : Nat

/-- `startLoopOverCellEdges` in three dimensions. -/
def startCellEdges (s : Loops α) (c : Nat → α) : Loops α := { s with edges := cellEdges3 c, counter := 0 }
/-- `startLoopOverCellEdges` in two dimensions. -/
def startCellEdges2 (s : Loops α) (c : Nat → α) : Loops α := { s with edges := cellEdges2 c, counter := 0 }
/-- `startLoopOverCellFaces`. -/
def startCellFaces (s : Loops α) (c : Nat → α) : Loops α := { s with faces := cellFaces c, counter := 0 }
/-- `startLoopOverFaceEdges`. -/
def startFaceEdges (s : Loops α) (f : α × α × α) : Loops α := { s with faceEdges := faceEdges f, counter := 0 }

omit [LT α] [DecidableLT α] in
/-- `loopOverCellEdges`, 50-56; `none` is the result `False`. -/
def nextCellEdge (s : Loops α) : Option (α × α) × Loops α :=
  if s.counter < s.edges.length then (s.edges[s.counter]?, { s with counter := s.counter + 1 }) else (none, s)
omit [LT α] [DecidableLT α] in
/-- `loopOverCellFaces`, 80-89. -/
def nextCellFace (s : Loops α) : Option (α × α × α) × Loops α :=
  if s.counter < s.faces.length then (s.faces[s.counter]?, { s with counter := s.counter + 1 }) else (none, s)
omit [LT α] [DecidableLT α] in
/-- `loopOverFaceEdges`, 100-106. -/
def nextFaceEdge (s : Loops α) : Option (α × α) × Loops α :=
  if s.counter < s.faceEdges.length then (s.faceEdges[s.counter]?, { s with counter := s.counter + 1 }) else (none, s)

/-- Results of the first `n` calls. -/
def collect {σ β : Type} (next : σ → Option β × σ) : Nat → σ → List (Option β) × σ
  | 0, s => ([], s)
  | n + 1, s => let r := next s; let t := collect next n r.2; (r.1 :: t.1, t.2)

/-- `startLoopOverCellNodes` and all of `loopOverCellNodes`, 32-45: `dim + 1` entries of the row; `none`: access outside the row. -/
def cellNodes {β : Type} (dim : Nat) (row : List β) : Option (List β) := (List.range (dim + 1)).mapM fun i => row[i]?

/-- `findVertexInCell`, 135-141. -/
def findVertex {β : Type} [DecidableEq β] (row : List β) (v : β) : Int :=
  match row.findIdx? (fun x => decide (x = v)) with
  | some i => i
  | none => -1

/-- `getEdgeVerticesLocal`, 146-169. -/
def edgeVertices (edgeNo : Nat) (order : Int) : Nat × Nat :=
  let e := if edgeNo = 0 then (0, 1) else if edgeNo = 1 then (1, 2) else if edgeNo = 2 then (2, 0) else if edgeNo = 3 then (0, 3)
    else if edgeNo = 4 then (1, 3) else (2, 3)
  if order = 1 then (e.2, e.1) else e

/-- Permutation of a triple, 184-193. -/
def permute {β : Type} (order : Int) (f : β × β × β) : β × β × β :=
  if order = 1 then (f.2.1, f.2.2, f.1) else if order = 2 then (f.2.2, f.1, f.2.1) else if order = -1 then (f.2.1, f.1, f.2.2)
  else if order = -2 then (f.1, f.2.2, f.2.1) else if order = -3 then (f.2.2, f.2.1, f.1) else f

/-- `getFaceVerticesLocal`, 171-193. -/
def faceVertices (faceNo : Nat) (order : Int) : Nat × Nat × Nat :=
  permute order (if faceNo = 0 then (0, 2, 1) else if faceNo = 1 then (0, 1, 3) else if faceNo = 2 then (1, 2, 3) else (2, 0, 3))

/-- `getFaceEdgesLocal`, 195-227: numbers and orders of the three edges. -/
def faceEdgesLocal (faceNo : Nat) (order : Int) : (Nat × Nat × Nat) × (Int × Int × Int) :=
  let i := if faceNo = 0 then (2, 1, 0) else if faceNo = 1 then (0, 4, 3) else if faceNo = 2 then (1, 5, 4) else (2, 3, 5)
  let o := if faceNo = 0 then ((1, 1, 1) : Int × Int × Int) else (0, 0, 1)
  if order = 1 then ((i.2.1, i.2.2, i.1), (o.2.1, o.2.2, o.1))
  else if order = 2 then ((i.2.2, i.1, i.2.1), (o.2.2, o.1, o.2.1))
  else if order = -1 then ((i.1, i.2.2, i.2.1), (1 - o.1, 1 - o.2.2, 1 - o.2.1))
  else if order = -2 then ((i.2.2, i.2.1, i.1), (1 - o.2.2, 1 - o.2.1, 1 - o.1))
  else if order = -3 then ((i.2.1, i.1, i.2.2), (1 - o.2.1, 1 - o.1, 1 - o.2.2))
  else (i, o)

omit [LT α] [DecidableLT α] in
/-- `getEdgeVerticesGlobal`, 229-238. -/
def edgeGlobal (c : Nat → α) (edgeNo : Nat) (order : Int) : α × α := (c (edgeVertices edgeNo order).1, c (edgeVertices edgeNo order).2)

omit [LT α] [DecidableLT α] in
/-- `getFaceVerticesGlobal`, 240-249. -/
def faceGlobal (c : Nat → α) (faceNo : Nat) (order : Int) : α × α × α :=
  (c (faceVertices faceNo order).1, c (faceVertices faceNo order).2.1, c (faceVertices faceNo order).2.2)

variable [DecidableEq α]

/-- `simplexMapper2D.findEdgeInCell`, 434-443. -/
def findEdge2 (c : Nat → α) (e : α × α) : Nat := if sortEdge (c 0) (c 1) = e then 0 else if sortEdge (c 1) (c 2) = e then 1 else 2

omit [DecidableEq α] in
/-- `simplexMapper2D.getEdgeInCell`, 445-457. -/
def getEdge2 (c : Nat → α) (edgeNo : Nat) (sorted : Bool) : α × α :=
  let e := if edgeNo = 0 then (c 0, c 1) else if edgeNo = 1 then (c 1, c 2) else (c 2, c 0)
  if sorted then sortEdge e.1 e.2 else e

/-- `simplexMapper3D.findEdgeInCell`, 501-519. -/
def findEdge3 (c : Nat → α) (e : α × α) : Nat :=
  if sortEdge (c 0) (c 1) = e then 0 else if sortEdge (c 1) (c 2) = e then 1 else if sortEdge (c 0) (c 2) = e then 2
  else if sortEdge (c 0) (c 3) = e then 3 else if sortEdge (c 1) (c 3) = e then 4 else 5

omit [DecidableEq α] in
/-- `simplexMapper3D.getEdgeInCell`, 521-539. -/
def getEdge3 (c : Nat → α) (edgeNo : Nat) (sorted : Bool) : α × α :=
  let e := if edgeNo = 0 then (c 0, c 1) else if edgeNo = 1 then (c 1, c 2) else if edgeNo = 2 then (c 2, c 0) else if edgeNo = 3 then (c 0, c 3)
    else if edgeNo = 4 then (c 1, c 3) else (c 2, c 3)
  if sorted then sortEdge e.1 e.2 else e

/-- `findFaceInCell`, 541-556. -/
def findFace (c : Nat → α) (f : α × α × α) : Int :=
  if sortFace (c 0) (c 1) (c 2) = f then 0 else if sortFace (c 0) (c 1) (c 3) = f then 1 else if sortFace (c 1) (c 2) (c 3) = f then 2
  else if sortFace (c 0) (c 2) (c 3) = f then 3 else -1

omit [DecidableEq α] in
/-- `getFaceInCell`, 558-572. -/
def getFace (c : Nat → α) (faceNo : Nat) (sorted : Bool) : α × α × α :=
  let f := if faceNo = 0 then (c 0, c 2, c 1) else if faceNo = 1 then (c 0, c 1, c 3) else if faceNo = 2 then (c 1, c 2, c 3) else (c 2, c 0, c 3)
  if sorted then sortFace f.1 f.2.1 f.2.2 else f

/-- `sortAndEncodeEdge`, 251-253. -/
def encodeSorted (e : Int × Int) : Int := EdgeKey.encodeEdge (sortEdge e.1 e.2)
/-- `sortAndEncodeFace`, 304-306. -/
def encodeSortedFace (f : Int × Int × Int) : Int × Int := EdgeKey.encodeFace (sortFace f.1 f.2.1 f.2.2)
/-- `getEdgeInCellEncoded`, 293-297. -/
def getEdgeKey2 (c : Nat → Int) (edgeNo : Nat) : Int := encodeSorted (getEdge2 c edgeNo false)
def getEdgeKey3 (c : Nat → Int) (edgeNo : Nat) : Int := encodeSorted (getEdge3 c edgeNo false)
/-- `findEdgeInCellEncoded`, 267-271. -/
def findEdgeKey2 (c : Nat → Int) (hv : Int) : Nat := findEdge2 c (EdgeKey.decodeEdge hv)
def findEdgeKey3 (c : Nat → Int) (hv : Int) : Nat := findEdge3 c (EdgeKey.decodeEdge hv)
/-- `getFaceInCellEncoded`, 336-340. -/
def getFaceKey (c : Nat → Int) (faceNo : Nat) : Int × Int := encodeSortedFace (getFace c faceNo false)
/-- `findFaceInCellEncoded`, 347-351. -/
def findFaceKey (c : Nat → Int) (hv : Int × Int) : Int := findFace c (EdgeKey.decodeFace hv)

end PyNucleus.SimplexMapper
