import Verif.Model.TupleDict
import Verif.Model.Loops
import Mathlib.Algebra.Field.Defs
import Mathlib.Algebra.Order.Ring.Defs

/-!
# Model of uniform refinement

/repo/fem/PyNucleus_fem/meshCy.pyx 506-585 and 863-1515.  Vertices and cells are rows of numbers, rows are copied as a whole.  Python dictionaries
with keys `encode_edge(e)` have the sorted edge as key here (C14: different edges have different keys).  Allocated arrays have arbitrary
contents `u`.  `none`: `KeyError` or an access outside a `tupleDict`.
-/

namespace PyNucleus.Refine

open PyNucleus.Loops PyNucleus.TupleDict

variable {K α : Type}

/-- `sortEdge`, 812-816. -/
def sortEdge (c0 c1 : Nat) : Nat × Nat := if c0 < c1 then (c0, c1) else (c1, c0)

/-- Midpoint of an edge, `dim` coordinates, e.g. 1088-1089. -/
def midpoint [Field K] (dim : Nat) (vertices : List (List K)) (e : Nat × Nat) : List K :=
  (List.range dim).map fun k => ((vertices.getD e.1 []).getD k 0 + (vertices.getD e.2 []).getD k 0) * (1 / 2)

/-- Copy of the old vertices, e.g. 1079-1081. -/
def copyVertices [Zero K] (dim : Nat) (vertices u : List (List K)) : List (List K) :=
  forRange 0 vertices.length u fun u i => u.set i ((List.range dim).map fun k => (vertices.getD i []).getD k 0)

/-- Python dictionaries: `d[k] = v` and `d[k]`. -/
def dset (d : List ((Nat × Nat) × Nat)) (k : Nat × Nat) (v : Nat) : List ((Nat × Nat) × Nat) :=
  if d.any (fun p => p.1 == k) then d.map fun p => if p.1 = k then (k, v) else p else d ++ [(k, v)]
def dget (d : List ((Nat × Nat) × Nat)) (k : Nat × Nat) : Option Nat := (d.find? fun p => p.1 == k).map Prod.snd

/-- New cells in one dimension from the table of edges, 897-901. -/
def cells1 (get : Nat × Nat → Option Nat) (cells : List (List Nat)) : Option (List (List Nat)) := do
  let c ← cells.mapM fun (c : List Nat) => do
    let nv0 ← get (sortEdge (c.getD 0 0) (c.getD 1 0))
    pure [[c.getD 0 0, nv0], [nv0, c.getD 1 0]]
  pure c.flatten

/-- `refineCy1D`, 863-903. -/
def refine1D [Field K] (dim : Nat) (u : Nat → List (List K)) (vertices : List (List K)) (cells : List (List Nat)) :
    Option (List (List K) × List (List Nat) × List ((Nat × Nat) × Nat)) :=
  let s := cells.foldl (fun (s : List ((Nat × Nat) × Nat) × Nat) c => (dset s.1 (sortEdge (c.getD 0 0) (c.getD 1 0)) s.2, s.2 + 1)) ([], vertices.length)
  let v := s.1.foldl (fun v p => v.set p.2 (midpoint dim vertices p.1)) (copyVertices dim vertices (u s.2))
  (cells1 (dget s.1) cells).map fun c => (v, c, s.1)

/-- The four triangles, 1106-1109. -/
def children2 (c0 c1 c2 nv0 nv1 nv2 : α) : List (List α) := [[c0, nv0, nv2], [c1, nv1, nv0], [c2, nv2, nv1], [nv0, nv1, nv2]]

/-- Edges of a triangle in the order of 1071-1073. -/
def edges2 (c : List Nat) : List (Nat × Nat) := [sortEdge (c.getD 0 0) (c.getD 1 0), sortEdge (c.getD 0 0) (c.getD 2 0), sortEdge (c.getD 1 0) (c.getD 2 0)]

/-- New triangles, 1092-1109 and 1037-1048. -/
def cells2 (get : Nat × Nat → Option Nat) (cells : List (List Nat)) : Option (List (List Nat)) := do
  let c ← cells.mapM fun (c : List Nat) => do
    let nv0 ← get (sortEdge (c.getD 0 0) (c.getD 1 0))
    let nv1 ← get (sortEdge (c.getD 1 0) (c.getD 2 0))
    let nv2 ← get (sortEdge (c.getD 0 0) (c.getD 2 0))
    pure (children2 (c.getD 0 0) (c.getD 1 0) (c.getD 2 0) nv0 nv1 nv2)
  pure c.flatten

/-- `tupleDictINDEX(num_vertices, deleteHits=False)`, tupleDict_{VALUE}.pxi 9-14; `INVALID` is `MAX_INT`. -/
def config : Config Nat := ⟨256, 0, 3, false, false, 2147483647⟩

/-- `if eV.enterValue(e, new_num_vertices) == new_num_vertices: new_num_vertices += 1`, 1074-1076 and 1364-1366. -/
def enterEdges (es : List (Nat × Nat)) (s : Dict Nat × Nat) : Option (Dict Nat × Nat) :=
  es.foldlM (fun s e => (step config s.1 (.enter e.1 e.2 s.2)).map fun r => (r.1, if r.2 = s.2 then s.2 + 1 else s.2)) s

/-- `eV.getValue(e)`. -/
def getEdge (d : Dict Nat) (e : Nat × Nat) : Option Nat := (step config d (.get e.1 e.2)).map Prod.snd

/-- The new vertices with `startIter` and `next`, 1077-1089 and 1367-1379, and the table `lookup`. -/
def newVertices [Field K] (dim : Nat) (u : Nat → List (List K)) (vertices : List (List K)) (s : Dict Nat × Nat) : Option (List (List K) × List ((Nat × Nat) × Nat)) :=
  (iterate s.1 (s.1.nnz.toNat + 1) (startIter s.1)).map fun items =>
    let l := items.1.map fun p => ((p.1.1, p.1.2.toNat), p.2)
    (l.foldl (fun v p => v.set p.2 (midpoint dim vertices p.1)) (copyVertices dim vertices (u s.2)), l)

/-- `refineCy2DedgeVals`, 1052-1110. -/
def refine2D [Field K] (dim : Nat) (u : Nat → List (List K)) (vertices : List (List K)) (cells : List (List Nat)) :
    Option (List (List K) × List (List Nat) × List ((Nat × Nat) × Nat)) := do
  let s ← enterEdges (cells.flatMap edges2) (init config vertices.length, vertices.length)
  let v ← newVertices dim u vertices s
  let c ← cells2 (getEdge s.1) cells
  pure (v.1, c, v.2)

/-- `compareEdges`, 971-977. -/
def leEdge (a b : Nat × Nat) : Bool :=
  decide (2 * ((if a.1 > b.1 then 1 else 0 : Int) - (if a.1 < b.1 then 1 else 0)) + ((if a.2 > b.2 then 1 else 0) - (if a.2 < b.2 then 1 else 0)) ≤ 0)

/-- `refineCy2Dsort`, 987-1049; `sort` is the result of `qsort`.  There are always two coordinates. -/
def refine2Dsort [Field K] (sort : List (Nat × Nat) → List (Nat × Nat)) (u : Nat → List (List K)) (vertices : List (List K)) (cells : List (List Nat)) :
    Option (List (List K) × List (List Nat) × List ((Nat × Nat) × Nat)) :=
  let s := (sort (cells.flatMap edges2)).foldl (fun (s : List ((Nat × Nat) × Nat) × Nat × Nat × Nat) e =>
    if e ≠ s.2.2 then (dset s.1 e s.2.1, s.2.1 + 1, e) else s) ([], vertices.length, (0, 0))
  let v := s.1.foldl (fun v p => v.set p.2 (midpoint 2 vertices p.1)) (copyVertices 2 vertices (u s.2.1))
  (cells2 (dget s.1) cells).map fun c => (v, c, s.1)

/-- `sortFace`, 839-856. -/
def sortFace (c0 c1 c2 : Nat) : List Nat :=
  if c0 < c1 then
    if c0 < c2 then (if c1 < c2 then [c0, c1, c2] else [c0, c2, c1]) else [c2, c0, c1]
  else
    if c1 < c2 then (if c0 < c2 then [c1, c0, c2] else [c1, c2, c0]) else [c2, c1, c0]

/-- Edges of the sorted faces of a tetrahedron, 1352-1363. -/
def edges3 (c : List Nat) : List (Nat × Nat) :=
  [sortFace (c.getD 0 0) (c.getD 1 0) (c.getD 2 0), sortFace (c.getD 0 0) (c.getD 1 0) (c.getD 3 0), sortFace (c.getD 0 0) (c.getD 2 0) (c.getD 3 0),
    sortFace (c.getD 1 0) (c.getD 2 0) (c.getD 3 0)].flatMap fun f => [(f.getD 0 0, f.getD 1 0), (f.getD 1 0, f.getD 2 0), (f.getD 0 0, f.getD 2 0)]

/-- The eight tetrahedra, 1410-1432; `k` is the number of the diagonal. -/
def children3 (k : Nat) (v0 v1 v2 v3 v01 v02 v03 v12 v13 v23 : α) : List (List α) :=
  [[v0, v01, v02, v03], [v01, v1, v12, v13], [v02, v12, v2, v23], [v03, v13, v23, v3]] ++
  (if k = 0 then [[v01, v12, v02, v23], [v01, v23, v03, v13], [v01, v02, v03, v23], [v01, v13, v12, v23]]
  else if k = 1 then [[v01, v02, v03, v13], [v01, v12, v02, v13], [v02, v03, v13, v23], [v02, v13, v12, v23]]
  else [[v01, v13, v12, v03], [v03, v23, v13, v12], [v03, v23, v12, v02], [v01, v12, v02, v03]])

/-- Squared length, 1396-1403. -/
def dist2 [Field K] (a b : List K) : K :=
  (a.getD 0 0 - b.getD 0 0) * (a.getD 0 0 - b.getD 0 0) + (a.getD 1 0 - b.getD 1 0) * (a.getD 1 0 - b.getD 1 0) + (a.getD 2 0 - b.getD 2 0) * (a.getD 2 0 - b.getD 2 0)

/-- Choice of the diagonal, 1416-1424. -/
def diagonal [LT K] [DecidableLT K] (l0123 l0213 l0312 : K) : Nat := if l0123 < l0213 ∧ l0123 < l0312 then 0 else if l0213 < l0312 then 1 else 2

/-- New tetrahedra, 1382-1432; `v` are the new vertices. -/
def cells3 [Field K] [LT K] [DecidableLT K] (get : Nat × Nat → Option Nat) (v : List (List K)) (cells : List (List Nat)) : Option (List (List Nat)) := do
  let c ← cells.mapM fun (c : List Nat) => do
    let v01 ← get (sortEdge (c.getD 0 0) (c.getD 1 0))
    let v02 ← get (sortEdge (c.getD 0 0) (c.getD 2 0))
    let v03 ← get (sortEdge (c.getD 0 0) (c.getD 3 0))
    let v12 ← get (sortEdge (c.getD 1 0) (c.getD 2 0))
    let v13 ← get (sortEdge (c.getD 1 0) (c.getD 3 0))
    let v23 ← get (sortEdge (c.getD 2 0) (c.getD 3 0))
    pure (children3 (diagonal (dist2 (v.getD v01 []) (v.getD v23 [])) (dist2 (v.getD v02 []) (v.getD v13 [])) (dist2 (v.getD v03 []) (v.getD v12 [])))
      (c.getD 0 0) (c.getD 1 0) (c.getD 2 0) (c.getD 3 0) v01 v02 v03 v12 v13 v23)
  pure c.flatten

/-- `refineCy3DedgeVals`, 1314-1432. -/
def refine3D [Field K] [LT K] [DecidableLT K] (u : Nat → List (List K)) (vertices : List (List K)) (cells : List (List Nat)) :
    Option (List (List K) × List (List Nat) × List ((Nat × Nat) × Nat)) := do
  let s ← enterEdges (cells.flatMap edges3) (init config vertices.length, vertices.length)
  let v ← newVertices 3 u vertices s
  let c ← cells3 (getEdge s.1) v.1 cells
  pure (v.1, c, v.2)

end PyNucleus.Refine
