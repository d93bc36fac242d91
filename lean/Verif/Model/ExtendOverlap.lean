import Verif.Model.SharedMesh
import Verif.Model.SurfaceEntities
import Mathlib.Logic.Function.Basic
import Mathlib.Data.List.Sort
import Mathlib.Algebra.Ring.Defs

/-!
# Model of the extension of a subdomain by layers of cells of its neighbours

/repo/fem/PyNucleus_fem/meshOverlaps.pyx: `vertexMap` 1227-1311, `vertexMapManager` 1318-1480, `updateBoundary1D`, `updateBoundary2D`, `updateBoundary3D` 1483-1610,
`getBoundaryCells` 1613-1646, and the exchanges of `extendOverlap` 1649-2115.  Dictionaries are functions to `Option` or lists of keys and values; sets are lists, gone through
in any order.  Messages arrive as they were sent.  Places of vertices are values of any type `P`; the test of the distance of two places is a parameter.
Edges and faces are pairs and triples instead of their codes (C14).
-/

namespace PyNucleus.ExtendOverlap

open PyNucleus.SimplexMapper PyNucleus.SharedMesh PyNucleus.SurfaceEntities

/-! ### vertex numbers -/

/-- `vertexMap`, 1227-1232. -/
structure VMap where
  local2overlap : Nat → Option Nat
  overlap2local : Nat → Option Nat
  num : Nat
  iface : Nat

/-- A new overlap number for a vertex, 1249-1251, 1259-1261, 1269-1271, 1288-1293. -/
def VMap.enter (m : VMap) (v : Nat) : VMap :=
  { m with local2overlap := Function.update m.local2overlap v (some m.num), overlap2local := Function.update m.overlap2local m.num (some v), num := m.num + 1 }

/-- Vertices of an interface in the order of the loops, 1245-1271. -/
def interfaceVertices (dim : Nat) (cells : List (List Nat)) (S : Shared) : List Nat :=
  (S.vertices.map fun v => at' (row cells v.1) v.2) ++
  (if 2 ≤ dim then S.edges.flatMap fun e => [(edgeGlobal (at' (row cells e.1)) e.2.1 e.2.2).1, (edgeGlobal (at' (row cells e.1)) e.2.1 e.2.2).2] else []) ++
  (if 3 ≤ dim then S.faces.flatMap fun f => [(faceGlobal (at' (row cells f.1)) f.2.1 f.2.2).1, (faceGlobal (at' (row cells f.1)) f.2.1 f.2.2).2.1,
    (faceGlobal (at' (row cells f.1)) f.2.1 f.2.2).2.2] else [])

/-- `vertexMap.__init__`, 1234-1274. -/
def VMap.build (vs : List Nat) : VMap :=
  let m := vs.foldl VMap.enter ⟨fun _ => none, fun _ => none, 0, 0⟩
  { m with iface := m.num }

/-- One entry of `vertexMap.translateLocal2Overlap`, 1283-1293. -/
def VMap.toOverlap1 (m : VMap) (v : Nat) : VMap × Nat :=
  match m.local2overlap v with
  | some k => (m, k)
  | none => (m.enter v, m.num)

/-- `vertexMap.translateLocal2Overlap`, 1276-1294. -/
def VMap.toOverlap : VMap → List Nat → VMap × List Nat
  | m, [] => (m, [])
  | m, v :: vs => ((m.toOverlap1 v).1.toOverlap vs |>.1, (m.toOverlap1 v).2 :: ((m.toOverlap1 v).1.toOverlap vs).2)

/-- `vertexMap.translateOverlap2Local`, 1296-1311; `none`: `KeyError`. -/
def VMap.toLocal (m : VMap) (offset : Nat) (data : List Nat) : Option (List Nat) :=
  data.mapM fun i => if i < m.iface then m.overlap2local i else m.overlap2local (i + offset)

/-! ### vertices that are sent -/

variable {P : Type}

/-- `verticesToSend`, 1721-1742: local numbers of the vertices behind the interface; `none`: `KeyError`. -/
def toSend (m : VMap) : Option (List Nat) := (List.range' m.iface (m.num - m.iface)).mapM m.overlap2local

/-- The part of `vertexMapManager` that grows while vertices arrive, 1318-1347; `nv` is `mesh.num_vertices`, `places` are those of the vertices of the mesh. -/
structure Manager (P : Type) where
  places : List P
  maps : Nat → VMap
  newVertices : List P
  newShared : Nat → Option (List Nat)

/-- `getVertexByLocalIndex`, 1408-1412. -/
def Manager.place (M : Manager P) (l : Nat) : Option P := if M.places.length ≤ l then M.newVertices[l - M.places.length]? else M.places[l]?

/-- `addVertex`, 1371-1377. -/
def Manager.addVertex (M : Manager P) (p : P) (s : Nat) : Manager P :=
  { M with maps := Function.update M.maps s ((M.maps s).enter (M.places.length + M.newVertices.length)), newVertices := M.newVertices ++ [p] }

/-- 1395-1401. -/
def Manager.addNewShared (M : Manager P) (p : P) (s : Nat) : Manager P :=
  let l := M.places.length + M.newVertices.length
  let M' := M.addVertex p s
  { M' with newShared := Function.update M'.newShared s (some (match M'.newShared s with | some ls => ls ++ [l] | none => [l])) }

/-- `addVertexShared`, 1379-1401; `other` is the first element of `sharedWith`. -/
def Manager.addVertexShared (near : P → P → Bool) (M : Manager P) (p : P) (s other : Nat) : Manager P :=
  match M.newShared other with
  | none => M.addNewShared p s
  | some ls =>
    match ls.find? fun l => match M.newVertices[l - M.places.length]? with | some q => near q p | none => false with
    | some l => { M with maps := Function.update M.maps s ((M.maps s).enter l) }
    | none => M.addNewShared p s

/-- One received vertex, 1855-1860; `shared k` is the first of the other subdomains with the vertex with overlap number `k`. -/
def Manager.receive1 (near : P → P → Bool) (shared : Nat → Option Nat) (s : Nat) (M : Manager P) (p : Nat × P) : Manager P :=
  match shared p.1 with
  | some other => M.addVertexShared near p.2 s other
  | none => M.addVertex p.2 s

/-- Received vertices, 1852-1860. -/
def Manager.receive (near : P → P → Bool) (shared : Nat → Option Nat) (s : Nat) (M : Manager P) (ps : List P) : Manager P :=
  ((List.range' (M.maps s).iface ps.length).zip ps).foldl (Manager.receive1 near shared s) M

/-- `offset`, 1850. -/
def Manager.offset (M : Manager P) (s : Nat) : Nat := (M.maps s).num - (M.maps s).iface

/-- `removeDuplicateVertices`, 1414-1426: kept vertices and `inverse2`; `idx` and `inverse` are the results of `np.unique`. -/
def removeDuplicates (nv : Nat) (newVertices : List P) (idx inverse : List Nat) : List P × (Nat → Nat) :=
  (idx.filterMap fun i => newVertices[i]?, fun l => if l < nv then l else nv + inverse.getD (l - nv) 0)

/-! ### cells -/

/-- Entries of `sharedCells`: cell, and pairs of a subdomain and a number there, 1364-1368. -/
def trackCell (d : List (Nat × List (Nat × Nat))) (it : Nat × Nat × Nat) : List (Nat × List (Nat × Nat)) :=
  if d.any fun p => p.1 = it.1 then d.map fun p => if p.1 = it.1 then (p.1, p.2 ++ [it.2]) else p else d ++ [(it.1, [it.2])]

/-- `sharedCells` after all calls of `translateLocal2Overlap`; `nbrs` is the order of `interfaces`, `sent s` are the cells that are sent to `s`. -/
def sharedCells (nbrs : List Nat) (sent : Nat → List Nat) : List (Nat × List (Nat × Nat)) :=
  (nbrs.flatMap fun s => (sent s).zipIdx.map fun p => (p.1, s, p.2)).foldl trackCell []

/-- `sharedCellsToSend[s]`, 1807-1814. -/
def sharedCellsToSend (nbrs : List Nat) (sent : Nat → List Nat) (s : Nat) : List (Nat × Nat) :=
  (sharedCells nbrs sent).flatMap fun p => if 1 < p.2.length then
    p.2.flatMap fun a => p.2.flatMap fun b => if a.1 ≠ b.1 ∧ a.1 = s then [(a.2, b.1)] else [] else []

/-- `overlapCellNos`, `overlapCellsStart`, `num_newCells`. -/
structure Cells where
  nos : Nat → List Nat
  start : Nat → Nat
  new : Nat

/-- `addCells`, 1428-1452, for `n` cells of subdomain `s`; `nc` is `mesh.num_cells`. -/
def addCells (me nc n : Nat) (C : Cells) (s : Nat) : Cells :=
  let l := List.range' (nc + C.new) n
  if me < s then { nos := Function.update C.nos s (l ++ C.nos s), start := Function.update C.start s 0, new := C.new + n }
  else { nos := Function.update C.nos s (C.nos s ++ l), start := Function.update C.start s (C.nos s).length, new := C.new + n }

/-- `addSharedCells`, 1454-1465; a missing entry of the dictionary is an empty list. -/
def addSharedCells (C : Cells) (s : Nat) (shared : List (Nat × Nat)) : Cells :=
  shared.foldl (fun C p => { C with nos := Function.update C.nos p.2 (C.nos p.2 ++ [(C.nos s).getD (C.start s + p.1) 0]) }) C

/-- Cells of subdomain `me` in its overlaps, 1703-1716, 1908, 1922-1924; `nbrs`, `sent` for all subdomains. -/
def overlapCells (nc : Nat → Nat) (nbrs : Nat → List Nat) (sent : Nat → Nat → List Nat) (me : Nat) : Cells :=
  let C := (nbrs me).foldl (fun C s => addCells me (nc me) (sent s me).length C s) ⟨fun s => if s ∈ nbrs me then sent me s else [], fun _ => 0, 0⟩
  ((nbrs me).insertionSort (· ≤ ·)).foldl (fun C s => addSharedCells C s (sharedCellsToSend (nbrs s) (sent s) me)) C

/-! ### the new boundary -/

/-- `updateBoundary1D`, 1483-1503. -/
def updateBoundary1D (order : List Nat → List Nat) (cells : List (List Nat)) (oldVertices : List Nat) : List Nat :=
  order ((((vertexItems cells).foldl enterDelete []).map Prod.fst).filter fun v => decide (v ∉ oldVertices))

/-- Elements of a set of vertices that are ends of edges. -/
def endsOf (edges : List (Nat × Nat)) : List Nat := (edges.flatMap fun e => [e.1, e.2]).dedup

/-- `updateBoundary2D`, 1506-1547. -/
def updateBoundary2D (order : List (Nat × Nat) → List (Nat × Nat)) (order' : List Nat → List Nat) (cells : List (List Nat)) (oldEdges : List (Nat × Nat)) (oldVertices : List Nat) :
    List Nat × List (Nat × Nat) :=
  let edges := order ((((edgeItems cells).foldl enterDelete []).map Prod.fst).filter fun e => decide (e ∉ oldEdges.map fun o => sortEdge o.1 o.2))
  (order' ((endsOf edges).filter fun v => decide (v ∉ oldVertices)), edges)

/-- `updateBoundary3D`, 1550-1610; old faces are sorted, 1583, old edges are not, 1596. -/
def updateBoundary3D (order : List (Nat × Nat × Nat) → List (Nat × Nat × Nat)) (order' : List (Nat × Nat) → List (Nat × Nat)) (order'' : List Nat → List Nat)
    (cells : List (List Nat)) (oldFaces : List (Nat × Nat × Nat)) (oldEdges : List (Nat × Nat)) (oldVertices : List Nat) :
    List Nat × List (Nat × Nat) × List (Nat × Nat × Nat) :=
  let faces := order ((((faceItems cells).foldl enterDelete []).map Prod.fst).filter fun f => decide (f ∉ oldFaces.map fun o => sortFace o.1 o.2.1 o.2.2))
  let edges := order' (((faces.flatMap faceEdges).dedup).filter fun e => decide (e ∉ oldEdges))
  (order'' ((endsOf edges).filter fun v => decide (v ∉ oldVertices)), edges, faces)

/-- `getBoundaryCells`, 1613-1646; `v2c` is the dictionary of the cells of a vertex. -/
def getBoundaryCells (dim : Nat) (cells : List (List Nat)) (S : Shared) (v2c : Nat → List Nat) : List Nat := ((interfaceVertices dim cells S).dedup.flatMap v2c).dedup

/-- The number by which shared vertices are sorted, 2096-2102: `100**l` times coordinate `l`. -/
def placeKey {K : Type} [CommSemiring K] (x : List K) : K := x.zipIdx.foldl (fun s p => s + p.1 * 100 ^ p.2) 0

/-- `idx = key.argsort()` and the loop after it, 2103-2108: `places` is the set in the order of its elements, `sorted` the result; numbers that are equal can come in any order. -/
structure IsSorted {K : Type} [CommSemiring K] [LE K] (places sorted : List (List K)) : Prop where
  perm : sorted.Perm places
  keys : sorted.Pairwise fun a b => placeKey a ≤ placeKey b

end PyNucleus.ExtendOverlap
