import Mathlib.Data.List.Sort
import Mathlib.Algebra.Order.Ring.Rat
import Mathlib.Algebra.Order.Group.Abs
import Mathlib.Data.List.Dedup

/-!
# Mesh objects: cached boundary, tags, copies and files

Models `meshNd` (fem/PyNucleus_fem/mesh.py:1530-2083) and the parts of `meshBase` it uses
(fem/PyNucleus_fem/meshCy.pyx:274-310, 380-401, 494-504).

Simplifications: arrays are lists; `P` is the type of places of vertices and `T` that of mesh
transformers; an attribute that has not been set yet is `none`. The routines that compute the boundary
from the cells (they are the subject of other modules) are the parameter `Compute`. The
dimension `mdim` of the cells is 1, 2, or 3. Data types are not modelled.
-/

namespace PyNucleus.MeshObject

abbrev Edge := Nat × Nat
abbrev Face := Nat × Nat × Nat

/-- Tags: `PHYSICAL = 0` (fem/PyNucleus_fem/mesh.py, imported from `meshCy`), `NO_BOUNDARY` the least
number of the type. -/
def PHYSICAL : Int := 0
def NO_BOUNDARY : Int := -128

/-- `boundaryVertices`, `boundaryVerticesFromBoundaryEdges`, `boundaryEdges`,
`boundaryEdgesFromBoundaryFaces`, `boundaryFacesWithOrientation`
(fem/PyNucleus_fem/meshCy.pyx:1792-2090), as called at mesh.py:1574-1608. -/
structure Compute (P : Type) where
  vertices : List (List Nat) → List Nat
  verticesOfEdges : List Edge → List Nat
  edges : List (List Nat) → List Edge
  edgesOfFaces : List Face → List Edge
  faces : List P → List (List Nat) → List Face
  cells : List (List Nat) → List Nat

/-- The attributes of a mesh (meshCy.pyx:275-310, mesh.py:1571-1640). -/
structure Obj (P T : Type) where
  mdim : Nat
  vertices : List P
  cells : List (List Nat)
  transformer : Option T := none
  bv : Option (List Nat) := none
  bvTags : Option (List Int) := none
  be : Option (List Edge) := none
  beTags : Option (List Int) := none
  bf : Option (List Face) := none
  bfTags : Option (List Int) := none
  bc : Option (List Nat) := none
  interior : Option (List Nat) := none

variable {P T : Type}

/-- `get_boundary_faces` (mesh.py:1605-1613). -/
def getBF (F : Compute P) (m : Obj P T) : List Face × Obj P T :=
  match m.bf with
  | some f => (f, m)
  | none =>
    let f := if m.mdim ≤ 2 then [] else F.faces m.vertices m.cells
    (f, { m with bf := some f })

/-- `get_boundary_edges` (mesh.py:1587-1597). -/
def getBE (F : Compute P) (m : Obj P T) : List Edge × Obj P T :=
  match m.be with
  | some e => (e, m)
  | none =>
    if m.mdim = 1 then ([], { m with be := some [] })
    else if m.mdim = 2 then (F.edges m.cells, { m with be := some (F.edges m.cells) })
    else
      let r := getBF F m
      (F.edgesOfFaces r.1, { r.2 with be := some (F.edgesOfFaces r.1) })

/-- `get_boundary_vertices` (mesh.py:1571-1580). -/
def getBV (F : Compute P) (m : Obj P T) : List Nat × Obj P T :=
  match m.bv with
  | some v => (v, m)
  | none =>
    if 2 ≤ m.mdim then
      let r := getBE F m
      (F.verticesOfEdges r.1, { r.2 with bv := some (F.verticesOfEdges r.1) })
    else (F.vertices m.cells, { m with bv := some (F.vertices m.cells) })

/-- `get_boundary_vertex_tags` (mesh.py:1689-1693). -/
def getBVTags (F : Compute P) (m : Obj P T) : List Int × Obj P T :=
  match m.bvTags with
  | some t => (t, m)
  | none =>
    let r := getBV F m
    let t := List.replicate r.1.length PHYSICAL
    (t, { r.2 with bvTags := some t })

/-- `get_boundary_edge_tags` (mesh.py:1739-1743). -/
def getBETags (F : Compute P) (m : Obj P T) : List Int × Obj P T :=
  match m.beTags with
  | some t => (t, m)
  | none =>
    let r := getBE F m
    let t := List.replicate r.1.length PHYSICAL
    (t, { r.2 with beTags := some t })

/-- `get_boundary_face_tags` (mesh.py:1794-1798). -/
def getBFTags (F : Compute P) (m : Obj P T) : List Int × Obj P T :=
  match m.bfTags with
  | some t => (t, m)
  | none =>
    let r := getBF F m
    let t := List.replicate r.1.length PHYSICAL
    (t, { r.2 with bfTags := some t })

/-- The vertices that are not in `b` (`temp`, `nonzero`, mesh.py:1641-1643, 1653-1655). -/
def complement (n : Nat) (b : List Nat) : List Nat :=
  (List.range n).filter fun v => decide (v ∉ b)

/-- `get_interiorVertices` (mesh.py:1639-1647). -/
def getInterior (F : Compute P) (m : Obj P T) : List Nat × Obj P T :=
  match m.interior with
  | some l => (l, m)
  | none =>
    let r := getBV F m
    let l := complement m.vertices.length r.1
    (l, { r.2 with interior := some l })

/-- `get_boundary_cells` (mesh.py:1623-1629), for cells of dimension 2; it replaces the edges too. -/
def getBC (F : Compute P) (m : Obj P T) : Option (List Nat × Obj P T) :=
  match m.bc with
  | some c => some (c, m)
  | none =>
    if m.mdim = 2 then
      some (F.cells m.cells, { m with be := some (F.edges m.cells), bc := some (F.cells m.cells) })
    else none

/-- Questions that can be asked in any order. -/
inductive Question | vertices | vertexTags | edges | edgeTags | faces | faceTags | interior

def ask (F : Compute P) (m : Obj P T) : Question → Obj P T
  | .vertices => (getBV F m).2
  | .vertexTags => (getBVTags F m).2
  | .edges => (getBE F m).2
  | .edgeTags => (getBETags F m).2
  | .faces => (getBF F m).2
  | .faceTags => (getBFTags F m).2
  | .interior => (getInterior F m).2

/-- Assignment to `boundaryVertices` (mesh.py:1582-1583). -/
def setBV (m : Obj P T) (l : List Nat) : Obj P T := { m with bv := some l }

/-- Assignment to the tags (mesh.py:1695-1698, 1745-1747, 1800-1802); `none` is a failed assertion. -/
def setBVTags (F : Compute P) (m : Obj P T) (t : List Int) : Option (Obj P T) :=
  let r := getBV F m
  if t.length = r.1.length then some { r.2 with bvTags := some t } else none

def setBETags (F : Compute P) (m : Obj P T) (t : List Int) : Option (Obj P T) :=
  let r := getBE F m
  if t.length = r.1.length then some { r.2 with beTags := some t } else none

def setBFTags (F : Compute P) (m : Obj P T) (t : List Int) : Option (Obj P T) :=
  let r := getBF F m
  if t.length = r.1.length then some { r.2 with bfTags := some t } else none

/-- `tagBoundaryVertices` (mesh.py:1703-1709). -/
def tagBV [Inhabited P] (F : Compute P) (m : Obj P T) (f : P → Int) : Option (Obj P T) :=
  let r := getBV F m
  setBVTags F r.2 (r.1.map fun v => f (m.vertices.getD v default))

/-- `tagBoundaryEdges` (mesh.py:1752-1760). -/
def tagBE [Inhabited P] (F : Compute P) (m : Obj P T) (f : P → P → Int) : Option (Obj P T) :=
  let r := getBE F m
  setBETags F r.2 (r.1.map fun e =>
    f (m.vertices.getD e.1 default) (m.vertices.getD e.2 default))

/-- `tagBoundaryFaces` (mesh.py:1807-1816). -/
def tagBF [Inhabited P] (F : Compute P) (m : Obj P T) (f : P → P → P → Int) : Option (Obj P T) :=
  let r := getBF F m
  setBFTags F r.2 (r.1.map fun e => f (m.vertices.getD e.1 default)
    (m.vertices.getD e.2.1 default) (m.vertices.getD e.2.2 default))

/-- `replaceBoundaryVertexTags` (mesh.py:1711-1720). -/
def replaceBV [Inhabited P] (F : Compute P) (m : Obj P T) (f : P → Int) (s : List Int) :
    Option (Obj P T) :=
  let r := getBV F m
  let t := getBVTags F r.2
  setBVTags F t.2 ((r.1.zip t.1).map fun p =>
    if p.2 ∈ s then f (m.vertices.getD p.1 default) else p.2)

/-- `replaceBoundaryEdgeTags` (mesh.py:1762-1773). -/
def replaceBE [Inhabited P] (F : Compute P) (m : Obj P T) (f : P → P → Int) (s : List Int) :
    Option (Obj P T) :=
  let r := getBE F m
  let t := getBETags F r.2
  setBETags F t.2 ((r.1.zip t.1).map fun p =>
    if p.2 ∈ s then f (m.vertices.getD p.1.1 default) (m.vertices.getD p.1.2 default) else p.2)

/-- The argument `tag`: `None`, one tag, or a list (whose entries may be `None`). -/
inductive TagArg
  | all
  | one (t : Int)
  | many (l : List (Option Int))

/-- A logical index `a[idx]` of numpy. -/
def mask {α : Type} (l : List α) (idx : List Bool) : List α :=
  ((l.zip idx).filter Prod.snd).map Prod.fst

/-- `tags == tag[0]`, then `logical_or` with the others (mesh.py:1728-1730, 1781-1783, 1822-1824). -/
def tagMask (tags : List Int) : List (Option Int) → List Bool
  | [] => tags.map fun _ => false
  | t :: l =>
    l.foldl (fun idx u => (idx.zip (tags.map fun x => decide (some x = u))).map fun p => p.1 || p.2)
      (tags.map fun x => decide (some x = t))

/-- `getBoundaryVerticesByTag` (mesh.py:1722-1736) with `sorted=False`. `none`: empty list. -/
def byTagV (F : Compute P) (m : Obj P T) : TagArg → Option (List Nat × Obj P T)
  | .all => some (getBV F m)
  | .many [] => none
  | .many (none :: _) => some (getBV F m)
  | .many l =>
    let t := getBVTags F m
    let r := getBV F t.2
    some (mask r.1 (tagMask t.1 l), r.2)
  | .one a =>
    let r := getBV F m
    let t := getBVTags F r.2
    some (mask r.1 (t.1.map fun x => decide (x = a)), t.2)

/-- The same with `sorted=True`; where no tag selects vertices, the array of the mesh itself is
sorted (mesh.py:1723-1726, 1734-1735). -/
def byTagSorted (F : Compute P) (m : Obj P T) (a : TagArg) : Option (List Nat × Obj P T) :=
  match byTagV F m a with
  | none => none
  | some r =>
    let l := r.1.insertionSort (· ≤ ·)
    match a with
    | .all => some (l, { r.2 with bv := some l })
    | .many (none :: _) => some (l, { r.2 with bv := some l })
    | _ => some (l, r.2)

/-- `getBoundaryEdgesByTag` (mesh.py:1775-1787) without cells. -/
def byTagE (F : Compute P) (m : Obj P T) : TagArg → Option (List Edge × Obj P T)
  | .all => some (getBE F m)
  | .many [] => none
  | .many l =>
    let t := getBETags F m
    let r := getBE F t.2
    some (mask r.1 (tagMask t.1 l), r.2)
  | .one a =>
    let t := getBETags F m
    let r := getBE F t.2
    some (mask r.1 (tagMask t.1 [some a]), r.2)

/-- `getBoundaryFacesByTag` (mesh.py:1818-1827). -/
def byTagF (F : Compute P) (m : Obj P T) : TagArg → Option (List Face × Obj P T)
  | .all => some (getBF F m)
  | .many [] => none
  | .many l =>
    let t := getBFTags F m
    let r := getBF F t.2
    some (mask r.1 (tagMask t.1 l), r.2)
  | .one a =>
    let r := getBF F m
    let t := getBFTags F r.2
    some (mask r.1 (t.1.map fun x => decide (x = a)), t.2)

/-- `getInteriorVerticesByTag` (mesh.py:1649-1656). -/
def interiorByTag (F : Compute P) (m : Obj P T) (a : TagArg) : Option (List Nat) :=
  match a with
  | .one t =>
    if t = NO_BOUNDARY then some (List.range m.vertices.length)
    else (byTagV F m (.one t)).map fun r => complement m.vertices.length r.1
  | a => (byTagV F m a).map fun r => complement m.vertices.length r.1

/-- What `__getstate__` returns (mesh.py:1534-1558, meshCy.pyx:280-281). -/
structure State (P T : Type) where
  base : Nat × List P × List (List Nat) × Option T
  bv : Option (List Nat × List Int)
  be : Option (List Edge × List Int)
  bf : Option (List Face × List Int)

def getState (F : Compute P) (m : Obj P T) : State P T where
  base := (m.mdim, m.vertices, m.cells, m.transformer)
  bv := match m.bv with
    | some _ => some ((getBV F m).1, (getBVTags F m).1)
    | none => none
  be := match m.be with
    | some _ => some ((getBE F m).1, (getBETags F m).1)
    | none => none
  bf := match m.bf with
    | some _ => some ((getBF F m).1, (getBFTags F m).1)
    | none => none

/-- `__setstate__` of a new object (mesh.py:1560-1570, meshCy.pyx:283-288). -/
def setState (s : State P T) : Obj P T where
  mdim := s.base.1
  vertices := s.base.2.1
  cells := s.base.2.2.1
  transformer := s.base.2.2.2
  bv := s.bv.map Prod.fst
  bvTags := s.bv.map Prod.snd
  be := s.be.map Prod.fst
  beTags := s.be.map Prod.snd
  bf := s.bf.map Prod.fst
  bfTags := s.bf.map Prod.snd

/-- `copy` (mesh.py:1666-1680, meshCy.pyx:494-501). -/
def copy (m : Obj P T) : Obj P T where
  mdim := m.mdim
  vertices := m.vertices
  cells := m.cells
  transformer := m.transformer
  bv := m.bv
  bvTags := m.bvTags
  be := m.be
  beTags := m.beTags
  bf := m.bf
  bfTags := m.bfTags

/-- The datasets of a file (`HDF5write`, mesh.py:1829-1856). -/
structure Node (P : Type) where
  mdim : Nat
  vertices : List P
  cells : List (List Nat)
  bv : Option (List Nat)
  bvTags : Option (List Int)
  be : Option (List Edge)
  beTags : Option (List Int)
  bf : Option (List Face)
  bfTags : Option (List Int)

def hdf5write (m : Obj P T) : Node P :=
  ⟨m.mdim, m.vertices, m.cells, m.bv, m.bvTags, m.be, m.beTags, m.bf, m.bfTags⟩

/-- `HDF5read` (mesh.py:1858-1887): the attributes are assigned one after the other. -/
def hdf5read (F : Compute P) (n : Node P) : Option (Obj P T) := do
  let m : Obj P T := { mdim := n.mdim, vertices := n.vertices, cells := n.cells }
  let m := match n.bv with | some l => { m with bv := some l } | none => m
  let m ← match n.bvTags with | some t => setBVTags F m t | none => some m
  let m := match n.be with | some l => { m with be := some l } | none => m
  let m ← match n.beTags with | some t => setBETags F m t | none => some m
  let m := match n.bf with | some l => { m with bf := some l } | none => m
  match n.bfTags with | some t => setBFTags F m t | none => some m

/-- `invidx[idx] = np.arange(num_vertices)` (mesh.py:2073-2074). -/
def scatter (idx : List Nat) : List Nat :=
  idx.zipIdx.foldl (fun a p => a.set p.1 p.2) (List.replicate idx.length 0)

/-- `reorderVertices` (mesh.py:2072-2083). `none`: the attribute `_boundaryEdges` is missing. -/
def reorder [Inhabited P] (m : Obj P T) (idx : List Nat) : Option (Obj P T) :=
  let inv := fun v => (scatter idx).getD v 0
  let m1 : Obj P T := { m with vertices := idx.map fun i => m.vertices.getD i default }
  let m2 : Obj P T := { m1 with bv := m1.bv.map (·.map inv) }
  let m3 : Obj P T := { m2 with be := m2.be.map (·.map fun e => (inv e.1, inv e.2)) }
  let m4 : Option (Obj P T) := match m3.bf with
    | none => some m3
    | some _ => match m3.be with
      | none => none
      | some l => some { m3 with be := some (l.map fun e => (inv e.1, inv e.2)) }
  m4.map fun m => { m with cells := m.cells.map (·.map inv) }

/-- `hdeltaCy` for meshes of an interval (meshCy.pyx:1680-1690): h, delta, volume, hmin. -/
def quantities1D (vertices : List ℚ) (cells : List (Nat × Nat)) : ℚ × ℚ × ℚ × ℚ :=
  let hs := cells.map fun c => |vertices.getD c.2 0 - vertices.getD c.1 0|
  (hs.foldl max 0, 1, hs.foldl (· + ·) 0, hs.foldl min 100)

/-- `__eq__` (meshCy.pyx:380-401) of two meshes of an interval. -/
def eq1D (v : List ℚ) (c : List (Nat × Nat)) (v' : List ℚ) (c' : List (Nat × Nat)) : Bool :=
  v.length == v'.length && c.length == c'.length && v.head? == v'.head? &&
    quantities1D v c == quantities1D v' c'

/-- The points that `exportVTK` writes (mesh.py:1899-1900): coordinates in the last columns. -/
def vtkPoint (x : List ℚ) : List ℚ := List.replicate (3 - x.length) 0 ++ x

/-- `readMesh` keeps the columns up to the last one that is not constant (mesh.py:1963-1970). -/
def readDim (pts : List (List ℚ)) (dim : Nat) : Nat :=
  match (List.range dim).reverse.find? fun k =>
      decide (1 < ((pts.map fun p => p.getD k 0).dedup).length) with
  | some k => k + 1
  | none => dim

def readPoints (pts : List (List ℚ)) : List (List ℚ) :=
  pts.map fun p => p.take (readDim pts 3)

end PyNucleus.MeshObject
