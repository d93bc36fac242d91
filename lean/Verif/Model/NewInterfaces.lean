import Mathlib.Data.List.Dedup
import Mathlib.Order.Defs.LinearOrder

/-!
# Boundary and interfaces of the new subdomains in a repartitioning

Models fem/PyNucleus_fem/repartitioner.pyx: `interfaceProcessor.setBoundaryInformation` (1268-1490), and the selection of the shared
edges and vertices in `localInterfaceManager.removeBoundary` (911-964).

Simplifications: a vertex, an edge or a face is an element of a type with decidable equality (a number, or its sorted vertices); sets
and dictionaries are lists in some order; the surroundings of a vertex in two dimensions are given by the list of the subdomains of
the cells at the vertex, in cyclic order, such that neighbours share an edge.
-/

namespace PyNucleus.NewInterfaces

/-- mesh.py 33. -/
def PHYSICAL : Int := 0
/-- mesh.py 36. -/
def INTERIOR_NONOVERLAPPING : Int := -1

variable {β : Type} [DecidableEq β]

/-- One turn of the loops over interfaces (1360-1372, 1384-1395, 1429-1439) and over propagated tags (1407-1417, 1467-1476): remove the
candidate and write it with the tag; a `KeyError` is ignored. -/
def take (st : List β × List (β × Int)) (x : β × Int) : List β × List (β × Int) :=
  if x.1 ∈ st.1 then (st.1.erase x.1, st.2 ++ [x]) else st

/-- Such a loop. -/
def mark (xs : List (β × Int)) (st : List β × List (β × Int)) : List β × List (β × Int) := xs.foldl take st

/-- All candidates that are left are physical (1373-1379, 1420-1425, 1478-1481). -/
def finish (st : List β × List (β × Int)) : List (β × Int) := st.2 ++ st.1.map fun x => (x, PHYSICAL)

/-- The entries of an interface with the tag that they get. -/
def interior (xs : List β) : List (β × Int) := xs.map fun x => (x, INTERIOR_NONOVERLAPPING)

/-- Boundary simplices of codimension one with their tags: edges in two dimensions, faces in three dimensions (1360-1379). -/
def topTags (cands ifaces : List β) : List (β × Int) := finish (mark (interior ifaces) (cands, []))

/-- `d[k] = v` for a dictionary that remembers the order of the keys. -/
def dictSet : List (β × Int) → β → Int → List (β × Int)
  | [], k, v => [(k, v)]
  | (k', v') :: d, k, v => if k' = k then (k', v) :: d else (k', v') :: dictSet d k v

/-- Propagation to the simplices of one dimension less: `boundaryEdgeTagsDict` (1398-1406), `boundaryVertexTagsDict` in two dimensions
(1445-1450).  Each entry has the list of its sub-simplices and its tag. -/
def lastDict (l : List (List β × Int)) : List (β × Int) :=
  l.foldl (fun d s => s.1.foldl (fun d k => dictSet d k s.2) d) []

/-- One entry of `boundaryVertexTagsDict` in three dimensions (1454-1464): the larger tag. -/
def dictMax (d : List (β × Int)) (k : β) (v : Int) : List (β × Int) :=
  match d.lookup k with
  | some old => dictSet d k (max v old)
  | none => dictSet d k v

/-- `boundaryVertexTagsDict` in three dimensions (1451-1464). -/
def maxDict (l : List (List β × Int)) : List (β × Int) :=
  l.foldl (fun d s => s.1.foldl (fun d k => dictMax d k s.2) d) []

/-- Boundary simplices of higher codimension with their tags (1381-1425, 1427-1481). -/
def subTags (dict : List (β × Int)) (cands ifaces : List β) : List (β × Int) :=
  finish (mark dict (mark (interior ifaces) (cands, [])))

/-- Is a vertex kept as shared vertex in two dimensions (959-964)?  `around` are the subdomains of the cells at the vertex. -/
def kept2D (around : List Nat) : Bool := 3 < around.dedup.length

/-- Is an edge kept in three dimensions (940-945)? -/
def keptEdge3D (around : List Nat) : Bool := 3 < around.dedup.length

/-- Is a vertex kept in three dimensions (946-951)? -/
def keptVertex3D (around : List Nat) : Bool := 4 < around.dedup.length

end PyNucleus.NewInterfaces
