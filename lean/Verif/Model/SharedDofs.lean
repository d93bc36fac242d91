import Verif.Model.SharedMesh
import Verif.Model.DoFMap

/-!
# Model of the degrees of freedom on a mesh interface

/repo/fem/PyNucleus_fem/meshOverlaps.pyx, `dofCheckerSet` (230-245), `dofCheckerArray` (247-262) and `sharedMesh.getDoFs` (469-607).

`mesh.dim` and `self.dim` are the same number.  The degree of freedom map is its table `dofs` (`cell2dof`), see Model/DoFMap.  What is built from the
list of dofs at the end is in Model/Overlap.
-/

namespace PyNucleus.SharedDofs

open PyNucleus.SharedMesh PyNucleus.SimplexMapper
open PyNucleus.DoFMap (Element)

/-- `dofCheckerSet.add`, 239-242: the set and the list. -/
def addSet (s : List Int × List Int) (dof : Int) : List Int × List Int := if 0 ≤ dof ∧ dof ∉ s.1 then (dof :: s.1, s.2 ++ [dof]) else s

/-- `dofCheckerArray.add`, 256-259: the flags and the list. -/
def addArray (s : List Bool × List Int) (dof : Int) : List Bool × List Int :=
  if 0 ≤ dof ∧ s.1.getD dof.toNat false = false then (s.1.set dof.toNat true, s.2 ++ [dof]) else s

/-- A sequence of calls of `add`, then `getDoFs`; `array` is the choice in 503-506. -/
def collect (array : Bool) (num : Nat) (adds : List Int) : List Int :=
  if array then (adds.foldl addArray (List.replicate num false, [])).2 else (adds.foldl addSet ([], [])).2

/-- Cell and local number of the dofs on a vertex, 512-514. -/
def vertexLocals (E : Element) (e : Nat × Nat) : List (Nat × Nat) := (List.range E.perVertex).map fun k => (e.1, E.perVertex * e.2 + k)

/-- Dofs on an edge, 530-541 and 566-577; `vpe` is `vertices_per_element`. -/
def edgeInner (E : Element) (vpe c edgeNo : Nat) (order : Int) : List (Nat × Nat) :=
  let l := (List.range E.perEdge).map fun k => (c, E.perVertex * vpe + E.perEdge * edgeNo + k)
  if order = 0 then l else l.reverse

/-- Dofs on an edge and its vertices, 519-541. -/
def edgeLocals (E : Element) (vpe : Nat) (e : Nat × Nat × Int) : List (Nat × Nat) :=
  let v := edgeVertices e.2.1 e.2.2
  vertexLocals E (e.1, v.1) ++ vertexLocals E (e.1, v.2) ++ edgeInner E vpe e.1 e.2.1 e.2.2

/-- Dofs on a face, its vertices and its edges, 548-582; `epe` is `edges_per_element`. -/
def faceLocals (E : Element) (vpe epe : Nat) (e : Nat × Nat × Int) : List (Nat × Nat) :=
  let v := faceVertices e.2.1 e.2.2
  let w := faceEdgesLocal e.2.1 e.2.2
  vertexLocals E (e.1, v.1) ++ vertexLocals E (e.1, v.2.1) ++ vertexLocals E (e.1, v.2.2) ++
  edgeInner E vpe e.1 w.1.1 w.2.1 ++ edgeInner E vpe e.1 w.1.2.1 w.2.2.1 ++ edgeInner E vpe e.1 w.1.2.2 w.2.2.2 ++
  (List.range E.perFace).map fun k => (e.1, E.perVertex * vpe + epe * E.perEdge + E.perFace * e.2.1 + k)

/-- `edges_per_element`, 493-500. -/
def edgesPerElement (dim : Nat) : Nat := if dim = 1 then 0 else if dim = 2 then 3 else 6

/-- The dofs of shared vertices, edges and faces, 507-582.  The tests of 507, 515 and 542 only skip loops without dofs. -/
def entityLocals (E : Element) (dim : Nat) (S : Shared) : List (Nat × Nat) :=
  S.vertices.flatMap (vertexLocals E) ++ S.edges.flatMap (edgeLocals E (dim + 1)) ++ S.faces.flatMap (faceLocals E (dim + 1) (edgesPerElement dim))

/-- Cells of the mesh for the overlap, 585-601. -/
def overlapMesh (cells : List (List Nat)) (S : Shared) : List (List Nat) :=
  if S.cells.length < cells.length then S.cells.map fun c => cells.getD c [] else cells

/-- The dofs of the cells of the overlap that are inside of the overlap, 608-614; `over` is the table of `overlapDM`. -/
def cellLocals (perElement : Nat) (over : List (List Int)) (S : Shared) : List (Nat × Nat) :=
  S.cells.zipIdx.flatMap fun p => ((List.range perElement).filter fun k => decide (0 ≤ (over.getD p.2 []).getD k (-1))).map fun k => (p.1, k)

/-- The list `dofs` of `getDoFs`, 469-616; `table` makes the table of dofs of a mesh (`type(dm)(overlap_mesh, …)`, 602-606). -/
def getDofs (E : Element) (dim perElement : Nat) (array : Bool) (table : List (List Nat) → List (List Int)) (cells : List (List Nat)) (num : Nat) (dofs : List (List Int)) (S : Shared) :
    Option (List Int) :=
  if 1 < E.perFace then none
  else some (collect array num ((entityLocals E dim S ++ cellLocals perElement (table (overlapMesh cells S)) S).map fun a => (dofs.getD a.1 []).getD a.2 (-1)))

end PyNucleus.SharedDofs
