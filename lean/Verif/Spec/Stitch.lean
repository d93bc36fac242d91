import Verif.Model.Stitch

/-!
# Subdomain meshes and what stitching them together should give

A mesh is described by its points, so that nothing depends on the numbers of vertices.
-/

namespace PyNucleus.Stitch

open PyNucleus.SharedMesh PyNucleus.ExtendOverlap PyNucleus.SimplexMapper

variable {α : Type}

/-- The points of a cell. -/
def points (V : List α) (c : List Nat) : List (Option α) := c.map fun v => V[v]?

/-- Points of a cell of a subdomain. -/
def pts (meshes : List (SubMesh α)) (j k : Nat) : List (Option α) := points (mesh meshes j).vertices (row (mesh meshes j).cells k)

/-- No vertex twice, cells and boundary made of vertices of the mesh. -/
structure Good (M : SubMesh α) : Prop where
  nodup : M.vertices.Nodup
  cells : ∀ c ∈ M.cells, ∀ v ∈ c, v < M.vertices.length
  bverts : ∀ b ∈ M.bverts, b.1 < M.vertices.length
  bedges : ∀ b ∈ M.bedges, b.1.1 < M.vertices.length ∧ b.1.2 < M.vertices.length
  bfaces : ∀ b ∈ M.bfaces, b.1.1 < M.vertices.length ∧ b.1.2.1 < M.vertices.length ∧ b.1.2.2 < M.vertices.length

/-- The entries of an interface are vertices, edges and faces of cells. -/
structure ValidShared (dim : Nat) (cells : List (List Nat)) (S : Shared) : Prop where
  vertices : ∀ v ∈ S.vertices, v.2 < (row cells v.1).length
  edges : 2 ≤ dim → ∀ e ∈ S.edges, (edgeVertices e.2.1 e.2.2).1 < (row cells e.1).length ∧ (edgeVertices e.2.1 e.2.2).2 < (row cells e.1).length
  faces : 3 ≤ dim → ∀ f ∈ S.faces, (faceVertices f.2.1 f.2.2).1 < (row cells f.1).length ∧ (faceVertices f.2.1 f.2.2).2.1 < (row cells f.1).length ∧
    (faceVertices f.2.1 f.2.2).2.2 < (row cells f.1).length

/-- Interfaces of a mesh that was partitioned: both sides list the same points, and a vertex that a subdomain shares with an earlier one is in an interface with an
earlier one. -/
structure Interfaces (dim : Nat) (meshes : List (SubMesh α)) (n : Nat) (interfaces : Nat → Nat → Option Shared) : Prop where
  same : ∀ i < n, ∀ j < i, ∀ S, interfaces i j = some S → ∃ S', interfaces j i = some S' ∧ ValidShared dim (mesh meshes i).cells S ∧ ValidShared dim (mesh meshes j).cells S' ∧
    points (mesh meshes i).vertices (interfaceVertices dim (mesh meshes i).cells S) = points (mesh meshes j).vertices (interfaceVertices dim (mesh meshes j).cells S')
  complete : ∀ i < n, ∀ j < i, ∀ (v : Nat) (x : α), (mesh meshes i).vertices[v]? = some x → x ∈ (mesh meshes j).vertices →
    ∃ j' < i, ∃ S, interfaces i j' = some S ∧ v ∈ interfaceVertices dim (mesh meshes i).cells S

/-- Overlaps of a mesh that was partitioned: both sides list the same cells, no cell is twice in a subdomain, and a cell that a subdomain shares with an earlier one is in
an overlap with an earlier one. -/
structure Overlaps (meshes : List (SubMesh α)) (n : Nat) (overlaps : Nat → Nat → Option (List Nat)) : Prop where
  same : ∀ i < n, ∀ j < i, ∀ c, overlaps i j = some c → ∃ c', overlaps j i = some c' ∧ c.map (pts meshes i) = c'.map (pts meshes j) ∧
    (∀ k ∈ c, k < (mesh meshes i).cells.length) ∧ ∀ k ∈ c', k < (mesh meshes j).cells.length
  complete : ∀ i < n, ∀ j < i, ∀ k < (mesh meshes i).cells.length, ∀ k' < (mesh meshes j).cells.length, pts meshes i k = pts meshes j k' → ∃ j' < i, ∃ c, overlaps i j' = some c ∧ k ∈ c
  distinct : ∀ i < n, ∀ k < (mesh meshes i).cells.length, ∀ k' < (mesh meshes i).cells.length, pts meshes i k = pts meshes i k' → k = k'

/-- A vertex that a subdomain shares with an earlier one is in a cell that it shares with an earlier one. -/
def VerticesInOverlaps (meshes : List (SubMesh α)) (n : Nat) (overlaps : Nat → Nat → Option (List Nat)) : Prop :=
  ∀ i < n, ∀ j < i, ∀ (v : Nat) (x : α), (mesh meshes i).vertices[v]? = some x → x ∈ (mesh meshes j).vertices →
    ∃ j' < i, ∃ c, overlaps i j' = some c ∧ ∃ k ∈ c, v ∈ row (mesh meshes i).cells k

/-- The union of the subdomains: every vertex once; `lookup` gives for a cell all the cells of subdomains that have its points. -/
structure Stitched (meshes : List (SubMesh α)) (n : Nat) (s : State α) : Prop where
  nodup : s.vertices.Nodup
  mem : ∀ x, x ∈ s.vertices ↔ ∃ j < n, x ∈ (mesh meshes j).vertices
  lookup_len : s.lookup.length = s.cells.length
  sound : ∀ (c : Nat) (p : Nat × Nat), p ∈ s.lookup.getD c [] → c < s.cells.length ∧ p.1 < n ∧ p.2 < (mesh meshes p.1).cells.length ∧ points s.vertices (row s.cells c) = pts meshes p.1 p.2
  all : ∀ j < n, ∀ k < (mesh meshes j).cells.length, ∃ c, (j, k) ∈ s.lookup.getD c []
  once : s.lookup.flatten.Nodup

end PyNucleus.Stitch
