import Verif.Model.DoFMap
import Mathlib.Algebra.Module.Basic
import Mathlib.Algebra.Field.Basic

/-! # Where degrees of freedom are -/

namespace PyNucleus.DoFMap

/-- Position of the `j`-th of `n` local dofs on an entity, counted from the smaller vertex of an edge. -/
def position (k : Key) (rev : Bool) (n j : Nat) : Nat :=
  match k, rev with
  | .edge _ _, true => n - 1 - j
  | _, _ => j

/-- The node of each local dof of cell `i`: entity, and position on the entity. -/
def nodesOf (E : Element) (dim i : Nat) (c : List Nat) : List (Key × Nat) :=
  (E.entities dim i c).flatMap fun e => (List.range (E.count e.1)).map fun j => (e.1, position e.1 e.2 (E.count e.1) j)

/-- The node of local dof `l` of cell `i`. -/
def nodeAt (E : Element) (dim : Nat) (cells : List (List Nat)) (i l : Nat) : Option (Key × Nat) := (nodesOf E dim i (cells.getD i []))[l]?

/-- Entry of the table of dofs. -/
def Map.entry (m : Map) (i l : Nat) : Option Int := (m.dofs.getD i [])[l]?

/-- Number of dofs of a cell: vertices, edges, faces, interior. -/
def Element.perElement (E : Element) (dim : Nat) : Nat :=
  (dim + 1) * E.perVertex + (if dim = 3 then 6 else if dim = 2 then 3 else 0) * E.perEdge + (if dim = 3 then 4 else 0) * E.perFace + E.perCell

/-- All entities of all cells, each once for each cell that contains it. -/
def allEntities (dim : Nat) (cells : List (List Nat)) : List Key :=
  (List.range cells.length).flatMap fun i => (entities dim i (cells.getD i [])).map Prod.fst

/-- What the numbering needs from the mesh: boundary entities are listed once; if there are dofs on faces, then there is one on each, and a
face belongs to at most two cells, a boundary face to one. -/
structure Admissible (E : Element) (dim : Nat) (cells : List (List Nat)) (bnd : List Key) : Prop where
  nodup : bnd.Nodup
  perFace : E.perFace ≤ 1
  faces : 0 < E.perFace → ∀ k, k.isFace = true → (allEntities dim cells).count k ≤ if k ∈ bnd then 1 else 2

/-- No boundary edge with several dofs is traversed backwards. -/
def Forward (E : Element) (dim : Nat) (cells : List (List Nat)) (bnd : List Key) : Prop :=
  E.perEdge ≤ 1 ∨ ∀ i, i < cells.length → ∀ e ∈ entities dim i (cells.getD i []), e.2 = true → e.1 ∉ bnd

/-- Lagrange elements: dofs and the barycentric coordinates of the nodes (`nodes` of P1_DoFMap, P2_DoFMap, P3_DoFMap), in dimension 1, 2, 3. -/
structure Lagrange (K : Type) where
  element : Element
  dim : Nat
  nodes : List (List K)

section
variable (K : Type) [Field K]

/-- 1885-1912. -/
def p1 (dim : Nat) : Lagrange K where
  element := ⟨1, 0, 0, 0⟩
  dim := dim
  nodes := (List.range (dim + 1)).map fun k => (List.range (dim + 1)).map fun j => if j = k then 1 else 0

/-- 1984-1991. -/
def p2_1 : Lagrange K := ⟨⟨1, 0, 0, 1⟩, 1, [[1, 0], [0, 1], [1/2, 1/2]]⟩

/-- 1992-2005. -/
def p2_2 : Lagrange K := ⟨⟨1, 1, 0, 0⟩, 2, [[1, 0, 0], [0, 1, 0], [0, 0, 1], [1/2, 1/2, 0], [0, 1/2, 1/2], [1/2, 0, 1/2]]⟩

/-- 2006-2027. -/
def p2_3 : Lagrange K := ⟨⟨1, 1, 0, 0⟩, 3, [[1, 0, 0, 0], [0, 1, 0, 0], [0, 0, 1, 0], [0, 0, 0, 1], [1/2, 1/2, 0, 0], [0, 1/2, 1/2, 0], [1/2, 0, 1/2, 0],
  [1/2, 0, 0, 1/2], [0, 1/2, 0, 1/2], [0, 0, 1/2, 1/2]]⟩

/-- 2110-2119. -/
def p3_1 : Lagrange K := ⟨⟨1, 0, 0, 2⟩, 1, [[1, 0], [0, 1], [2/3, 1/3], [1/3, 2/3]]⟩

/-- 2120-2141. -/
def p3_2 : Lagrange K := ⟨⟨1, 2, 0, 1⟩, 2, [[1, 0, 0], [0, 1, 0], [0, 0, 1], [2/3, 1/3, 0], [1/3, 2/3, 0], [0, 2/3, 1/3], [0, 1/3, 2/3], [1/3, 0, 2/3], [2/3, 0, 1/3],
  [1/3, 1/3, 1/3]]⟩

/-- 2142-2183. -/
def p3_3 : Lagrange K := ⟨⟨1, 2, 1, 0⟩, 3, [[1, 0, 0, 0], [0, 1, 0, 0], [0, 0, 1, 0], [0, 0, 0, 1], [2/3, 1/3, 0, 0], [1/3, 2/3, 0, 0], [0, 2/3, 1/3, 0], [0, 1/3, 2/3, 0],
  [1/3, 0, 2/3, 0], [2/3, 0, 1/3, 0], [2/3, 0, 0, 1/3], [1/3, 0, 0, 2/3], [0, 2/3, 0, 1/3], [0, 1/3, 0, 2/3], [0, 0, 2/3, 1/3], [0, 0, 1/3, 2/3],
  [1/3, 1/3, 1/3, 0], [1/3, 1/3, 0, 1/3], [0, 1/3, 1/3, 1/3], [1/3, 0, 1/3, 1/3]]⟩

/-- The Lagrange elements of the library. -/
def lagrange : List (Lagrange K) := [p1 K 1, p1 K 2, p1 K 3, p2_1 K, p2_2 K, p2_3 K, p3_1 K, p3_2 K, p3_3 K]

variable {K} {M : Type} [AddCommGroup M] [Module K M]

/-- The point with barycentric coordinates `lam` in the cell with vertices `c`. -/
def point (x : Nat → M) (c : List Nat) (lam : List K) : M := ((c.zip lam).map fun p => p.2 • x p.1).sum
end

end PyNucleus.DoFMap
