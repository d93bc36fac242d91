import Verif.Model.ShapeFunctions
import Verif.Model.Refine
import Mathlib.Algebra.Field.Rat
import Mathlib.Algebra.Order.Ring.Rat

/-!
# Refined meshes and numberings of nodes

Points are described by their weights with respect to the vertices of the coarse mesh: `X w v` is the weight of the coarse vertex `v` in the fine vertex `w`.
-/

namespace PyNucleus.Restriction

open PyNucleus.ShapeFunctions

/-- Vertices of the sub-simplices in barycentric coordinates of the simplex: the simplex itself, or its uniform refinement with diagonal `k`. -/
def subCells (dim sub k : Nat) : List (List (List ℚ)) :=
  let mid (a b : List ℚ) : List ℚ := List.zipWith (fun x y => (x + y) / 2) a b
  match dim, sub with
  | 1, 2 => [[[1, 0], mid [1, 0] [0, 1]], [mid [1, 0] [0, 1], [0, 1]]]
  | 2, 4 => Refine.children2 [1, 0, 0] [0, 1, 0] [0, 0, 1] (mid [1, 0, 0] [0, 1, 0]) (mid [0, 1, 0] [0, 0, 1]) (mid [1, 0, 0] [0, 0, 1])
  | 3, 8 => Refine.children3 k [1, 0, 0, 0] [0, 1, 0, 0] [0, 0, 1, 0] [0, 0, 0, 1] (mid [1, 0, 0, 0] [0, 1, 0, 0]) (mid [1, 0, 0, 0] [0, 0, 1, 0])
      (mid [1, 0, 0, 0] [0, 0, 0, 1]) (mid [0, 1, 0, 0] [0, 0, 1, 0]) (mid [0, 1, 0, 0] [0, 0, 0, 1]) (mid [0, 0, 1, 0] [0, 0, 0, 1])
  | _, _ => [nodes ℚ 1 dim]

/-- Barycentric coordinates in the simplex of the point with coordinates `lam` in the sub-simplex with vertices `s`. -/
def outer {K : Type} [Field K] (dim : Nat) (s : List (List ℚ)) (lam : List K) : List K :=
  (List.range (dim + 1)).map fun k => ((List.range (dim + 1)).map fun i => lam.getD i 0 * (((s.getD i []).getD k 0 : ℚ) : K)).sum

/-- Weight of `v` in the point with barycentric coordinates `lam` in the cell `c`. -/
def weight {K : Type} [Field K] (X : Nat → Nat → ℚ) (c : List Nat) (lam : List K) (v : Nat) : K := ((c.zip lam).map fun p => p.2 * (X p.1 v : K)).sum

/-- Weights of the vertices of the coarse mesh. -/
def unit (w v : Nat) : ℚ := if w = v then 1 else 0

/-- `fine` refines `coarse`: every coarse cell is a simplex with vertices below `nv`, the vertices of the fine cells `sub * i, …, sub * i + sub - 1` are where
uniform refinement of the coarse cell `i` puts them, and different fine vertices are at different points. -/
structure Refined (dim sub nv : Nat) (coarse fine : List (List Nat)) (X : Nat → Nat → ℚ) : Prop where
  simplex : ∀ c ∈ coarse, c.length = dim + 1 ∧ c.Nodup ∧ ∀ v ∈ c, v < nv
  children : ∀ i, i < coarse.length → ∃ k, k < 3 ∧ ∀ q, q < sub → (fine.getD (sub * i + q) []).length = dim + 1 ∧
    ∀ l, l < dim + 1 → ∀ v, v < nv →
      X ((fine.getD (sub * i + q) []).getD l 0) v = weight unit (coarse.getD i []) (((subCells dim sub k).getD q []).getD l []) v
  distinct : ∀ a ∈ fine, ∀ b ∈ fine, ∀ w ∈ a, ∀ w' ∈ b, (∀ v, v < nv → X w v = X w' v) → w = w'

/-- A table of dofs numbers the nodes: dofs are below `num`, and two local dofs, one of which is not on the boundary, have the same number iff they are at the same
point. -/
structure Numbers (p dim nv : Nat) (X : Nat → Nat → ℚ) (cells : List (List Nat)) (dofs : List (List Int)) (num : Nat) : Prop where
  rows : ∀ i, i < cells.length → (dofs.getD i []).length = (nodes ℚ p dim).length
  below : ∀ i, i < cells.length → ∀ I, I < (nodes ℚ p dim).length → (dofs.getD i []).getD I 0 < num
  same : ∀ i, i < cells.length → ∀ I, I < (nodes ℚ p dim).length → ∀ j, j < cells.length → ∀ J, J < (nodes ℚ p dim).length → 0 ≤ (dofs.getD i []).getD I 0 →
    ((dofs.getD i []).getD I 0 = (dofs.getD j []).getD J 0 ↔
      ∀ v, v < nv → weight X (cells.getD i []) ((nodes ℚ p dim).getD I []) v = weight X (cells.getD j []) ((nodes ℚ p dim).getD J []) v)

/-- Fine nodes on the boundary: the coarse nodes on the smallest face of the coarse cell that contains the fine node are on the boundary too. -/
def BoundaryInherited (pc pf dim sub nv : Nat) (coarse fine : List (List Nat)) (X : Nat → Nat → ℚ) (cdofs fdofs : List (List Int)) : Prop :=
  ∀ i, i < coarse.length → ∀ q, q < sub → ∀ J, J < (nodes ℚ pf dim).length → (fdofs.getD (sub * i + q) []).getD J 0 < 0 →
    ∀ I, I < (nodes ℚ pc dim).length →
      (∀ v, v < nv → weight unit (coarse.getD i []) ((nodes ℚ pc dim).getD I []) v ≠ 0 →
        weight X (fine.getD (sub * i + q) []) ((nodes ℚ pf dim).getD J []) v ≠ 0) →
      (cdofs.getD i []).getD I 0 < 0

/-- The values of the local dofs of cell `i`; functions vanish at the nodes on the boundary. -/
def localValues {K : Type} [Zero K] (p dim : Nat) (dofs : List (List Int)) (u : Nat → K) (i : Nat) : List K :=
  (List.range (nodes ℚ p dim).length).map fun I => if 0 ≤ (dofs.getD i []).getD I 0 then u ((dofs.getD i []).getD I 0).toNat else 0

end PyNucleus.Restriction
