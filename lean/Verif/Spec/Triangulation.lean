import Verif.Spec.Simplices
import Mathlib.Algebra.Order.Field.Basic

/-! Triangulations: vertices have coordinates `X v k`, cells are lists of vertex numbers. -/

namespace PyNucleus.Triangulation

variable {K : Type} [Field K] [LinearOrder K]

/-- Barycentric coordinates of a point of the cell `c`. -/
def Weights (c : List Nat) (w : Nat → K) : Prop := (∀ i, i < c.length → 0 ≤ w i) ∧ ∑ i ∈ Finset.range c.length, w i = 1

/-- The point with barycentric coordinates `w`. -/
def point (X : Nat → Nat → K) (c : List Nat) (w : Nat → K) (k : Nat) : K := ∑ i ∈ Finset.range c.length, w i * X (c.getD i 0) k

/-- The barycentric coordinate that belongs to the vertex `v`, zero if `v` is not a vertex of the cell. -/
def weightAt (c : List Nat) (w : Nat → K) (v : Nat) : K := ∑ i ∈ Finset.range c.length, if c.getD i 0 = v then w i else 0

/-- Cells meet only in faces spanned by common vertices: a point of two cells has the same barycentric coordinates in both, hence the ones that
belong to vertices of only one of the cells vanish. -/
def Conforming (X : Nat → Nat → K) (cells : List (List Nat)) : Prop :=
  ∀ c ∈ cells, ∀ c' ∈ cells, ∀ w w' : Nat → K, Weights c w → Weights c' w' → (∀ k, point X c w k = point X c' w' k) → ∀ v, weightAt c w v = weightAt c' w' v

/-- The union of the cells is the set `D`. -/
def Covers (X : Nat → Nat → K) (cells : List (List Nat)) (D : (Nat → K) → Prop) : Prop :=
  ∀ p, D p ↔ ∃ c ∈ cells, Refine.InSimplex (0 ≤ ·) X c p

/-- The points between two corners; coordinates beyond the length of the corners are zero. -/
def Between (lo hi : List K) (p : Nat → K) : Prop := ∀ k, lo.getD k 0 ≤ p k ∧ p k ≤ hi.getD k 0

/-- Twice the signed area of a triangle in the plane. -/
def area (X : Nat → Nat → K) (a b c : Nat) : K := (X b 0 - X a 0) * (X c 1 - X a 1) - (X b 1 - X a 1) * (X c 0 - X a 0)

/-- Six times the signed volume of a tetrahedron. -/
def volume (X : Nat → Nat → K) (a b c d : Nat) : K :=
  (X b 0 - X a 0) * ((X c 1 - X a 1) * (X d 2 - X a 2) - (X c 2 - X a 2) * (X d 1 - X a 1)) -
    (X b 1 - X a 1) * ((X c 0 - X a 0) * (X d 2 - X a 2) - (X c 2 - X a 2) * (X d 0 - X a 0)) +
      (X b 2 - X a 2) * ((X c 0 - X a 0) * (X d 1 - X a 1) - (X c 1 - X a 1) * (X d 0 - X a 0))

end PyNucleus.Triangulation
