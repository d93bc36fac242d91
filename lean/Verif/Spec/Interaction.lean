import Mathlib.Algebra.BigOperators.Group.Finset.Basic
import Mathlib.Algebra.Order.Field.Basic

/-! Points of simplices and distances of points. -/

namespace PyNucleus.Interaction

variable {K : Type} [Field K] [LinearOrder K]

/-- `p` is a point of the simplex with the `n` vertices `s 0, …, s (n - 1)`. -/
def InHull (n : Nat) (s : Nat → Nat → K) (p : Nat → K) : Prop :=
  ∃ w : Nat → K, (∀ i, i < n → 0 ≤ w i) ∧ (∑ i ∈ Finset.range n, w i) = 1 ∧ ∀ j, p j = ∑ i ∈ Finset.range n, w i * s i j

/-- Square of the Euclidean distance. -/
def euclid2 (dim : Nat) (x y : Nat → K) : K := ∑ j ∈ Finset.range dim, (x j - y j) ^ 2

/-- The points lie within distance `√h2` of each other in the maximum norm. -/
def WithinMax (dim : Nat) (h2 : K) (x y : Nat → K) : Prop := ∀ j, j < dim → (x j - y j) ^ 2 ≤ h2

/-- Product of a matrix with a vector. -/
def apply (dim : Nat) (A : Nat → Nat → K) (z : Nat → K) : Nat → K := fun i => ∑ j ∈ Finset.range dim, A i j * z j

/-- Square root. -/
def IsSqrt (sqrt : K → K) : Prop := ∀ a, 0 ≤ a → 0 ≤ sqrt a ∧ sqrt a ^ 2 = a

/-- The point of the segment from vertex `a` to vertex `b` with parameter `c`. -/
def onSegment (s : Nat → Nat → K) (a b : Nat) (c : K) : Nat → K := fun k => s a k + c * (s b k - s a k)

/-- The point of a simplex with `n` vertices and given barycentric coordinates. -/
def combine (n : Nat) (s : Nat → Nat → K) (w : Nat → K) : Nat → K := fun k => ∑ i ∈ Finset.range n, w i * s i k

/-- Barycentric coordinates of the point with coordinates `w` in the simplex whose vertices have the columns of `A` as coordinates. -/
def image (n : Nat) (A : Nat → Nat → K) (w : Nat → K) : Nat → K := fun i => ∑ j ∈ Finset.range n, A i j * w j

/-- Weights of a point of a simplex. -/
def Weights (n : Nat) (w : Nat → K) : Prop := (∀ i, i < n → 0 ≤ w i) ∧ ∑ i ∈ Finset.range n, w i = 1

/-- Two parts of a simplex, given by the coordinates of their vertices, have no common interior point. -/
def Apart (n : Nat) (A B : Nat → Nat → K) : Prop :=
  ∀ u v : Nat → K, (∀ i, i < n → 0 < u i) → (∀ i, i < n → 0 < v i) → ∑ i ∈ Finset.range n, u i = 1 → ∑ i ∈ Finset.range n, v i = 1 →
    ∃ i, i < n ∧ image n A u i ≠ image n B v i

end PyNucleus.Interaction
