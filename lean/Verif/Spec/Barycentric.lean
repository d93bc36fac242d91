import Mathlib.Algebra.BigOperators.Group.Finset.Basic
import Mathlib.Algebra.Field.Basic

/-! Gradients of barycentric coordinates. -/

namespace PyNucleus.Simplex

/-- `g i` is the gradient of the `i`-th barycentric coordinate of the simplex of dimension `d` with vertices `x 0, …, x d` in space of dimension
`n`: the coordinate is affine, one at vertex `i` and zero at the other vertices. -/
def IsGradient {K : Type} [Field K] (d n : Nat) (x g : Nat → Nat → K) : Prop :=
  ∀ i j k, i ≤ d → j ≤ d → k ≤ d → ∑ c ∈ Finset.range n, g i c * (x j c - x k c) = (if i = j then 1 else 0) - if i = k then 1 else 0

/-- Inner product of two vectors. -/
def inner {K : Type} [Field K] (n : Nat) (a b : Nat → K) : K := ∑ c ∈ Finset.range n, a c * b c

end PyNucleus.Simplex
