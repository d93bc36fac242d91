import Mathlib.Analysis.Calculus.Deriv.Basic
import Mathlib.Algebra.BigOperators.Group.Finset.Basic

/-!
Second derivatives and the Laplacian of functions of a point.
-/

namespace PyNucleus.Spec

/-- The function `u` has the second partial derivative `v` with respect to the coordinate `i` at `x`: it is differentiable
along the coordinate near `x`, and its derivative is differentiable at `x`. -/
def HasSecond (u : (Nat → ℝ) → ℝ) (i : Nat) (x : Nat → ℝ) (v : ℝ) : Prop :=
  ∃ g : ℝ → ℝ, (∀ᶠ t in nhds (x i), HasDerivAt (fun t => u (Function.update x i t)) (g t) t) ∧ HasDerivAt g v (x i)

/-- The sum of the second partial derivatives for the first `d` coordinates. -/
def HasLaplacian (d : Nat) (u : (Nat → ℝ) → ℝ) (x : Nat → ℝ) (L : ℝ) : Prop :=
  ∃ v : Nat → ℝ, (∀ i < d, HasSecond u i x (v i)) ∧ ∑ i ∈ Finset.range d, v i = L

end PyNucleus.Spec
