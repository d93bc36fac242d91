import Mathlib.Analysis.Calculus.Deriv.Basic
import Mathlib.Analysis.Real.Sqrt
import Verif.Spec.Interaction

/-! Vector fields on ℝᵈ and their divergence. -/

namespace PyNucleus.Kernels

/-- The vector field `F` on ℝᵈ has divergence `v` at `y`: the partial derivatives of its components exist and have sum `v`. -/
def HasDivergence (d : Nat) (F : (Nat → ℝ) → Nat → ℝ) (y : Nat → ℝ) (v : ℝ) : Prop :=
  ∃ g : Nat → ℝ, (∀ i, i < d → HasDerivAt (fun t => F (Function.update y i t) i) (g i) (y i)) ∧ ∑ i ∈ Finset.range d, g i = v

/-- Euclidean distance. -/
noncomputable def distance (d : Nat) (x y : Nat → ℝ) : ℝ := √(Interaction.euclid2 d x y)

/-- The field of strength `Γ x z` in the direction from `x` to `z`. -/
noncomputable def flux (d : Nat) (Γ : (Nat → ℝ) → (Nat → ℝ) → ℝ) (x z : Nat → ℝ) (i : Nat) : ℝ := Γ x z * ((z i - x i) / distance d x z)

end PyNucleus.Kernels
