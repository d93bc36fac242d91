import Mathlib.MeasureTheory.Measure.Haar.InnerProductSpace
import Mathlib.MeasureTheory.Integral.Bochner.Basic

/-!
Moments of kernels.
-/

namespace PyNucleus.Moments

open MeasureTheory

/-- The point `x + z`. -/
def shift {d : Nat} (x : Nat → ℝ) (z : EuclideanSpace ℝ (Fin d)) : Nat → ℝ := fun i =>
  if h : i < d then x i + z ⟨i, h⟩ else x i

/-- `∫ z_i z_j γ(x, x + z) dz`. -/
noncomputable def moment (d : Nat) (γ : (Nat → ℝ) → (Nat → ℝ) → ℝ) (x : Nat → ℝ) (i j : Fin d) : ℝ :=
  ∫ z : EuclideanSpace ℝ (Fin d), z i * z j * γ x (shift x z)

/-- `∫ γ(x, x + z) dz`. -/
noncomputable def mass (d : Nat) (γ : (Nat → ℝ) → (Nat → ℝ) → ℝ) (x : Nat → ℝ) : ℝ :=
  ∫ z : EuclideanSpace ℝ (Fin d), γ x (shift x z)

end PyNucleus.Moments
