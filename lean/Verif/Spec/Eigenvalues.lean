import Verif.Model.Eigenvalues

/-! # Tridiagonal matrices and combinations of vectors -/

namespace PyNucleus.Eigenvalues

open Matrix Finset

variable {n : Nat}

/-- The symmetric matrix with diagonal `H[1, :]` and off-diagonal `H[0, 1:]`. -/
def tri (H : Nat → Nat → ℝ) (i j : Nat) : ℝ :=
  if i = j then H 1 i else if j = i + 1 then H 0 j else if i = j + 1 then H 0 i else 0

/-- `Σ_{j < k} y_j V_j`. -/
def combo (V : Nat → Vec n) (k : Nat) (y : Nat → ℝ) : Vec n := ∑ j ∈ range k, y j • V j

/-- Orthonormal with respect to `M`. -/
def Orthonormal (M : Mat n) (V : Nat → Vec n) (k : Nat) : Prop :=
  ∀ i < k, ∀ j < k, V i ⬝ᵥ M *ᵥ V j = if i = j then 1 else 0

end PyNucleus.Eigenvalues
