import Verif.Spec.Matrix
import Mathlib.LinearAlgebra.Matrix.DotProduct
import Mathlib.LinearAlgebra.Matrix.Symmetric

/-! # Arrays as vectors -/

namespace PyNucleus.Spec

variable {K : Type}

/-- The first `n` entries of an array. -/
def toV [Zero K] (n : Nat) (l : List K) : Fin n → K := fun i => l.getD i 0

/-- The operator applies the matrix `M` to arrays of length `n`, whatever the output held before. -/
def Applies [Semiring K] (n : Nat) (A : List K → List K → List K) (M : Matrix (Fin n) (Fin n) K) : Prop :=
  ∀ x y : List K, x.length = n → y.length = n → (A x y).length = n ∧ toV n (A x y) = M.mulVec (toV n x)

/-- The operator returns arrays of length `n`. -/
def KeepsLength (n : Nat) (A : List K → List K → List K) : Prop :=
  ∀ x y : List K, x.length = n → y.length = n → (A x y).length = n

/-- Symmetric positive definite. -/
def SPD [Semiring K] [PartialOrder K] {n : Nat} (M : Matrix (Fin n) (Fin n) K) : Prop :=
  M.IsSymm ∧ ∀ v, v ≠ 0 → 0 < v ⬝ᵥ M.mulVec v

end PyNucleus.Spec
