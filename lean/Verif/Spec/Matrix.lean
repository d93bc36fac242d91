import Verif.Spec.CSR
import Mathlib.Algebra.BigOperators.Group.Finset.Basic
import Mathlib.Algebra.BigOperators.Ring.Finset

/-!
# What a sparse matrix means

The entry `(i, j)` of a CSR matrix is the sum of the stored values of row `i` in column `j`
(repeated columns add up).
-/

namespace PyNucleus.Spec

/-- Arrays of a CSR matrix together with its shape. -/
structure CSR (K : Type) where
  indptr : List Nat
  indices : List Nat
  data : List K
  numRows : Nat
  numCols : Nat

namespace CSR

variable {K : Type}

/-- Stored `(column, value)` pairs of row `i`. -/
def row (A : CSR K) (i : Nat) : List (Nat × K) := csrRow A.indptr (A.indices.zip A.data) i

/-- Matrix entry. -/
def entry [Add K] [Zero K] (A : CSR K) (i j : Nat) : K :=
  (((A.row i).filter fun e => e.1 = j).map Prod.snd).sum

/-- The arrays describe a matrix of the given shape. -/
structure Valid (A : CSR K) : Prop where
  indptr : ValidIndptr A.indptr A.numRows A.indices.length
  data : A.data.length = A.indices.length
  cols : ∀ j ∈ A.indices, j < A.numCols

/-- Every row is strictly increasing in the column. -/
def Sorted (A : CSR K) : Prop :=
  ∀ i, i < A.numRows → ((A.row i).map Prod.fst).Pairwise (· < ·)

end CSR

/-- `sum_j M i j * x_j` over the columns `j < n`. -/
def mulVec {K : Type} [NonUnitalNonAssocSemiring K] (n : Nat) (M : Nat → Nat → K) (x : List K)
    (i : Nat) : K :=
  ∑ j ∈ Finset.range n, M i j * x.getD j 0

/-- Inner product of the first `n` entries. -/
def dot {K : Type} [NonUnitalNonAssocSemiring K] (n : Nat) (x y : List K) : K :=
  ∑ i ∈ Finset.range n, x.getD i 0 * y.getD i 0

end PyNucleus.Spec
