import Verif.Spec.Matrix
import Verif.Spec.Symmetric
import Verif.Model.Transpose
import Mathlib.Algebra.Field.Defs

/-! # What the coarse operator R A R^T means -/

namespace PyNucleus.Spec

variable {K : Type}

/-- `(R A R^T)_ij` with `n` inner indices. -/
def triple [NonUnitalNonAssocSemiring K] (n : Nat) (R A : Nat → Nat → K) (i j : Nat) : K :=
  ∑ k ∈ Finset.range n, ∑ m ∈ Finset.range n, R i k * A k m * R j m

/-- The matrix of a `restrictionOp`: identity plus one half for every graph entry. -/
def restriction [Field K] (G : PyNucleus.CSR.Graph) (i j : Nat) : K :=
  (if i = j then 1 else 0) + ((csrRow G.indptr G.indices i).count j : K) * (1 / 2)

/-- Position `(i, j)` is available in symmetric storage. -/
def SSS.HasEntry (S : SSS K) (i j : Nat) : Prop :=
  i = j ∨ (j < i ∧ j ∈ (S.lower.row i).map Prod.fst) ∨ (i < j ∧ i ∈ (S.lower.row j).map Prod.fst)

end PyNucleus.Spec
