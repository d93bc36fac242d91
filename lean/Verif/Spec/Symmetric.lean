import Verif.Spec.Matrix

/-! # What symmetric sparse storage means

The strictly lower triangle is stored by rows, the diagonal separately; the upper triangle is
the mirror image of the lower one. -/

namespace PyNucleus.Spec

structure SSS (K : Type) where
  indptr : List Nat
  indices : List Nat
  data : List K
  diagonal : List K
  n : Nat

namespace SSS

variable {K : Type}

/-- The strictly lower triangle as a matrix. -/
def lower (S : SSS K) : CSR K := ⟨S.indptr, S.indices, S.data, S.n, S.n⟩

def entry [Add K] [Zero K] (S : SSS K) (i j : Nat) : K :=
  if i = j then S.diagonal.getD i 0
  else if j < i then S.lower.entry i j else S.lower.entry j i

structure Valid (S : SSS K) : Prop where
  indptr : ValidIndptr S.indptr S.n S.indices.length
  data : S.data.length = S.indices.length
  diagonal : S.diagonal.length = S.n
  lower : ∀ i, i < S.n → ∀ e ∈ S.lower.row i, e.1 < i

end SSS

end PyNucleus.Spec
