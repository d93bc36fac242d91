/-! # Reading compressed rows

Small specification of what a pair of arrays `(indptr, xs)` in CSR layout means. -/

namespace PyNucleus.Spec

/-- The entries `xs[indptr[i] : indptr[i+1]]` of row `i`. -/
def csrRow {α : Type} (indptr : List Nat) (xs : List α) (i : Nat) : List α :=
  (xs.drop (indptr.getD i 0)).take (indptr.getD (i + 1) 0 - indptr.getD i 0)

/-- `indptr` is a valid row pointer array for `n` rows and `nnz` entries: it starts at zero,
ends at `nnz` and never decreases. -/
structure ValidIndptr (indptr : List Nat) (n nnz : Nat) : Prop where
  length : indptr.length = n + 1
  first : indptr[0]? = some 0
  last : indptr[n]? = some nnz
  mono : ∀ i, i < n → indptr.getD i 0 ≤ indptr.getD (i + 1) 0

end PyNucleus.Spec
