import Verif.Model.CSR

/-!
# Model of `sort_indices` and `isSorted`

/repo/base/PyNucleus_base/CSR_LinearOperator_{SCALAR}.pxi 311-332, 452-481.
-/

namespace PyNucleus.CSR

open PyNucleus.Loops PyNucleus.Spec

variable {K : Type}

/-- Arrays and flag during `sort_indices`. -/
structure SortState (K : Type) where
  indices : List Nat
  data : List K
  wasSorted : Bool

/-- The inner `while` loop and the two writes after it, 463-469 (first branch).  `lo` is
`indptr[i]`. -/
def sink [Zero K] (lo j : Nat) (d : K) : Nat → SortState K → SortState K
  | kk, s =>
    if h : lo < kk ∧ j < s.indices.getD (kk - 1) 0 then
      sink lo j d (kk - 1)
        { indices := s.indices.set kk (s.indices.getD (kk - 1) 0)
          data := s.data.set kk (s.data.getD (kk - 1) 0)
          wasSorted := false }
    else { s with indices := s.indices.set kk j, data := s.data.set kk d }
  termination_by kk => kk
  decreasing_by omega

/-- Second branch (no values), 474-479. -/
def sinkIdx (lo j : Nat) : Nat → List Nat × Bool → List Nat × Bool
  | kk, s =>
    if h : lo < kk ∧ j < s.1.getD (kk - 1) 0 then
      sinkIdx lo j (kk - 1) (s.1.set kk (s.1.getD (kk - 1) 0), false)
    else (s.1.set kk j, s.2)
  termination_by kk => kk
  decreasing_by omega

/-- `sort_indices`, 452-481: the new arrays and the returned flag. -/
def sortIndices [Zero K] (indptr indices : List Nat) (data : List K) : SortState K :=
  let n := indptr.length - 1
  if indices.length = data.length then
    forRange 0 n ⟨indices, data, true⟩ fun s i =>
      forRange (indptr.getD i 0) (indptr.getD (i + 1) 0) s fun s jj =>
        sink (indptr.getD i 0) (s.indices.getD jj 0) (s.data.getD jj 0) jj s
  else
    let r := forRange 0 n (indices, true) fun s i =>
      forRange (indptr.getD i 0) (indptr.getD (i + 1) 0) s fun s jj =>
        sinkIdx (indptr.getD i 0) (s.1.getD jj 0) jj s
    ⟨r.1, data, r.2⟩

/-- The method `sort_indices`, 311-313. -/
def sortMatrix [Zero K] (A : CSR K) : CSR K :=
  let s := sortIndices A.indptr A.indices A.data
  { A with indices := s.indices, data := s.data }

/-- Inner loop of `isSorted`, 326-331. -/
def isSortedRow (p : Nat) : List Nat → Bool
  | [] => true
  | q :: t => if q ≤ p then false else isSortedRow q t

/-- `isSorted`, 315-332 (and linear_operators.pyx 252-269 for graphs). -/
def isSorted (indptr indices : List Nat) : Bool :=
  let nnz := indptr.getD (indptr.length - 1) 0
  forRange 0 (indptr.length - 1) true fun ok i =>
    if !ok then false  -- returned False in an earlier row
    else
      let s := indptr.getD i 0
      if s = nnz then true
      else isSortedRow (indices.getD s 0)
        ((indices.drop (indptr.getD i 0 + 1)).take (indptr.getD (i + 1) 0 - (indptr.getD i 0 + 1)))

end PyNucleus.CSR
