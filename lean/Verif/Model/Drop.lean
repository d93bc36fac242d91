import Verif.Model.Transpose

/-!
# Model of dropping entries

/repo/base/PyNucleus_base/CSR_LinearOperator_{SCALAR}.pxi 368-395 (`eliminate_zeros`) and
/repo/base/PyNucleus_base/sparseGraph.pyx 62-152 (`dropRowsInPlace`, `dropColsInPlace`).
-/

namespace PyNucleus.Drop

open PyNucleus.Loops PyNucleus.Spec PyNucleus.CSR

variable {K : Type}

/-- Write position and the two arrays. -/
abbrev Buf (K : Type) := Nat × List Nat × List K

/-- `indices[p] = j; data[p] = d; p += 1`. -/
def emit (s : Buf K) (e : Nat × K) : Buf K := (s.1 + 1, s.2.1.set s.1 e.1, s.2.2.set s.1 e.2)

/-- `eliminate_zeros`, 368-395.  `u`, `v`: the uninitialised arrays. -/
def eliminateZeros [Zero K] [DecidableEq K] (A : CSR K) (u : List Nat) (v : List K) : CSR K :=
  let p := forRange 0 A.numRows (List.replicate (A.numRows + 1) 0) fun p i =>
    forRow A i (p.set (i + 1) (p.getD i 0)) fun p _ d =>
      if d ≠ 0 then p.modify (i + 1) (· + 1) else p
  let s := forRange 0 A.numRows ((0, u, v) : Buf K) fun s i =>
    forRow A i s fun s j d => if d ≠ 0 then emit s (j, d) else s
  { A with indptr := p, indices := s.2.1, data := s.2.2 }

/-- Number of entries `eliminate_zeros` allocates (385-386). -/
def numNonzeros [Zero K] [DecidableEq K] (A : CSR K) : Nat :=
  (forRange 0 A.numRows (List.replicate (A.numRows + 1) 0) fun p i =>
    forRow A i (p.set (i + 1) (p.getD i 0)) fun p _ d =>
      if d ≠ 0 then p.modify (i + 1) (· + 1) else p).getD A.numRows 0

/-- Local variables of `dropRowsInPlace`: the arrays, `l`, `m`, `ri`. -/
structure RowState (K : Type) where
  indptr : List Nat
  buf : Buf K
  l : Nat
  m : Nat
  ri : Nat

/-- Body of the row loop, sparseGraph.pyx 79-92.  The branch for an object without `data`
(94-105) does the same to `indices` and `indptr`; it is the case `K = Unit`. -/
def dropRowsStep [Zero K] (rowIndices : List Nat) (s : RowState K) (i : Nat) : RowState K :=
  if i = s.ri then
    if s.m + 1 < rowIndices.length then
      { s with m := s.m + 1, ri := rowIndices.getD (s.m + 1) 0 }
    else { s with m := s.m + 1 }
  else
    let buf := forRange (s.indptr.getD i 0) (s.indptr.getD (i + 1) 0) s.buf fun b k =>
      emit b (b.2.1.getD k 0, b.2.2.getD k 0)
    { s with buf := buf, l := s.l + 1, indptr := s.indptr.set (s.l + 1) buf.1 }

/-- `dropRowsInPlace`, sparseGraph.pyx 62-111. -/
def dropRows [Zero K] (A : CSR K) (rowIndices : List Nat) : CSR K :=
  if rowIndices.length = 0 then A
  else
    let s := forRange 0 A.numRows
      (⟨A.indptr, (0, A.indices, A.data), 0, 0, rowIndices.getD 0 0⟩ : RowState K)
      (dropRowsStep rowIndices)
    { indptr := s.indptr.take (s.l + 1)
      indices := s.buf.2.1.take s.buf.1
      data := s.buf.2.2.take s.buf.1
      numRows := A.numRows - rowIndices.length
      numCols := A.numCols }

/-- `while j > col_idx[k] and k < z: k += 1` with `z = len(col_idx) - 1`, 130-131. -/
def advance (cols : List Nat) (j k : Nat) : Nat :=
  if h : cols.getD k 0 < j ∧ k < cols.length - 1 then advance cols j (k + 1) else k
termination_by cols.length - 1 - k
decreasing_by omega

/-- Body of the inner loop, 128-139: the state is `k` and the arrays. -/
def dropColsStep [Zero K] (cols : List Nat) (s : Nat × Buf K) (jj : Nat) : Nat × Buf K :=
  let j := s.2.2.1.getD jj 0
  let k := advance cols j s.1
  if cols.getD k 0 < j then (k, emit s.2 (j - k - 1, s.2.2.2.getD jj 0))
  else if j < cols.getD k 0 then (k, emit s.2 (j - k, s.2.2.2.getD jj 0))
  else (k, s.2)

/-- `dropColsInPlace`, 114-152, for an object with `data` and a non-empty `col_idx`. -/
def dropCols [Zero K] (A : CSR K) (cols : List Nat) : CSR K :=
  let s := forRange 0 (A.indptr.length - 1) (A.indptr, ((0, A.indices, A.data) : Buf K)) fun s i =>
    let r := forRange (s.1.getD i 0) (s.1.getD (i + 1) 0) (0, s.2) (dropColsStep cols)
    (s.1.set i r.2.1, r.2)
  { indptr := shiftBack (A.indptr.length - 1) s.1
    indices := s.2.2.1.take s.2.1
    data := s.2.2.2.take s.2.1
    numRows := A.numRows
    numCols := A.numCols - cols.length }

/-- `dropColsInPlace` for an object without `data` (a `sparseGraph`): lines 133 and 137 read the
local variable `data`, which was never assigned.  `none` is the access through the unassigned
array; it happens at the first entry that is to be kept. -/
def dropColsGraph (G : Graph) (cols : List Nat) : Option Graph :=
  let kept := forRange 0 (G.indptr.length - 1) false fun b i =>
    (forRange (G.indptr.getD i 0) (G.indptr.getD (i + 1) 0) (0, b) fun s jj =>
      let j := G.indices.getD jj 0
      let k := advance cols j s.1
      (k, s.2 || decide (cols.getD k 0 < j) || decide (j < cols.getD k 0))).2
  if kept then none
  else some ⟨List.replicate G.indptr.length 0, [], G.numRows, G.numCols - cols.length⟩

end PyNucleus.Drop
