import Verif.Model.Transpose
import Mathlib.Analysis.Complex.Basic

/-!
# Model of scaled, sliced, split and wrapped matrices

/repo/base/PyNucleus_base/CSR_LinearOperator_{SCALAR}.pxi 340-366 (`scale`, `scaleLeft`, `scaleRight`, `setZero`), 410-449 (`getBlockDiagonal`);
/repo/base/PyNucleus_base/linear_operators.pyx 108-140 (`Triple_Product_Linear_Operator`), 143-165 (`split_CSR_LinearOperator`), 271-296 (`sliceRow`,
`sliceColumn`), 318-345 (`sparseGraph.matvec`), 368-395 and 427-457 (`restrictionOp`, `prolongationOp`), 1022-1075 (`wrapRealToComplex`,
`wrapRealToComplexCSR`), 1083-1121 (`HelmholtzShiftOperator`).  `scaleLeft` and `scaleRight` are in Model/CSR.lean.
-/

namespace PyNucleus.MatrixOps

open PyNucleus.Loops PyNucleus.Spec PyNucleus.CSR

variable {K : Type}

/-- `scale`, CSR_LinearOperator 340-341 (`scaleScalar` multiplies all entries of an array). -/
def scale [Mul K] [Zero K] (A : CSR K) (c : K) : CSR K := { A with data := forRange 0 A.data.length A.data fun d i => d.set i (d.getD i 0 * c) }

/-- `setZero`, CSR_LinearOperator 362-366. -/
def setZero [Zero K] (A : CSR K) : CSR K := { A with data := forRange 0 A.data.length A.data fun d i => d.set i 0 }

/-- The loops of `getBlockDiagonal` down to the `break`, 415-422 and 432-440. -/
def forBlocks {σ : Type} [Zero K] (A : CSR K) (B : Graph) (s : σ) (f : σ → Nat → Nat → K → σ) : σ :=
  forRange 0 B.numRows s fun s b => forRange (B.indptr.getD b 0) (B.indptr.getD (b + 1) 0) s fun s ii =>
    forRow A (B.indices.getD ii 0) s fun s j d =>
      if (List.range' (B.indptr.getD b 0) (B.indptr.getD (b + 1) 0 - B.indptr.getD b 0)).any fun kk => decide (B.indices.getD kk 0 = j) then f s (B.indices.getD ii 0) j d else s

/-- 423-428: `temp = indptr[i]; indptr[i] = nnz; nnz += temp`, and the last entry. -/
def offsets (n : Nat) (p : List Nat) : List Nat :=
  let s := forRange 0 n (p, 0) fun s i => (s.1.set i s.2, s.2 + s.1.getD i 0)
  s.1.set n s.2

/-- `getBlockDiagonal`, 410-449; `u`, `v` are the contents of the uninitialised arrays. -/
def getBlockDiagonal [Zero K] (A : CSR K) (B : Graph) (u : Nat → List Nat) (v : Nat → List K) : CSR K :=
  let p := offsets A.numRows (forBlocks A B (List.replicate (A.numRows + 1) 0) fun p i _ _ => p.modify i (· + 1))
  let nnz := p.getD A.numRows 0
  let s := forBlocks A B (p, u nnz, v nnz) fun s i j d => (s.1.modify i (· + 1), s.2.1.set (s.1.getD i 0) j, s.2.2.set (s.1.getD i 0) d)
  { indptr := shiftBack A.numRows s.1, indices := s.2.1, data := s.2.2, numRows := A.numRows, numCols := A.numRows }

/-- The sum over a row of a graph, e.g. 325-327. -/
def patternSum [AddMonoid K] (G : Graph) (x : List K) (i : Nat) : K :=
  forRange (G.indptr.getD i 0) (G.indptr.getD (i + 1) 0) 0 fun s j => s + x.getD (G.indices.getD j 0) 0

/-- `sparseGraph.matvec`, 318-330, and `matvec_no_overwrite`, 332-345, which `restrictionOp` and `prolongationOp` inherit. -/
def graphMatvec [AddMonoid K] (G : Graph) (x y : List K) : List K := forRange 0 G.numRows y fun y i => y.set i (patternSum G x i)
def graphMatvecNoOverwrite [AddMonoid K] (G : Graph) (x y : List K) : List K := forRange 0 G.numRows y fun y i => y.set i (y.getD i 0 + patternSum G x i)

/-- `restrictionOp.matvec`, 375-395; `order` is the order in which the threads go through the rows. -/
def restrict [Field K] (G : Graph) (order : List Nat) (x y : List K) : List K := order.foldl (fun y i => y.set i (x.getD i 0 + 1 / 2 * patternSum G x i)) y

/-- `prolongationOp.matvec`, 433-457. -/
def prolong [Field K] (G : Graph) (order order' : List Nat) (x y : List K) : List K :=
  order'.foldl (fun y i => y.set i (y.getD i 0 + x.getD i 0)) (order.foldl (fun y i => y.set i (1 / 2 * patternSum G x i)) y)

/-- `split_CSR_LinearOperator.matvec`, 153-158. -/
def splitMatvec [Semiring K] (A1 A2 : CSR K) (x y : List K) : List K := matvecNoOverwrite false A2 x (matvec false A1 x y)

/-- `Triple_Product_Linear_Operator.matvec`, 134-140, with its two temporary arrays. -/
def tripleMatvec [Semiring K] (A B C : CSR K) (t1 t2 x y : List K) : List K := matvec false A (matvec false B (matvec false C x t1) t2) y

/-- State of `sliceRow`: `indptr`, `indices`, `newRowIdx`, `last`. -/
structure Slice where
  indptr : List Nat
  indices : List Nat
  new : Nat
  last : Nat

/-- One pass of the loop, 280-287; `ind` is a view of `indices`, not a copy. -/
def sliceStep (s : Slice) (i : Nat) : Slice :=
  let start := s.indptr.getD i 0
  let length := s.indptr.getD (i + 1) 0 - start
  let indptr := s.indptr.set (s.new + 1) (s.last + length)
  let lo := indptr.getD s.new 0
  { indptr := indptr
    indices := forRange 0 (indptr.getD (s.new + 1) 0 - lo) s.indices fun ind k => ind.set (lo + k) (ind.getD (start + k) 0)
    new := s.new + 1
    last := s.last + length }

/-- `sliceRow`, 271-291. -/
def sliceRow (G : Graph) (rows : List Nat) : Graph :=
  let s := rows.foldl sliceStep ⟨G.indptr, G.indices, 0, 0⟩
  ⟨s.indptr.take (s.new + 1), s.indices.take s.last, s.new, G.numCols⟩

/-- `sliceColumn`, 293-296. -/
def sliceColumn (G : Graph) (cols : List Nat) (u u' : List Nat) : Graph := (sliceRow (G.transpose u) cols).transpose u'

/-- `wrapRealToComplex.matvec`, 1029-1047; `t1`, `t2` are the temporary arrays. -/
noncomputable def wrapMatvec (A : CSR ℝ) (t1 t2 : List ℝ) (x y : List ℂ) : List ℂ :=
  let t1 := forRange 0 A.numCols t1 fun t i => t.set i (x.getD i 0).re
  let t2 := matvec false A t1 t2
  let y := forRange 0 A.numRows y fun y i => y.set i (t2.getD i 0 : ℂ)
  let t1 := forRange 0 A.numCols t1 fun t i => t.set i (x.getD i 0).im
  let t2 := matvec false A t1 t2
  forRange 0 A.numRows y fun y i => y.set i (y.getD i 0 + Complex.I * (t2.getD i 0 : ℂ))

/-- The row sums of a real matrix with a complex vector, 1065-1067 and others. -/
noncomputable def realRow (A : CSR ℝ) (x : List ℂ) (i : Nat) : ℂ := forRow A i 0 fun t j d => t + (d : ℂ) * x.getD j 0

/-- `wrapRealToComplexCSR.matvec`, 1056-1069. -/
noncomputable def wrapCSRMatvec (A : CSR ℝ) (x y : List ℂ) : List ℂ := forRange 0 A.numRows y fun y i => y.set i (realRow A x i)

/-- `HelmholtzShiftOperator.matvec`, 1103-1121. -/
noncomputable def helmholtzMatvec (S M : CSR ℝ) (shift : ℂ) (x y : List ℂ) : List ℂ :=
  forRange 0 S.numRows (forRange 0 S.numRows y fun y i => y.set i (realRow S x i)) fun y i => y.set i (y.getD i 0 + shift * realRow M x i)

/-- `setShift`, 1091-1100; `u` is the old diagonal. -/
noncomputable def helmholtzDiagonal (S M : CSR ℝ) (shift : ℂ) (u : List ℂ) : List ℂ :=
  forRange 0 S.numRows u fun d i => d.set i (((getDiagonal S).getD i 0 : ℂ) + shift * ((getDiagonal M).getD i 0 : ℂ))

end PyNucleus.MatrixOps
