import Verif.Model.Loops
import Verif.Spec.Matrix

/-!
# Model of the CSR kernels

/repo/base/PyNucleus_base/opt_false_mkl.pxi and CSR_LinearOperator_{SCALAR}.pxi.  The MKL
variant (opt_true_mkl.pxi) is not modelled.
-/

namespace PyNucleus.CSR

open PyNucleus.Loops PyNucleus.Spec

variable {K : Type}

/-- `for jj in range(indptr[i], indptr[i+1])` with the reads `indices[jj]`, `data[jj]`. -/
def forRow {σ : Type} [Zero K] (A : CSR K) (i : Nat) (s : σ) (f : σ → Nat → K → σ) : σ :=
  forRange (A.indptr.getD i 0) (A.indptr.getD (i + 1) 0) s
    fun s jj => f s (A.indices.getD jj 0) (A.data.getD jj 0)

/-- `temp` after the inner loop, opt_false_mkl.pxi 14-17 and 25-28. -/
def rowSum [Semiring K] (A : CSR K) (x : List K) (i : Nat) : K :=
  forRow A i 0 fun temp j d => temp + d * x.getD j 0

/-- Row loop of the product, opt_false_mkl.pxi 13-21 and 24-32. -/
def spmvRows [Semiring K] (A : CSR K) (x y : List K) (overwrite : Bool) : List K :=
  forRange 0 (A.indptr.length - 1) y fun y i =>
    if overwrite then y.set i (rowSum A x i) else y.set i (y.getD i 0 + rowSum A x i)

/-- Transposed product, opt_false_mkl.pxi 34-41. -/
def spmvTrans [Semiring K] (A : CSR K) (x y : List K) (overwrite : Bool) : List K :=
  let y0 := if overwrite then forRange 0 y.length y fun y i => y.set i 0 else y
  forRange 0 (A.indptr.length - 1) y0 fun y i =>
    let temp := x.getD i 0
    forRow A i y fun y j d => y.modify j (· + d * temp)

/-- `spmv`, opt_false_mkl.pxi 8-41.  The branch for complex scalars ignores `trans`. -/
def spmv [Semiring K] (isComplex : Bool) (A : CSR K) (x y : List K) (overwrite trans : Bool) :
    List K :=
  if isComplex then spmvRows A x y overwrite
  else if !trans then spmvRows A x y overwrite
  else spmvTrans A x y overwrite

/-- `matvec`, `matvec_no_overwrite`, `matvecTrans`, `matvecTrans_no_overwrite`,
CSR_LinearOperator 21-53. -/
def matvec [Semiring K] (c : Bool) (A : CSR K) (x y : List K) := spmv c A x y true false
def matvecNoOverwrite [Semiring K] (c : Bool) (A : CSR K) (x y : List K) := spmv c A x y false false
def matvecTrans [Semiring K] (c : Bool) (A : CSR K) (x y : List K) := spmv c A x y true true
def matvecTransNoOverwrite [Semiring K] (c : Bool) (A : CSR K) (x y : List K) :=
  spmv c A x y false true

/-- `spres`, opt_false_mkl.pxi 44-62, and `_residual`, CSR_LinearOperator 27-35. -/
def spres [Ring K] (A : CSR K) (x rhs result : List K) : List K :=
  forRange 0 (A.indptr.length - 1) result fun r i =>
    r.set i (forRow A i (rhs.getD i 0) fun temp j d => temp - d * x.getD j 0)

def residual [Ring K] (A : CSR K) (x rhs result : List K) (simpleResidual : Bool) : List K :=
  if simpleResidual then rhs else spres A x rhs result

/-- Inner accumulation of `matvec_multi` for one row, CSR_LinearOperator 61-69: vectors are
rows of `x` (a list of rows with `numVecs` entries). -/
def multiRow [Semiring K] (A : CSR K) (x : List (List K)) (numVecs i : Nat) : List K :=
  forRow A i (List.replicate numVecs 0) fun temp j d =>
    forRange 0 numVecs temp fun temp k => temp.modify k (· + d * (x.getD j []).getD k 0)

/-- `matvec_multi`, CSR_LinearOperator 55-70. -/
def matvecMulti [Semiring K] (A : CSR K) (x y : List (List K)) (numVecs : Nat) : List (List K) :=
  forRange 0 A.numRows y fun y i => y.set i (multiRow A x numVecs i)

/-- `scaleLeft`, CSR_LinearOperator 343-351. -/
def scaleLeft [Semiring K] (A : CSR K) (s : List K) : CSR K :=
  { A with data := forRange 0 A.numRows A.data fun data i =>
      let d := s.getD i 0
      forRange (A.indptr.getD i 0) (A.indptr.getD (i + 1) 0) data fun data jj =>
        data.modify jj (· * d) }

/-- `scaleRight`, CSR_LinearOperator 353-360. -/
def scaleRight [Semiring K] (A : CSR K) (s : List K) : CSR K :=
  { A with data := forRange 0 A.numRows A.data fun data i =>
      forRange (A.indptr.getD i 0) (A.indptr.getD (i + 1) 0) data fun data jj =>
        data.modify jj (· * s.getD (A.indices.getD jj 0) 0) }

/-- `get_diagonal`, CSR_LinearOperator 230-241 (`break` after the first hit; the row is the
remaining list of stored entries). -/
def firstDiag [Zero K] (i : Nat) (old : K) : List (Nat × K) → K
  | [] => old
  | (j, d) :: t => if j = i then d else firstDiag i old t

def getDiagonal [Zero K] (A : CSR K) : List K :=
  forRange 0 A.numRows (List.replicate A.numRows 0) fun dv i =>
    dv.set i (firstDiag i (dv.getD i 0) (A.row i))

/-- Copy, CSR_LinearOperator 306-309: the constructor sets both dimensions to
`indptr.shape[0]-1`. -/
def copy (A : CSR K) : CSR K :=
  { A with numRows := A.indptr.length - 1, numCols := A.indptr.length - 1 }

end PyNucleus.CSR
