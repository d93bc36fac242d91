import Verif.Model.CSR
import Mathlib.Algebra.Field.Defs

/-!
# Model of the direct solves

/repo/base/PyNucleus_base/linalg.pyx 156-402 (real branch; the complex branch performs the same
assignments), solvers.pyx 147-172 and 207-223, opt_false_solver_cholmod.pxi 44-69.
Matrices by columns are the arrays `(indptr, indices, data)` of a `CSR` whose rows are the columns.
-/

namespace PyNucleus.Direct

open PyNucleus.Loops PyNucleus.Spec PyNucleus.CSR

variable {K : Type}

/-- `for i in range(lo, hi): y[indices[i]] += data[i]*y[j]`. -/
def scatter [Field K] (C : CSR K) (lo hi j : Nat) (y : List K) : List K :=
  forRange lo hi y fun y i => y.modify (C.indices.getD i 0) (· + C.data.getD i 0 * y.getD j 0)

/-- `for j in range(n-1, -1, -1)`. -/
def forDown {σ : Type} (n : Nat) (s : σ) (body : σ → Nat → σ) : σ :=
  (List.range n).reverse.foldl body s

/-- `forward_solve_csc`, 156-180. -/
def forwardCSC [Field K] (C : CSR K) (b y : List K) (unitDiagonal : Bool) : List K :=
  forRange 0 b.length y fun y j =>
    let i1 := C.indptr.getD j 0
    let i2 := C.indptr.getD (j + 1) 0
    let y := if unitDiagonal then y.set j (b.getD j 0 - y.getD j 0)
      else y.set j ((b.getD j 0 - y.getD j 0) / C.data.getD i1 0)
    scatter C (i1 + 1) i2 j y

/-- `forward_solve_sss`, 201-220: strictly lower part by columns, diagonal apart. -/
def forwardSSS [Field K] (C : CSR K) (diag b y : List K) (unitDiagonal : Bool) : List K :=
  forRange 0 b.length y fun y j =>
    let y := if unitDiagonal then y.set j (b.getD j 0 - y.getD j 0)
      else y.set j ((b.getD j 0 - y.getD j 0) / diag.getD j 0)
    scatter C (C.indptr.getD j 0) (C.indptr.getD (j + 1) 0) j y

/-- `forward_solve_sss_noInverse`, 223-242. -/
def forwardSSSInv [Field K] (C : CSR K) (invDiag b y : List K) (unitDiagonal : Bool) : List K :=
  forRange 0 b.length y fun y j =>
    let y := if unitDiagonal then y.set j (b.getD j 0 - y.getD j 0)
      else y.set j ((b.getD j 0 - y.getD j 0) * invDiag.getD j 0)
    scatter C (C.indptr.getD j 0) (C.indptr.getD (j + 1) 0) j y

/-- `backward_solve_csc`, 245-259. -/
def backwardCSC [Field K] (C : CSR K) (b y : List K) : List K :=
  forDown b.length y fun y j =>
    let i1 := C.indptr.getD j 0
    let i2 := C.indptr.getD (j + 1) 0
    let y := y.set j ((b.getD j 0 - y.getD j 0) / C.data.getD (i2 - 1) 0)
    scatter C i1 (i2 - 1) j y

/-- The `while j > i` loop, 280-285: `(temp, jj)`. -/
def rowBack [Field K] (C : CSR K) (y : List K) (i : Nat) : Nat → K → K × Nat
  | 0, temp => (temp, 0)
  | jj + 1, temp =>
    if C.indices.getD (jj + 1) 0 > i then
      rowBack C y i jj (temp - C.data.getD (jj + 1) 0 * y.getD (C.indices.getD (jj + 1) 0) 0)
    else (temp, jj + 1)

/-- `backward_solve_csr`, 269-286, called with `b` and `y` the same array (line 401). -/
def backwardCSR [Field K] (C : CSR K) (y : List K) : List K :=
  forDown y.length y fun y i =>
    let r := rowBack C y i (C.indptr.getD (i + 1) 0 - 1) (y.getD i 0)
    y.set i (r.1 / C.data.getD r.2 0)

/-- `backward_solve_sss`, 289-303. -/
def backwardSSS [Field K] (C : CSR K) (diag b y : List K) : List K :=
  forDown b.length y fun y i =>
    y.set i ((forRow C i (b.getD i 0) fun temp j d => temp - d * y.getD j 0) / diag.getD i 0)

/-- `backward_solve_sss_noInverse`, 306-319. -/
def backwardSSSInv [Field K] (C : CSR K) (invDiag b y : List K) : List K :=
  forDown b.length y fun y i =>
    y.set i ((forRow C i (b.getD i 0) fun temp j d => temp - d * y.getD j 0) * invDiag.getD i 0)

/-- `for i in range(n): temp[perm[i]] = b[i]`. -/
def scatterPerm [Zero K] (perm : List Nat) (b temp : List K) : List K :=
  forRange 0 b.length temp fun t i => t.set (perm.getD i 0) (b.getD i 0)

/-- `solve_LU`, 323-341; the same steps in `lu_solver.solve` (solvers.pyx 155-168),
`ilu_solver.solve` (207-223) and `ILU_solver.solve` (371-383).  `u` is the uninitialised
`temp2`. -/
def solveLU [Field K] (L U : CSR K) (permR permC : List Nat) (b u : List K) : List K :=
  let n := b.length
  let temp1 : List K := List.replicate n 0
  let temp2 := scatterPerm permR b u
  let temp1 := forwardCSC L temp2 temp1 true
  let temp2 := List.replicate n 0
  let temp2 := backwardCSC U temp1 temp2
  forRange 0 n temp1 fun t i => t.set i (temp2.getD (permC.getD i 0) 0)

/-- `solve_cholesky`, 391-402. -/
def solveCholesky [Field K] (L : CSR K) (b : List K) : List K :=
  let temp := forwardCSC L b (List.replicate b.length 0) false
  backwardCSR L temp

/-- `ichol_solver.solve`, opt_false_mkl_trisolve.pxi 34-43; `x` is the old content of the
result. -/
def icholSolve [Field K] (C : CSR K) (invDiag b x : List K) : List K :=
  let temp := forwardSSSInv C invDiag b (List.replicate b.length 0) false
  backwardSSSInv C invDiag temp x

/-- First loop of the packed Cholesky solve, opt_false_solver_cholmod.pxi 53-60: `(k, temp)`. -/
def packedForward [Field K] (Lflat b temp : List K) (n : Nat) : Nat × List K :=
  forRange 0 n (0, temp) fun s i =>
    let r := forRange 0 i (s.1, b.getD i 0) fun r j =>
      (r.1 + 1, r.2 - Lflat.getD r.1 0 * s.2.getD j 0)
    (r.1 + 1, s.2.set i (r.2 / Lflat.getD r.1 0))

/-- Second loop, 61-67. -/
def packedBackward [Field K] (Lflat temp x : List K) (n : Nat) : List K :=
  forDown n x fun x i =>
    let val := forRange (i + 1) n (temp.getD i 0) fun val j =>
      val - Lflat.getD (j * (j + 1) / 2 + i) 0 * x.getD j 0
    x.set i (val / Lflat.getD (i * (i + 1) / 2 + i) 0)

/-- `chol_solver.solve` with a dense factor, 44-68. -/
def cholPacked [Field K] (Lflat b temp x : List K) : List K :=
  let temp := (packedForward Lflat b temp x.length).2
  packedBackward Lflat temp x x.length

/-- The packing loop of `chol_solver.setup`, 33-37: row by row, lower triangle. -/
def packLower [Zero K] (L : Nat → Nat → K) (n : Nat) (u : List K) : List K :=
  (forRange 0 n (0, u) fun s i =>
    forRange 0 (i + 1) s fun s j => (s.1 + 1, s.2.set s.1 (L i j))).2

end PyNucleus.Direct
