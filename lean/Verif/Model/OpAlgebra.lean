import Verif.Model.CSR
import Verif.Model.Blas

/-!
# Model of the operator algebra

/repo/base/PyNucleus_base/LinearOperator_{SCALAR}.pxi, DiagonalLinearOperator_{SCALAR}.pxi,
DenseLinearOperator_{SCALAR}.pxi and `identityOperator` (linear_operators.pyx 912-953).

Vectors live in a heap and are passed by address, so that the buffers `z` and `temporaryMemory`
of composite operators can be shared between operators and can alias the arguments.  A method that
is not overridden returns -1, which Cython turns into an exception: `none`.  An access outside of
an array is `none` as well.
-/

namespace PyNucleus.OpAlgebra

open PyNucleus.Loops PyNucleus.Spec PyNucleus.Blas

variable {K : Type}

/-- Operator objects.  The last field of `sum` and `prod` is the address of the buffer. -/
inductive Op (K : Type) where
  | csr (A : CSR K)
  | dense (A : Dense K)
  | diag (d : List K)
  | ident (n : Nat) (alpha : K)
  | null (numRows numCols : Nat)
  | mult (A : Op K) (factor : K)
  | sum (M S : Op K) (facS facM : K) (z : Nat)
  | prod (A B : Op K) (temp : Nat)
  | trans (A : Op K)

namespace Op

/-- `num_rows`, `num_columns` as set by the constructors. -/
def shape : Op K → Nat × Nat
  | csr A => (A.numRows, A.numCols)
  | dense A => (A.numRows, A.numCols)
  | diag d => (d.length, d.length)
  | ident n _ => (n, n)
  | null r c => (r, c)
  | mult A _ => A.shape
  | sum M _ _ _ _ => M.shape
  | prod A B _ => (A.shape.1, B.shape.2)
  | trans A => (A.shape.2, A.shape.1)

end Op

/-- Contents of all vectors. -/
abbrev Heap (K : Type) := Nat → List K

/-- Write the vector at address `a`. -/
def put (h : Heap K) (a : Nat) (v : List K) : Heap K := fun b => if b = a then v else h b

/-- A kernel that reads `c` entries of `x` and reads or writes `r` entries of `y`. -/
def kernel (r c x y : Nat) (h : Heap K) (f : List K → List K → List K) : Option (Heap K) :=
  if c ≤ (h x).length ∧ r ≤ (h y).length then some (put h y (f (h x) (h y))) else none

/-- `scaleScalar(y, fac)` on the heap. -/
def scaleAt [Semiring K] (h : Heap K) (y : Nat) (fac : K) : Heap K := put h y (scaleScalar (h y) fac)

/-- `assign3(y, y, alpha, z, beta)` on the heap. -/
def assign3At [Semiring K] (h : Heap K) (y : Nat) (alpha : K) (z : Nat) (beta : K) : Option (Heap K) :=
  if (h y).length ≤ (h z).length then some (put h y (assign3Self (h y) alpha (h z) beta)) else none

/-- `matvec` (`trans = acc = false`), `matvec_no_overwrite` (`acc`), `matvecTrans` (`trans`) and
`matvecTrans_no_overwrite` (both) of every class, on the vectors at addresses `x` and `y`. -/
def run [Field K] [DecidableEq K] : Op K → Bool → Bool → Nat → Nat → Heap K → Option (Heap K)
  -- CSR_LinearOperator 21-53
  | .csr A, false, false, x, y, h => kernel A.numRows A.numCols x y h (CSR.matvec false A)
  | .csr A, false, true, x, y, h => kernel A.numRows A.numCols x y h (CSR.matvecNoOverwrite false A)
  | .csr A, true, false, x, y, h => kernel A.numCols A.numRows x y h (CSR.matvecTrans false A)
  | .csr A, true, true, x, y, h => kernel A.numCols A.numRows x y h (CSR.matvecTransNoOverwrite false A)
  -- DenseLinearOperator 14-53
  | .dense A, false, false, x, y, h => kernel A.numRows A.numCols x y h fun x y => gemv A x y 0
  | .dense A, false, true, x, y, h => kernel A.numRows A.numCols x y h fun x y => gemv A x y 1
  | .dense A, true, false, x, y, h => do
      let v ← gemvT A (h x) (h y) 0
      kernel A.numCols A.numRows x y h fun _ _ => v
  | .dense A, true, true, x, y, h => do
      let v ← gemvT A (h x) (h y) 1
      kernel A.numCols A.numRows x y h fun _ _ => v
  -- DiagonalLinearOperator 13-32; no transposed methods
  | .diag d, false, false, x, y, h => kernel d.length d.length x y h fun x y =>
      forRange 0 d.length (forRange 0 y.length y fun y i => y.set i 0) fun y i =>
        y.set i (d.getD i 0 * x.getD i 0)
  | .diag d, false, true, x, y, h => kernel d.length d.length x y h fun x y =>
      forRange 0 d.length y fun y i => y.set i (y.getD i 0 + d.getD i 0 * x.getD i 0)
  | .diag _, true, _, _, _, _ => none
  -- identityOperator, linear_operators.pyx 917-933; no transposed methods
  | .ident n alpha, false, false, x, y, h => kernel n n x y h fun x y =>
      forRange 0 n y fun y i => y.set i (alpha * x.getD i 0)
  | .ident n alpha, false, true, x, y, h => kernel n n x y h fun x y =>
      forRange 0 n y fun y i => y.set i (y.getD i 0 + alpha * x.getD i 0)
  | .ident _ _, true, _, _, _, _ => none
  -- nullOperator 1011-1023; no transposed methods
  | .null r _, false, false, x, y, h => kernel r 0 x y h fun _ y => forRange 0 r y fun y i => y.set i 0
  | .null _ _, false, true, _, _, h => some h
  | .null _ _, true, _, _, _, _ => none
  -- Multiply_Linear_Operator 483-513; `self.A(x, y)` checks the lengths (38-56)
  | .mult A f, false, false, x, y, h =>
      if A.shape.2 = (h x).length ∧ A.shape.1 = (h y).length then do
        let h ← run A false false x y h
        some (scaleAt h y f)
      else none
  | .mult A f, false, true, x, y, h =>
      if f ≠ 0 then do
        let h ← run A false true x y (scaleAt h y (1 / f))
        some (scaleAt h y f)
      else some h
  | .mult A f, true, false, x, y, h => do
      let h ← run A true false x y h
      some (scaleAt h y f)
  | .mult A f, true, true, x, y, h =>
      if f ≠ 0 then do
        let h ← run A true true x y (scaleAt h y (1 / f))
        some (scaleAt h y f)
      else some h
  -- TimeStepperLinearOperator.matvec 343-361
  | .sum M S facS facM z, false, false, x, y, h =>
      if facS ≠ 0 then do
        let h ← run S false false x y h
        let h := if facS ≠ 1 then scaleAt h y facS else h
        if facM = 1 then run M false true x y h
        else do
          let h ← run M false false x z h
          assign3At h y 1 z facM
      else if facM = 1 then run M false false x y h
      else do
        let h ← run M false false x y h
        some (scaleAt h y facM)
  -- TimeStepperLinearOperator.matvec_no_overwrite 363-376
  | .sum M S facS facM z, false, true, x, y, h => do
      let h ← if facS = 1 then run S false true x y h
        else if facS ≠ 0 then do
          let h ← run S false false x z h
          assign3At h y 1 z facS
        else some h
      if facM = 1 then run M false true x y h
      else if facM ≠ 0 then do
        let h ← run M false false x z h
        assign3At h y 1 z facM
      else some h
  -- TimeStepperLinearOperator.matvecTrans 378-390
  | .sum M S facS facM z, true, false, x, y, h => do
      let h ← if facS ≠ 0 then do
          let h ← run S true false x y h
          some (if facS ≠ 1 then scaleAt h y facS else h)
        else some h
      if facM = 1 then run M true true x y h
      else do
        let h ← run M true false x z h
        assign3At h y 1 z facM
  -- TimeStepperLinearOperator.matvecTrans_no_overwrite 392-405
  | .sum M S facS facM z, true, true, x, y, h => do
      let h ← if facS = 1 then run S true true x y h
        else if facS ≠ 0 then do
          let h ← run S true false x z h
          assign3At h y 1 z facS
        else some h
      if facM = 1 then run M true true x y h
      else if facM ≠ 0 then do
        let h ← run M true false x z h
        assign3At h y 1 z facM
      else some h
  -- Product_Linear_Operator 571-597
  | .prod A B t, false, acc, x, y, h => do
      let h ← run B false false x t h
      run A false acc t y h
  | .prod A B t, true, acc, x, y, h => do
      let h ← run A true false x t h
      run B true acc t y h
  -- Transpose_Linear_Operator 963-971; no transposed methods
  | .trans A, false, acc, x, y, h => run A true acc x y h
  | .trans _, true, _, _, _, _ => none

/-- `residual(x, rhs, result)`: 169-197 (default), CSR_LinearOperator 27-35 and
Product_Linear_Operator 599-605. -/
def residual [Field K] [DecidableEq K] : Op K → Nat → Nat → Nat → Heap K → Option (Heap K)
  | .csr A, x, rhs, result, h =>
      if A.numCols ≤ (h x).length ∧ A.numRows ≤ (h rhs).length ∧ A.numRows ≤ (h result).length then
        some (put h result (CSR.residual A (h x) (h rhs) (h result) false))
      else none
  | .prod A B t, x, rhs, result, h =>
      if B.shape.2 = (h x).length ∧ B.shape.1 = (h t).length then do
        let h ← run B false false x t h
        residual A t rhs result h
      else none
  | op, x, rhs, result, h => do
      let h ← run op false false x result h
      assign3At h result (-1) rhs 1

/-! ### The Python operators

`z` is the address of the buffer that the constructor allocates. -/

/-- `a + b`, 78-99. -/
def add [One K] (a b : Op K) (z : Nat) : Op K :=
  match a, b with
  | a, .null _ _ => a
  | .null _ _, b => b
  | .mult A f, .mult B g => .sum A B g f z
  | .mult A f, b => .sum A b 1 f z
  | a, .mult B g => .sum a B g 1 z
  | a, b => .sum a b 1 1 z

/-- `c * a`, 147-161 (Cython 3 semantics: `__rmul__`). -/
def rmul [Mul K] [Zero K] [DecidableEq K] (c : K) (a : Op K) (z : Nat) : Op K :=
  match a with
  | .sum M S facS facM _ => .sum M S (facS * c) (facM * c) z
  | a => if c = 0 then .null a.shape.1 a.shape.2 else .mult a c

/-- `a * c` for a scalar `c`, 107-145, 463-469 and 534-542. -/
def mulr [Mul K] [Zero K] [DecidableEq K] (a : Op K) (c : K) (z : Nat) : Op K :=
  match a with
  | .sum M S facS facM _ => .sum M S (facS * c) (facM * c) z
  | .mult A f => .mult A (f * c)
  | a => if c = 0 then .null a.shape.1 a.shape.2 else .mult a c

/-- `-a`, 162-163. -/
def neg [Neg K] [One K] (a : Op K) : Op K := .mult a (-1)

/-- `a - b`, 101-102; `z'` is the buffer of `-1.*b` when `b` is a sum. -/
def sub [Field K] [DecidableEq K] (a b : Op K) (z z' : Nat) : Op K := add a (rmul (-1) b z') z

/-- `a @ b`, 104-105, and `a * b`. -/
def matmul (a b : Op K) (t : Nat) : Op K := .prod a b t

/-- `a.T`, 323-325. -/
def transpose (a : Op K) : Op K := .trans a

/-! ### Programs

A Python program that creates operators, one per line; objects are referred to by the number of
the line that created them, so that one object can occur in several others. -/

inductive Stmt (K : Type) where
  | csr (A : CSR K)
  | dense (A : Dense K)
  | diag (d : List K)
  | ident (n : Nat) (alpha : K)
  | null (numRows numCols : Nat)
  | add (i j : Nat)
  | sub (i j : Nat)
  | rmul (c : K) (i : Nat)
  | mulr (i : Nat) (c : K)
  | neg (i : Nat)
  | matmul (i j : Nat)
  | T (i : Nat)

/-- Objects created so far, vectors, first unused address. -/
structure St (K : Type) where
  vars : List (Op K)
  heap : Heap K
  next : Nat

/-- The assertions of the constructors of sums (334-335) and products (564). -/
def assertion : Op K → Bool
  | .sum M S _ _ _ => M.shape == S.shape
  | .prod A B _ => A.shape.2 == B.shape.1
  | _ => true

/-- The new object and the length of its buffer (339, 569).  An address is set aside even if the
operator needs no buffer; a difference sets aside two. -/
def create [Field K] [DecidableEq K] (s : Stmt K) (vars : List (Op K)) (z : Nat) : Option (Op K × Nat × Nat) :=
  match s with
  | .csr A => some (.csr A, 0, 0)
  | .dense A => some (.dense A, 0, 0)
  | .diag d => some (.diag d, 0, 0)
  | .ident n alpha => some (.ident n alpha, 0, 0)
  | .null r c => some (.null r c, 0, 0)
  | .add i j => do let a ← vars[i]?; let b ← vars[j]?; some (add a b z, a.shape.1, 0)
  | .sub i j => do let a ← vars[i]?; let b ← vars[j]?; some (sub a b z (z + 1), a.shape.1, b.shape.1)
  | .rmul c i => do let a ← vars[i]?; some (rmul c a z, a.shape.1, 0)
  | .mulr i c => do let a ← vars[i]?; some (mulr a c z, a.shape.1, 0)
  | .neg i => do let a ← vars[i]?; some (neg a, 0, 0)
  | .matmul i j => do let a ← vars[i]?; let b ← vars[j]?; some (matmul a b z, a.shape.2, 0)
  | .T i => do let a ← vars[i]?; some (transpose a, 0, 0)

/-- One line.  `junk a n` is the contents of the uninitialised array of length `n` at `a`. -/
def exec1 [Field K] [DecidableEq K] (junk : Nat → Nat → List K) (s : Stmt K) (st : St K) : Option (St K) := do
  let (op, m, m') ← create s st.vars st.next
  if assertion op then
    some ⟨st.vars ++ [op], put (put st.heap st.next (junk st.next m)) (st.next + 1) (junk (st.next + 1) m'), st.next + 2⟩
  else none

/-- The program. -/
def exec [Field K] [DecidableEq K] (junk : Nat → Nat → List K) : List (Stmt K) → St K → Option (St K)
  | [], st => some st
  | s :: ss, st => do
      let st ← exec1 junk s st
      exec junk ss st

end PyNucleus.OpAlgebra
