import Verif.Model.Transpose
import Verif.Model.CSR
import Verif.Model.Blas

/-!
# Model of Schur complements and of linear combinations of operators

/repo/base/PyNucleus_base/SchurComplement_{SCALAR}.pxi and `sumMultiplyOperator`, /repo/base/PyNucleus_base/linear_operators.pyx 1165-1254.

An operator is the function that takes the argument and the old contents of the result to the result.  `none` is an error or an access behind the end of an array.
The product of operators is `Product_Linear_Operator`: the right factor writes to a temporary vector first.
-/

namespace PyNucleus.Schur

open PyNucleus.Loops PyNucleus.Spec PyNucleus.CSR PyNucleus.Blas

variable {K : Type}

/-- `R1`, `R2`; lines 13-14, 22-23. -/
def selection [One K] (n : Nat) (indices : List Nat) : CSR K where
  indptr := List.range (indices.length + 1)
  indices := indices
  data := List.replicate indices.length 1
  numRows := indices.length
  numCols := n

/-- `indices2`, lines 17-20. -/
def others (n : Nat) (indices : List Nat) : List Nat :=
  let temp := indices.foldl (fun t dof => t.set dof false) (List.replicate n true)
  (List.range n).filter fun d => temp.getD d false

/-- Everything the object holds: the operator, its size, the index arrays, uninitialised arrays of `transpose`, temporary vectors of the products `R * A * P`. -/
structure Data (K : Type) where
  n : Nat
  A : List K → List K → List K
  indices : List Nat
  newIndices1 : List Nat
  newData1 : List K
  newIndices2 : List Nat
  newData2 : List K
  temp1 : List K
  temp2 : List K

variable [CommRing K] (S : Data K)

/-- `P1`, `P2`; lines 15, 24. -/
def P1 : CSR K := transpose (selection S.n S.indices) S.newIndices1 S.newData1
def P2 : CSR K := transpose (selection S.n (others S.n S.indices)) S.newIndices2 S.newData2

/-- `matvec` of `R * A * P`; lines 26-29. -/
def block (R P : CSR K) (x y : List K) : List K := matvec false R (S.A (matvec false P x S.temp1) S.temp2) y

/-- `matvec_no_overwrite` of `R * A * P`. -/
def blockNoOverwrite (R P : CSR K) (x y : List K) : List K := matvecNoOverwrite false R (S.A (matvec false P x S.temp1) S.temp2) y

/-- What `matvec` and `matvec_no_overwrite` compute first, 41-43, 51-53; `inv` is `invA22` with right-hand side and initial guess. -/
def correction (inv : List K → List K → List K) (m1 m2 m3 : List K) (x : List K) : List K :=
  block S (selection S.n S.indices) (P2 S) (inv (block S (selection S.n (others S.n S.indices)) (P1 S) x m1) m2) m3

/-- `matvec`, 38-46. -/
def schurMatvec (inv : List K → List K → List K) (m1 m2 m3 : List K) (x y : List K) : List K :=
  updateScaled (block S (selection S.n S.indices) (P1 S) x y) (correction S inv m1 m2 m3 x) (-1)

/-- `matvec_no_overwrite`, 48-56. -/
def schurMatvecNoOverwrite (inv : List K → List K → List K) (m1 m2 m3 : List K) (x y : List K) : List K :=
  updateScaled (blockNoOverwrite S (selection S.n S.indices) (P1 S) x y) (correction S inv m1 m2 m3 x) (-1)

/-! ### `sumMultiplyOperator` -/

/-- A product or transposed product; it writes the first `rows` entries of the result. -/
structure Product (K : Type) where
  rows : Nat
  apply : List K → List K → List K

/-- The call fails if the result is too short. -/
def Product.call (p : Product K) (x y : List K) : Option (List K) := if y.length < p.rows then none else some (p.apply x y)

/-- The loops of 1197-1201 and 1229-1233. -/
def addRest (x : List K) : List (Product K × K) → List K → List K → Option (List K)
  | [], y, _ => some y
  | (op, c) :: rest, y, z =>
    match op.call x z with
    | none => none
    | some z => addRest x rest (assign3Self y 1 z c) z

/-- `matvec` and `matvecTrans`, 1186-1202, 1218-1234. -/
def sumMatvec (ops : List (Product K × K)) (x y z : List K) : Option (List K) :=
  match ops with
  | [] => none
  | (op, c) :: rest =>
    match op.call x y with
    | none => none
    | some y => addRest x rest (scaleScalar y c) z

/-- `matvecTrans_no_overwrite`, 1236-1247. -/
def sumMatvecTransNoOverwrite (ops : List (Product K × K)) (x y z : List K) : Option (List K) := addRest x ops y z

/-- `matvec_no_overwrite`, 1204-1216: the declaration `LinearOperator op = 0` raises a TypeError. -/
def sumMatvecNoOverwrite (_ : List (Product K × K)) (_ _ _ : List K) : Option (List K) := none

end PyNucleus.Schur
