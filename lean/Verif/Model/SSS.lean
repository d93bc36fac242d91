import Verif.Model.Entries
import Verif.Spec.Symmetric

/-!
# Model of the symmetric storage

/repo/base/PyNucleus_base/SSS_LinearOperator_{SCALAR}.pxi and the conversion `to_sss`,
/repo/base/PyNucleus_base/CSR_LinearOperator_{SCALAR}.pxi 192-228.
The branch of `matvec` for several threads (lines 34-43) is modelled in Model/SSSThreads.
-/

namespace PyNucleus.SSS

open PyNucleus.Loops PyNucleus.Spec PyNucleus.CSR

variable {K : Type}

/-- `matvec_no_overwrite`, SSS_LinearOperator 53-66 (also the loop of `matvec`, 44-50). -/
def matvecNoOverwrite [Semiring K] (S : SSS K) (x y : List K) : List K :=
  forRange 0 S.n y fun y i =>
    let s := forRange (S.indptr.getD i 0) (S.indptr.getD (i + 1) 0)
      (S.diagonal.getD i 0 * x.getD i 0, y) fun s j =>
        let k := S.indices.getD j 0
        (s.1 + S.data.getD j 0 * x.getD k 0, s.2.modify k (· + S.data.getD j 0 * x.getD i 0))
    s.2.modify i (· + s.1)

/-- `matvec` with one thread, 26-51. -/
def matvec [Semiring K] (S : SSS K) (x y : List K) : List K :=
  matvecNoOverwrite S x (List.replicate y.length 0)

/-- `setEntry`, 78-102: nothing happens for `I < J`; `none` is an `IndexError`. -/
def setEntry (S : SSS K) (I J : Nat) (val : K) : Option (SSS K) :=
  if I = J then some { S with diagonal := S.diagonal.set I val }
  else if I > J then
    (CSR.setEntry S.lower I J val).map fun L => { S with data := L.data }
  else some S

/-- `addToEntry`, 104-129. -/
def addToEntry [Add K] (S : SSS K) (I J : Nat) (val : K) : SSS K :=
  if I = J then { S with diagonal := S.diagonal.modify I (· + val) }
  else if I > J then { S with data := (CSR.addToEntry S.lower I J val).data }
  else S

/-- `getEntry`, 131-155. -/
def getEntry [Zero K] (S : SSS K) (I J : Nat) : K :=
  if I = J then S.diagonal.getD I 0
  else if I < J then CSR.getEntry S.lower J I
  else CSR.getEntry S.lower I J

/-- State of the fill loops: pointers, columns, values. -/
abbrev Fill (K : Type) := List Nat × List Nat × List K

/-- `indices[indptr[r]] = c; data[indptr[r]] = v; indptr[r] += 1`. -/
def put (s : Fill K) (r c : Nat) (v : K) : Fill K :=
  (s.1.modify r (· + 1), s.2.1.set (s.1.getD r 0) c, s.2.2.set (s.1.getD r 0) v)

/-- `to_csr`, 160-200.  `u`, `v`: the uninitialised arrays. -/
def toCSR [Zero K] (S : SSS K) (u : List Nat) (v : List K) : CSR K :=
  let p := forRange 0 S.n (List.replicate (S.n + 1) 0) fun p i =>
    forRange (S.indptr.getD i 0) (S.indptr.getD (i + 1) 0) (p.modify (i + 1) (· + 1)) fun p jj =>
      (p.modify (i + 1) (· + 1)).modify (S.indices.getD jj 0 + 1) (· + 1)
  let p := cumsum S.n p
  let s := forRange 0 S.n (p, u, v) fun s i =>
    forRange (S.indptr.getD i 0) (S.indptr.getD (i + 1) 0) (put s i i (S.diagonal.getD i 0)) fun s jj =>
      put (put s i (S.indices.getD jj 0) (S.data.getD jj 0)) (S.indices.getD jj 0) i (S.data.getD jj 0)
  ⟨shiftBack S.n s.1, s.2.1, s.2.2, S.n, S.n⟩

/-- `to_lower_csc`, 202-238: the arrays of the lower triangle by columns, read as the rows of a
matrix. -/
def toLowerCSC [Zero K] (S : SSS K) (u : List Nat) (v : List K) : CSR K :=
  let p := forRange 0 S.n (List.replicate (S.n + 1) 0) fun p i =>
    forRange (S.indptr.getD i 0) (S.indptr.getD (i + 1) 0) (p.modify (i + 1) (· + 1)) fun p jj =>
      p.modify (S.indices.getD jj 0 + 1) (· + 1)
  let p := cumsum S.n p
  let s := forRange 0 S.n (p, u, v) fun s i =>
    forRange (S.indptr.getD i 0) (S.indptr.getD (i + 1) 0) (put s i i (S.diagonal.getD i 0)) fun s jj =>
      put s (S.indices.getD jj 0) i (S.data.getD jj 0)
  ⟨shiftBack S.n s.1, s.2.1, s.2.2, S.n, S.n⟩

/-- `to_sss`, CSR_LinearOperator 192-228.  `u`, `v`, `dg`: the uninitialised arrays. -/
def ofCSR [Zero K] (A : CSR K) (u : List Nat) (v dg : List K) : SSS K :=
  let p := forRange 0 A.numRows (List.replicate (A.numRows + 1) 0) fun p i =>
    forRow A i p fun p j _ => if j < i then p.modify (i + 1) (· + 1) else p
  let p := cumsum A.numRows p
  let s := forRange 0 A.numRows ((p, u, v), dg) fun s i =>
    forRow A i s fun s j d =>
      if j < i then (put s.1 i j d, s.2)
      else if j = i then (s.1, s.2.set i d)
      else s
  ⟨shiftBack A.numRows s.1.1, s.1.2.1, s.1.2.2, s.2, A.numRows⟩

/-- `SSS_VectorLinearOperator.getEntry`, 464-500: the content of the output vector `val`.
On the diagonal the `return` stands inside the component loop. -/
def getEntryVec [Zero K] (S : SSS (List K)) (vectorSize I J : Nat) (val : List K) : List K :=
  if I = J then
    if 0 < vectorSize then val.set 0 ((S.diagonal.getD I []).getD 0 0) else val
  else if I < J then CSR.getEntryVec S.lower vectorSize J I val
  else CSR.getEntryVec S.lower vectorSize I J val

end PyNucleus.SSS
