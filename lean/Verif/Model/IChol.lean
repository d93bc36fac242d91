import Verif.Model.SSS
import Verif.Model.SortIndices
import Mathlib.Algebra.Field.Defs

/-!
# Model of the incomplete Cholesky factorisation

/repo/base/PyNucleus_base/linalg.pyx 44-98 (`ichol_csr`; `ichol_sss`, 101-153, has the same third
step).  `sqrt` is a parameter.
-/

namespace PyNucleus.IChol

open PyNucleus.Loops PyNucleus.Spec PyNucleus.CSR PyNucleus.SSS

variable {K : Type}

/-- The search for the diagonal entry of row `i`, 71-74. -/
def findDiag [Zero K] (A : CSR K) (i : Nat) (diag : List K) : List K :=
  (forRow A i (diag, false) fun s j d =>
    if s.2 then s else if j = i then (s.1.set i d, true) else s).1

/-- Steps 1 and 2, 57-84: the strictly lower part by columns and the diagonal.  `u` and `dg` are
uninitialised arrays. -/
def lowerColumns [Zero K] (A : CSR K) (u : List Nat) (dg : List K) : CSR K × List K :=
  let n := A.numRows
  let p := forRange 0 n (List.replicate (n + 1) 0) fun p i =>
    forRow A i p fun p j _ => if j < i then p.modify (j + 1) (· + 1) else p
  let p := cumsum n p
  let s := forRange 0 n ((p, u, List.replicate u.length 0), dg) fun s i =>
    (forRow A i s.1 fun s j d => if j < i then put s j i d else s, findDiag A i s.2)
  (sortMatrix ⟨shiftBack n s.1.1, s.1.2.1, s.1.2.2, n, n⟩, s.2)

/-- The loop over `hh`, 94-97: subtract at the first match. -/
def subtractMatch [Field K] (C : CSR K) (i jj kk : Nat) (data : List K) : List K :=
  (forRange jj (C.indptr.getD (i + 1) 0) (data, false) fun s hh =>
    if s.2 then s
    else if C.indices.getD hh 0 = C.indices.getD kk 0 then
      (s.1.modify kk (· - s.1.getD hh 0 * s.1.getD jj 0), true)
    else s).1

/-- Step 3, 86-97: `(diagonal, data)`. -/
def factor [Field K] (sqrt : K → K) (C : CSR K) (diag : List K) : List K × List K :=
  forRange 0 C.numRows (diag, C.data) fun s i =>
    forRange (C.indptr.getD i 0) (C.indptr.getD (i + 1) 0) (s.1.modify i sqrt, s.2) fun s jj =>
      let data := s.2.modify jj (· / s.1.getD i 0)
      let j := C.indices.getD jj 0
      let diag := s.1.modify j (· - data.getD jj 0 * data.getD jj 0)
      (diag, forRange (C.indptr.getD j 0) (C.indptr.getD (j + 1) 0) data fun data kk =>
        subtractMatch C i jj kk data)

/-- `ichol_csr`: the strictly lower part of the factor by columns, and its diagonal. -/
def ichol [Field K] (sqrt : K → K) (A : CSR K) (u : List Nat) (dg : List K) : CSR K × List K :=
  let r := lowerColumns A u dg
  let f := factor sqrt r.1 r.2
  ({ r.1 with data := f.2 }, f.1)

end PyNucleus.IChol
