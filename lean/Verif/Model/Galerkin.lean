import Verif.Model.SSS
import Verif.Model.Transpose
import Mathlib.Algebra.Field.Defs

/-!
# Model of the triple products R*A*R^T

/repo/base/PyNucleus_base/linear_operators.pyx 487-822 and `restrictMatrix`,
CSR_LinearOperator_{SCALAR}.pxi 334-338.  The arrays of `A` in symmetric storage are those of
its lower triangle.
-/

namespace PyNucleus.Galerkin

open PyNucleus.Loops PyNucleus.Spec PyNucleus.CSR

variable {K : Type}

/-- `while (mm1 < e1) and (mm2 < e2)`: add `f mm1 mm2` at equal columns,
linear_operators.pyx 673-683 (also 509-518, 531-541, 565-575, 703-713). -/
def merge [Add K] (c1 c2 : List Nat) (f : Nat → Nat → K) (e1 e2 mm1 mm2 : Nat) (sum : K) : K :=
  if _h : mm1 < e1 ∧ mm2 < e2 then
    if c1.getD mm1 0 < c2.getD mm2 0 then merge c1 c2 f e1 e2 (mm1 + 1) mm2 sum
    else if c1.getD mm1 0 > c2.getD mm2 0 then merge c1 c2 f e1 e2 mm1 (mm2 + 1) sum
    else merge c1 c2 f e1 e2 (mm1 + 1) (mm2 + 1) (sum + f mm1 mm2)
  else sum
termination_by (e1 - mm1) + (e2 - mm2)
decreasing_by all_goals omega

/-- `while (mm1 < e) and (c[mm1] < j): mm1 += 1`, 521-522 (also 543-544, 578-579, 584-585). -/
def seek (c : List Nat) (j e mm : Nat) : Nat :=
  if _h : mm < e ∧ c.getD mm 0 < j then seek c j e (mm + 1) else mm
termination_by e - mm
decreasing_by omega

/-- `if (mm1 < e) and (c[mm1] == j): sum += g` after the search. -/
def seekAdd [Add K] (c : List Nat) (j e mm : Nat) (g : Nat → K) (sum : K) : K :=
  let mm := seek c j e mm
  if mm < e ∧ c.getD mm 0 = j then sum + g mm else sum

/-- `getEntry`, 653-686. -/
def getEntry [Semiring K] (i j : Nat) (R A : CSR K) : K :=
  forRange (R.indptr.getD i 0) (R.indptr.getD (i + 1) 0) 0 fun sum kk =>
    let k := R.indices.getD kk 0
    let sumI := merge A.indices R.indices (fun mm1 mm2 => A.data.getD mm1 0 * R.data.getD mm2 0)
      (A.indptr.getD (k + 1) 0) (R.indptr.getD (j + 1) 0) (A.indptr.getD k 0) (R.indptr.getD j 0) 0
    sum + R.data.getD kk 0 * sumI

/-- `getEntryFromD`, 689-716. -/
def getEntryFromD [Semiring K] (i j : Nat) (R : CSR K) (diag : List K) : K :=
  merge R.indices R.indices
    (fun mm1 mm2 => R.data.getD mm1 0 * diag.getD (R.indices.getD mm1 0) 0 * R.data.getD mm2 0)
    (R.indptr.getD (i + 1) 0) (R.indptr.getD (j + 1) 0) (R.indptr.getD i 0) (R.indptr.getD j 0) 0

/-- `getEntry_restr`, 489-547. -/
def getEntryRestr [Field K] (i j : Nat) (R : Graph) (A : CSR K) : K :=
  let sum := forRange (R.indptr.getD i 0) (R.indptr.getD (i + 1) 0) 0 fun sum kk =>
    let k := R.indices.getD kk 0
    let sumI := merge A.indices R.indices (fun mm1 _ => A.data.getD mm1 0 * (1 / 2))
      (A.indptr.getD (k + 1) 0) (R.indptr.getD (j + 1) 0) (A.indptr.getD k 0) (R.indptr.getD j 0) 0
    let sumI := seekAdd A.indices j (A.indptr.getD (k + 1) 0) (A.indptr.getD k 0)
      (fun mm1 => A.data.getD mm1 0) sumI
    sum + 1 / 2 * sumI
  let sum := merge A.indices R.indices (fun mm1 _ => A.data.getD mm1 0 * (1 / 2))
    (A.indptr.getD (i + 1) 0) (R.indptr.getD (j + 1) 0) (A.indptr.getD i 0) (R.indptr.getD j 0) sum
  seekAdd A.indices j (A.indptr.getD (i + 1) 0) (A.indptr.getD i 0) (fun mm1 => A.data.getD mm1 0) sum

/-- `getEntryFromD_restr`, 550-588. -/
def getEntryFromDRestr [Field K] (i j : Nat) (R : Graph) (diag : List K) : K :=
  let sum := merge R.indices R.indices
    (fun mm1 _ => 1 / 4 * diag.getD (R.indices.getD mm1 0) 0)
    (R.indptr.getD (i + 1) 0) (R.indptr.getD (j + 1) 0) (R.indptr.getD i 0) (R.indptr.getD j 0) 0
  let sum := seekAdd R.indices j (R.indptr.getD (i + 1) 0) (R.indptr.getD i 0)
    (fun _ => 1 / 2 * diag.getD j 0) sum
  seekAdd R.indices i (R.indptr.getD (j + 1) 0) (R.indptr.getD j 0)
    (fun _ => 1 / 2 * diag.getD i 0) sum

/-- `for i: for jj in range(indptr[i], indptr[i+1]): data[jj] += g(i, indices[jj])`, 604-612 and
775-784. -/
def addEntries [Add K] (indptr indices : List Nat) (g : Nat → Nat → K) (data : List K) : List K :=
  forRange 0 (indptr.length - 1) data fun data i =>
    forRange (indptr.getD i 0) (indptr.getD (i + 1) 0) data fun data jj =>
      data.modify jj (· + g i (indices.getD jj 0))

/-- `multiply`, 764-784, `A` and `Ac` in CSR format. -/
def multiply [Semiring K] (R A Ac : CSR K) : CSR K :=
  { Ac with data := addEntries Ac.indptr Ac.indices (fun i j => getEntry i j R A) Ac.data }

/-- The last loop, 800-822: `(data, diagonal)`. -/
def diagLoop [Semiring K] (Ac : SSS K) (first second : Nat → K) (g : Nat → Nat → K)
    (data diagonal : List K) : List K × List K :=
  forRange 0 (Ac.indptr.length - 1) (data, diagonal) fun s i =>
    let diagonal := s.2.modify i (· + first i)
    let data := forRange (Ac.indptr.getD i 0) (Ac.indptr.getD (i + 1) 0) s.1 fun data jj =>
      data.modify jj (· + g i (Ac.indices.getD jj 0))
    (data, diagonal.modify i (· + second i))

/-- `multiply`, 764-822, `A` and `Ac` in symmetric storage. -/
def multiplySSS [Semiring K] (R : CSR K) (A Ac : SSS K) : SSS K :=
  let data := addEntries Ac.indptr Ac.indices (fun i j => getEntry i j R A.lower) Ac.data
  let data := addEntries Ac.indptr Ac.indices (fun i j => getEntry j i R A.lower) data
  let s := diagLoop Ac (fun i => 2 * getEntry i i R A.lower)
    (fun i => getEntryFromD i i R A.diagonal) (fun i j => getEntryFromD i j R A.diagonal) data Ac.diagonal
  { Ac with data := s.1, diagonal := s.2 }

/-- `multiply_restr`, 591-612, CSR format. -/
def multiplyRestr [Field K] (R : Graph) (A Ac : CSR K) : CSR K :=
  { Ac with data := addEntries Ac.indptr Ac.indices (fun i j => getEntryRestr i j R A) Ac.data }

/-- `multiply_restr`, 591-648, symmetric storage.  The two additions 628 and 630 to `diagonal[i]`
are written as one. -/
def multiplyRestrSSS [Field K] (R : Graph) (A Ac : SSS K) : SSS K :=
  let data := addEntries Ac.indptr Ac.indices (fun i j => getEntryRestr i j R A.lower) Ac.data
  let data := addEntries Ac.indptr Ac.indices (fun i j => getEntryRestr j i R A.lower) data
  let s := diagLoop Ac (fun i => A.diagonal.getD i 0 + 2 * getEntryRestr i i R A.lower)
    (fun i => getEntryFromDRestr i i R A.diagonal) (fun i j => getEntryFromDRestr i j R A.diagonal)
    data Ac.diagonal
  { Ac with data := s.1, diagonal := s.2 }

/-- The loops 730-740 of `multiply2` with `add i j v` for `Ac.addToEntry`. -/
def mul2Loop [Semiring K] {σ : Type} (P A : CSR K) (add : σ → Nat → Nat → K → σ) (s : σ) : σ :=
  forRange 0 (A.indptr.length - 1) s fun s k =>
    forRow A k s fun s l akl =>
      forRow P k s fun s i pki =>
        forRow P l s fun s j plj => add s i j (pki * akl * plj)

/-- `multiply2`, 719-740, CSR format. -/
def multiply2 [Semiring K] (P A Ac : CSR K) : CSR K :=
  mul2Loop P A (fun B i j v => CSR.addToEntry B i j v) Ac

/-- `multiply2`, 719-761, symmetric storage. -/
def multiply2SSS [Semiring K] (P : CSR K) (A Ac : SSS K) : SSS K :=
  let B := mul2Loop P A.lower (fun B i j v => SSS.addToEntry B i j v) Ac
  let B := mul2Loop P A.lower (fun B i j v => SSS.addToEntry B j i v) B
  forRange 0 (A.indptr.length - 1) B fun B k =>
    let akl := A.diagonal.getD k 0
    forRow P k B fun B i pki => forRow P k B fun B j plj => SSS.addToEntry B i j (pki * akl * plj)

/-- `restrictMatrix` of a CSR matrix, CSR_LinearOperator 334-338. -/
def restrictMatrix [Semiring K] (R A Ac : CSR K) : CSR K :=
  let Ac := if R.numRows = Ac.numRows then multiply R A Ac else Ac
  if R.numCols = Ac.numRows then multiply2 R A Ac else Ac

end PyNucleus.Galerkin
