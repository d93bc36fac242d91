import Verif.Model.CSR

/-!
# Model of entry access

/repo/base/PyNucleus_base/CSR_LinearOperator_{SCALAR}.pxi 129-190 and the vector valued
variants 564-634.  `none` as the result of a whole call stands for a raised `IndexError`.
-/

namespace PyNucleus.CSR

open PyNucleus.Loops PyNucleus.Spec

variable {K : Type}

/-- `for i in range(low, high): if indices[i] == J: ... break`: position of the first hit
(`n` iterations left). -/
def scanRow (indices : List Nat) (J : Nat) : Nat → Nat → Option Nat
  | 0, _ => none
  | n + 1, i => if indices.getD i 0 = J then some i else scanRow indices J n (i + 1)

/-- The `while indices[low] != J` loop, 140-147: position, or `none` for the exit through
`if high-low <= 1`. -/
def bisectRow (indices : List Nat) (J low high : Nat) : Option Nat :=
  if indices.getD low 0 = J then some low
  else if _h : high - low ≤ 1 then none
  else
    if indices.getD ((low + high) / 2) 0 ≤ J then bisectRow indices J ((low + high) / 2) high
    else bisectRow indices J low ((low + high) / 2)
termination_by high - low
decreasing_by all_goals omega

/-- `setEntry`, 129-148. -/
def setEntry (A : CSR K) (I J : Nat) (val : K) : Option (CSR K) :=
  let low := A.indptr.getD I 0
  let high := A.indptr.getD (I + 1) 0
  if high - low < 20 then
    match scanRow A.indices J (high - low) low with
    | some i => some { A with data := A.data.set i val }
    | none => some A
  else
    match bisectRow A.indices J low high with
    | some i => some { A with data := A.data.set i val }
    | none => none

/-- `addToEntry`, 150-170. -/
def addToEntry [Add K] (A : CSR K) (I J : Nat) (val : K) : CSR K :=
  let low := A.indptr.getD I 0
  let high := A.indptr.getD (I + 1) 0
  if high - low < 20 then
    match scanRow A.indices J (high - low) low with
    | some i => { A with data := A.data.modify i (· + val) }
    | none => A
  else
    match bisectRow A.indices J low high with
    | some i => { A with data := A.data.modify i (· + val) }
    | none => A

/-- `getEntry`, 172-190.  When the `for` loop of a short row finds nothing the C function
ends without `return`, for which Cython returns zero. -/
def getEntry [Zero K] (A : CSR K) (I J : Nat) : K :=
  let low := A.indptr.getD I 0
  let high := A.indptr.getD (I + 1) 0
  if high - low < 20 then
    match scanRow A.indices J (high - low) low with
    | some i => A.data.getD i 0
    | none => 0
  else
    match bisectRow A.indices J low high with
    | some i => A.data.getD i 0
    | none => 0

/-- `CSR_VectorLinearOperator.getEntry`, 610-634: the values written to the output vector
`val` (rows of `data` are vectors). -/
def getEntryVec [Zero K] (A : CSR (List K)) (vectorSize I J : Nat) (val : List K) : List K :=
  let low := A.indptr.getD I 0
  let high := A.indptr.getD (I + 1) 0
  let put (i : Nat) := forRange 0 vectorSize val fun v k => v.set k ((A.data.getD i []).getD k 0)
  if high - low < 20 then
    match scanRow A.indices J (high - low) low with
    | some i => put i
    | none => val
  else
    match bisectRow A.indices J low high with
    | some i => put i
    | none => forRange 0 vectorSize val fun v k => v.set k 0

/-- `CSR_VectorLinearOperator.setEntry`, 564-585. -/
def setEntryVec [Zero K] (A : CSR (List K)) (vectorSize I J : Nat) (val : List K) :
    Option (CSR (List K)) :=
  let low := A.indptr.getD I 0
  let high := A.indptr.getD (I + 1) 0
  let write (d : List K) := forRange 0 vectorSize d fun d k => d.set k (val.getD k 0)
  let put (i : Nat) : CSR (List K) := { A with data := A.data.modify i write }
  if high - low < 20 then
    match scanRow A.indices J (high - low) low with
    | some i => some (put i)
    | none => some A
  else
    match bisectRow A.indices J low high with
    | some i => some (put i)
    | none => none

end PyNucleus.CSR
