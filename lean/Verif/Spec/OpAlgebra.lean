import Verif.Model.OpAlgebra

/-! # Matrix of an operator expression -/

namespace PyNucleus.OpAlgebra

open PyNucleus.Spec PyNucleus.Blas

variable {K : Type}

namespace Op

/-- The matrix an operator stands for. -/
def mat [Field K] : Op K → Nat → Nat → K
  | csr A, i, j => A.entry i j
  | dense A, i, j => A.entry i j
  | diag d, i, j => if i = j then d.getD i 0 else 0
  | ident _ alpha, i, j => if i = j then alpha else 0
  | null _ _, _, _ => 0
  | mult A f, i, j => f * A.mat i j
  | sum M S facS facM _, i, j => facM * M.mat i j + facS * S.mat i j
  | prod A B _, i, j => ∑ k ∈ Finset.range A.shape.2, A.mat i k * B.mat k j
  | trans A, i, j => A.mat j i

/-- Addresses of the buffers. -/
def bufs : Op K → List Nat
  | mult A _ => A.bufs
  | sum M S _ _ z => z :: (M.bufs ++ S.bufs)
  | prod A B t => t :: (A.bufs ++ B.bufs)
  | trans A => A.bufs
  | _ => []

/-- Shapes match, the arrays are well formed and no operator owns a buffer of one of its
operands (operands exist before the operator).  Different operators may share buffers, as happens
when one object is used several times. -/
def WF : Op K → Prop
  | csr A => A.Valid
  | dense _ => True
  | diag _ => True
  | ident _ _ => True
  | null _ _ => True
  | mult A _ => A.WF
  | sum M S _ _ z => M.shape = S.shape ∧ z ∉ M.bufs ∧ z ∉ S.bufs ∧ M.WF ∧ S.WF
  | prod A B t => A.shape.2 = B.shape.1 ∧ t ∉ A.bufs ∧ t ∉ B.bufs ∧ A.WF ∧ B.WF
  | trans A => A.WF

/-- The buffers have the length that the constructors allocate (339, 569). -/
def Sized (h : Heap K) : Op K → Prop
  | mult A _ => A.Sized h
  | sum M S _ _ z => (h z).length = M.shape.1 ∧ M.Sized h ∧ S.Sized h
  | prod A B t => (h t).length = A.shape.2 ∧ A.Sized h ∧ B.Sized h
  | trans A => A.Sized h
  | _ => True

/-- Transposed application works: no diagonal, identity, null or transposed operator below, no
vanishing second factor, sums square or without factors, dense blocks not taller than wide. -/
def TransOK [Field K] : Op K → Prop
  | csr _ => True
  | dense A => A.numRows ≤ A.numCols
  | diag _ => False
  | ident _ _ => False
  | null _ _ => False
  | mult A _ => A.TransOK
  | sum M S facS facM _ => facS ≠ 0 ∧ (M.shape.1 = M.shape.2 ∨ facS = 1 ∧ facM = 1) ∧ M.TransOK ∧ S.TransOK
  | prod A B _ => A.TransOK ∧ B.TransOK
  | trans _ => False

/-- Every `.T` in the expression is applied to an operator whose transposed application works. -/
def Usable [Field K] : Op K → Prop
  | mult A _ => A.Usable
  | sum M S _ _ _ => M.Usable ∧ S.Usable
  | prod A B _ => A.Usable ∧ B.Usable
  | trans A => A.TransOK
  | _ => True

end Op

/-- A matrix with its shape. -/
abbrev Den (K : Type) := (Nat × Nat) × (Nat → Nat → K)

/-- Matrix meant by a line, given those of the previous lines; `none` if the shapes do not fit. -/
def Stmt.den [Field K] (ds : List (Den K)) : Stmt K → Option (Den K)
  | .csr A => some ((A.numRows, A.numCols), A.entry)
  | .dense A => some ((A.numRows, A.numCols), A.entry)
  | .diag d => some ((d.length, d.length), fun i j => if i = j then d.getD i 0 else 0)
  | .ident n alpha => some ((n, n), fun i j => if i = j then alpha else 0)
  | .null r c => some ((r, c), fun _ _ => 0)
  | .add i j => do
      let a ← ds[i]?
      let b ← ds[j]?
      if a.1 = b.1 then some (a.1, fun i j => a.2 i j + b.2 i j) else none
  | .sub i j => do
      let a ← ds[i]?
      let b ← ds[j]?
      if a.1 = b.1 then some (a.1, fun i j => a.2 i j - b.2 i j) else none
  | .rmul c i => do
      let a ← ds[i]?
      some (a.1, fun i j => c * a.2 i j)
  | .mulr i c => do
      let a ← ds[i]?
      some (a.1, fun i j => a.2 i j * c)
  | .neg i => do
      let a ← ds[i]?
      some (a.1, fun i j => - a.2 i j)
  | .matmul i j => do
      let a ← ds[i]?
      let b ← ds[j]?
      if a.1.2 = b.1.1 then some ((a.1.1, b.1.2), fun i j => ∑ k ∈ Finset.range a.1.2, a.2 i k * b.2 k j) else none
  | .T i => do
      let a ← ds[i]?
      some ((a.1.2, a.1.1), fun i j => a.2 j i)

/-- Matrices meant by the lines of a program. -/
def denote [Field K] : List (Stmt K) → List (Den K) → Option (List (Den K))
  | [], ds => some ds
  | s :: ss, ds => do
      let d ← s.den ds
      denote ss (ds ++ [d])

/-- CSR arrays are well formed. -/
def Stmt.Valid : Stmt K → Prop
  | .csr A => A.Valid
  | _ => True

/-- Line without `.T`. -/
def Stmt.NoT : Stmt K → Prop
  | .T _ => False
  | _ => True

end PyNucleus.OpAlgebra
