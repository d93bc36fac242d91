import Verif.Model.Smoothers
import Verif.Spec.Smoothers

/-! # Matrices of the operators of the SOR preconditioner -/

namespace PyNucleus.Smoothers

open PyNucleus.Spec

variable {K : Type}

/-- The matrix of an operator that the SOR preconditioner can handle. -/
def SorOp.entry [Field K] : SorOp K → Nat → Nat → K
  | .csr A, i, j => A.entry i j
  | .sss _ _, _, _ => 0
  | .ts M S facS facM, i, j => facS * S.entry i j + facM * M.entry i j

/-- Sorted square matrices of dimension `n`; the two matrices of a time stepper have one pattern. -/
def SorOp.OK (n : Nat) : SorOp K → Prop
  | .csr A => A.Valid ∧ A.Sorted ∧ A.numCols = A.numRows ∧ A.numRows = n
  | .sss _ _ => False
  | .ts M S _ _ => S.Valid ∧ S.Sorted ∧ S.numCols = S.numRows ∧ S.numRows = n ∧ M.Valid ∧ SamePattern M S

end PyNucleus.Smoothers
