import Verif.Spec.Matrix

/-! # Storage of triangular matrices by columns -/

namespace PyNucleus.Spec

variable {K : Type}

/-- Every column starts with its diagonal entry, the others lie below the diagonal. -/
def DiagFirst (C : CSR K) : Prop :=
  ∀ j, j < C.numRows → ∃ d rest, C.row j = (j, d) :: rest ∧ ∀ e ∈ rest, j < e.1

/-- Every column ends with its diagonal entry, the others lie above the diagonal. -/
def DiagLast (C : CSR K) : Prop :=
  ∀ j, j < C.numRows → ∃ d rest, C.row j = rest ++ [(j, d)] ∧ ∀ e ∈ rest, e.1 < j

/-- Every column lies strictly below the diagonal. -/
def StrictlyBelow (C : CSR K) : Prop :=
  ∀ j, j < C.numRows → ∀ e ∈ C.row j, j < e.1

end PyNucleus.Spec
