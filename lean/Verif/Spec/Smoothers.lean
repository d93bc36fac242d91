import Verif.Spec.Matrix
import Mathlib.Algebra.BigOperators.Intervals
import Mathlib.Algebra.Field.Basic

/-! # Splitting of a matrix and the equations of a sweep -/

namespace PyNucleus.Spec

open Finset

variable {K : Type} [NonUnitalNonAssocSemiring K]

/-- `(L x)_i` with the strictly lower triangle of `M`. -/
def lowerMul (M : Nat → Nat → K) (x : List K) (i : Nat) : K := ∑ m ∈ range i, M i m * x.getD m 0

/-- `(U x)_i` with the strictly upper triangle of the `n`-dimensional matrix `M`. -/
def upperMul (n : Nat) (M : Nat → Nat → K) (x : List K) (i : Nat) : K := ∑ m ∈ Ico (i + 1) n, M i m * x.getD m 0

/-- One Gauss-Seidel sweep leads from `y` to `y'`: row `i` holds with the new values of the rows
visited before (and of row `i`) and the old values of the rows visited later. -/
def SweepEq (n : Nat) (M : Nat → Nat → K) (b : List K) (forward : Bool) (y y' : List K) : Prop :=
  y'.length = n ∧ ∀ i, i < n →
    lowerMul M (if forward then y' else y) i + M i i * y'.getD i 0 +
      upperMul n M (if forward then y else y') i = b.getD i 0

/-- `y'` is reached from `y` in `steps` steps of the relation `R`. -/
def Chain {α : Type} (R : α → α → Prop) (steps : Nat) (y y' : α) : Prop :=
  ∃ ys : Nat → α, ys 0 = y ∧ ys steps = y' ∧ ∀ m, m < steps → R (ys m) (ys (m + 1))

/-- The operator multiplies arrays of length `n` by `M`. -/
def Acts (n : Nat) (A : List K → List K → List K) (M : Nat → Nat → K) : Prop :=
  ∀ x y : List K, x.length = n → y.length = n → (A x y).length = n ∧ ∀ i, i < n → (A x y).getD i 0 = mulVec n M x i

/-- `R` relates an array to a correction; `prec` returns such a correction. -/
def Corrects {K : Type} (n : Nat) (prec : List K → List K → Option (List K)) (R : List K → List K → Prop) : Prop :=
  ∀ x r : List K, x.length = n → r.length = n → ∃ z, prec x r = some z ∧ z.length = n ∧ R x z

/-- One step of a smoother: `y'` is `y` plus a correction of the residual `b - M y`. -/
def StepEq {K : Type} [Ring K] (n : Nat) (M : Nat → Nat → K) (b : List K) (R : List K → List K → Prop) (y y' : List K) : Prop :=
  y'.length = n ∧ ∃ r z : List K, r.length = n ∧ z.length = n ∧ R r z ∧
    (∀ i, i < n → r.getD i 0 = b.getD i 0 - mulVec n M y i) ∧ ∀ i, i < n → y'.getD i 0 = y.getD i 0 + z.getD i 0

/-- `(D/omega + L) z = x` (`forward`) or `(D/omega + U) z = x`. -/
def SorEq {K : Type} [Field K] (n : Nat) (M : Nat → Nat → K) (D : List K) (omega : K) (forward : Bool) (x z : List K) : Prop :=
  ∀ i, i < n → D.getD i 0 / omega * z.getD i 0 + (if forward then lowerMul M z i else upperMul n M z i) = x.getD i 0

/-- `z = (2-omega) (D/omega+U)^{-1} (D/omega) (D/omega+L)^{-1} x`. -/
def SsorEq {K : Type} [Field K] (n : Nat) (M : Nat → Nat → K) (D : List K) (omega : K) (x z : List K) : Prop :=
  ∃ u v : List K, u.length = n ∧ v.length = n ∧ SorEq n M D omega true x u ∧
    (∀ i, i < n → D.getD i 0 / omega * v.getD i 0 + upperMul n M v i = D.getD i 0 / omega * u.getD i 0) ∧
    ∀ i, i < n → z.getD i 0 = (2 - omega) * v.getD i 0

/-- `D z = omega x`. -/
def JacobiEq {K : Type} [Field K] (n : Nat) (D : List K) (omega : K) (x z : List K) : Prop :=
  ∀ i, i < n → D.getD i 0 * z.getD i 0 = omega * x.getD i 0

/-- Both arrays of entries have the same rows. -/
def SamePattern {K : Type} (A B : CSR K) : Prop := A.indptr = B.indptr ∧ A.indices = B.indices ∧ A.numRows = B.numRows

end PyNucleus.Spec
