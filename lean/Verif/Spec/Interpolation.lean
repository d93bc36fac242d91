import Mathlib.Algebra.Polynomial.Eval.Degree
import Mathlib.Algebra.BigOperators.Group.Finset.Basic

/-! # Reference: polynomials in several variables -/

namespace PyNucleus.Transfer

variable {K : Type} [Field K]

/-- `f` is, on points with `dim` coordinates, a polynomial of degree less than `m` in every variable: a sum of products of polynomials in one variable. -/
def IsPoly (dim m : Nat) (f : List K → K) : Prop :=
  ∃ terms : List (Nat → Polynomial K), (∀ t ∈ terms, ∀ l < dim, (t l).degree < m) ∧
    ∀ x : Nat → K, f ((List.range dim).map x) = (terms.map fun t => ∏ l ∈ Finset.range dim, (t l).eval (x l)).sum

end PyNucleus.Transfer
