import Verif.Spec.SimplexPolynomial
import Verif.Model.Quadrature
import Mathlib.Data.Rat.Cast.CharZero
import Mathlib.Algebra.MvPolynomial.Monad
import Mathlib.Algebra.Polynomial.Derivative
import Mathlib.Algebra.Polynomial.Eval.Defs

/-!
# Exactness of quadrature rules
-/

namespace PyNucleus.Quadrature

open MvPolynomial PyNucleus.SimplexGeometry

variable {K : Type} [Field K]

/-- Mean value over the simplex of a polynomial in the barycentric coordinates: `mean` of `Simplex`, with coefficients in `K`. -/
noncomputable def mean (K : Type) [Field K] (d : Nat) : MvPolynomial (Fin (d + 1)) K →ₗ[K] K :=
  (basisMonomials (Fin (d + 1)) K).constr K fun α => ((Simplex.weight d α : ℚ) : K)

/-- The nodes have `d + 1` barycentric coordinates with sum one, and the rule gives the mean value of polynomials up to degree `p`. -/
structure ExactTo (d p : Nat) (R : List (List K × K)) : Prop where
  nodes : ∀ r ∈ R, r.1.length = d + 1 ∧ r.1.sum = 1
  exact : ∀ q : MvPolynomial (Fin (d + 1)) K, q.totalDegree ≤ p → (R.map fun r => r.2 * MvPolynomial.eval (fun i : Fin (d + 1) => r.1.getD i 0) q).sum = mean K d q

/-- Polynomial in space as polynomial in the barycentric coordinates of a simplex with vertices `S`. -/
noncomputable def pullback (d dim : Nat) (S : Nat → Nat → K) (f : MvPolynomial (Fin dim) K) : MvPolynomial (Fin (d + 1)) K :=
  MvPolynomial.bind₁ (fun m : Fin dim => ∑ k : Fin (d + 1), C (S k m) * X k) f

/-- Gauss quadrature with `k` nodes on the interval from -1 to 1: derivatives of polynomials up to degree `2 k` are integrated exactly. -/
def IsLegendre (k : Nat) (L : List (K × K)) : Prop :=
  ∀ Q : Polynomial K, Q.natDegree ≤ 2 * k → (L.map fun p => p.2 * (Polynomial.derivative Q).eval p.1).sum = Q.eval 1 - Q.eval (-1)

/-- Gauss quadrature with `k` nodes on the interval from 0 to 1 with weight `(1 - x) ^ (p - q) * x ^ (q - 1)`: the moments are values of the Beta function. -/
def IsJacobi (k p q : Nat) (L : List (K × K)) : Prop :=
  ∀ n, n ≤ 2 * k - 1 → (L.map fun r => r.2 * r.1 ^ n).sum = (((n + q - 1).factorial * (p - q).factorial / (n + p).factorial : ℚ) : K)

end PyNucleus.Quadrature
