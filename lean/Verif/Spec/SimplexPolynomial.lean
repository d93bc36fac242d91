import Mathlib.Algebra.MvPolynomial.PDeriv
import Mathlib.RingTheory.MvPolynomial.Basic
import Mathlib.Algebra.MvPolynomial.Funext
import Mathlib.Algebra.Field.Rat
import Mathlib.Algebra.BigOperators.Field
import Mathlib.Tactic.Positivity
import Mathlib.Data.Nat.Factorial.Basic

/-!
# Mean values of polynomials over simplices

Polynomials in the barycentric coordinates of a simplex of dimension `d`, as elements of `MvPolynomial (Fin (d + 1)) ℚ`.  The mean value of
`λ₀^α₀ ⋯ λ_d^α_d` over a simplex is `d! α₀! ⋯ α_d! / (α₀ + ⋯ + α_d + d)!`.
-/

namespace PyNucleus.Simplex

open MvPolynomial

/-- Pairs `i ≤ j` of numbers below `n`, row by row: the order of the entries of symmetric local matrices and of the inner products. -/
def upper (n : Nat) : List (Nat × Nat) := (List.range n).flatMap fun i => (List.range (n - i)).map fun j => (i, i + j)

/-- Mean value of a monomial in barycentric coordinates. -/
def weight (d : Nat) (α : Fin (d + 1) → Nat) : ℚ := (d.factorial * ∏ i, (α i).factorial : Nat) / ((∑ i, α i) + d).factorial

/-- Mean value over the simplex. -/
noncomputable def mean (d : Nat) : MvPolynomial (Fin (d + 1)) ℚ →ₗ[ℚ] ℚ := (basisMonomials (Fin (d + 1)) ℚ).constr ℚ fun α => weight d α

theorem mean_monomial (d : Nat) (α : Fin (d + 1) →₀ Nat) (c : ℚ) : mean d (monomial α c) = c * weight d α := by
  have h : monomial α c = c • basisMonomials (Fin (d + 1)) ℚ α := by rw [coe_basisMonomials, smul_monomial, smul_eq_mul, mul_one]
  rw [h, map_smul, mean, Module.Basis.constr_basis, smul_eq_mul]

/-- The mean value of one is one. -/
theorem mean_one (d : Nat) : mean d 1 = 1 := by
  have h := mean_monomial d 0 1
  rw [monomial_zero', C_1] at h
  rw [h, weight]
  simp only [Finsupp.coe_zero, Pi.zero_apply, Nat.factorial_zero, Finset.prod_const_one, Finset.sum_const_zero, Nat.zero_add, one_mul, mul_one]
  exact div_self (by exact_mod_cast Nat.factorial_ne_zero d)

/-- The mean value respects that the barycentric coordinates sum to one. -/
theorem mean_mul_sum (d : Nat) (p : MvPolynomial (Fin (d + 1)) ℚ) : mean d (p * ∑ i, X i) = mean d p := by
  induction p using MvPolynomial.induction_on' with
  | add p q hp hq => rw [add_mul, map_add, map_add, hp, hq]
  | monomial α c =>
    rw [Finset.mul_sum, map_sum, mean_monomial]
    have h : ∀ i : Fin (d + 1), mean d (monomial α c * X i) = c * weight d α * ((α i + 1 : Nat) / ((∑ j, α j) + d + 1 : Nat)) := fun i => by
      rw [X, monomial_mul, mul_one, mean_monomial, mul_assoc]
      congr 1
      unfold weight
      have h1 : ∑ j, (α + Finsupp.single i 1 : Fin (d + 1) →₀ Nat) j = (∑ j, α j) + 1 := by
        simp only [Finsupp.add_apply, Finset.sum_add_distrib, Finsupp.single_apply, Finset.sum_ite_eq, Finset.mem_univ, if_true]
      have h2 : ∏ j, ((α + Finsupp.single i 1 : Fin (d + 1) →₀ Nat) j).factorial = (α i + 1) * ∏ j, (α j).factorial := by
        rw [← Finset.mul_prod_erase _ _ (Finset.mem_univ i), ← Finset.mul_prod_erase _ (fun j => (α j).factorial) (Finset.mem_univ i), ← mul_assoc]
        congr 1
        · simp only [Finsupp.add_apply, Finsupp.single_eq_same, Nat.factorial_succ]
        · refine Finset.prod_congr rfl fun j hj => ?_
          rw [Finsupp.add_apply, Finsupp.single_eq_of_ne (Finset.ne_of_mem_erase hj), add_zero]
      rw [h1, h2, show (∑ j, α j) + 1 + d = (∑ j, α j) + d + 1 by omega, Nat.factorial_succ]
      push_cast
      rw [div_mul_div_comm]
      congr 1 <;> ring
    rw [Finset.sum_congr rfl fun i _ => h i, ← Finset.mul_sum, ← Finset.sum_div]
    have h3 : (∑ i : Fin (d + 1), ((α i + 1 : Nat) : ℚ)) = ((∑ j, α j) + d + 1 : Nat) := by
      push_cast
      rw [Finset.sum_add_distrib]
      simp [add_assoc]
    rw [h3, div_self (by positivity), mul_one]

end PyNucleus.Simplex
