import Verif.Proof.Chebyshev
import Mathlib.Algebra.Field.Rat
import Mathlib.Algebra.Order.Ring.Rat
import Mathlib.Algebra.Order.Field.Basic
import Mathlib.Tactic.Positivity
import Mathlib.Tactic.Linarith

/-!
# C51: Chebyshev preconditioner

For every degree at least one, every estimate `rhoA > 0` and every interval `0 < lower <= upper`, the
preconditioner returns `z` with `x - A z = (I - A/r_1) ... (I - A/r_d) x` where `r_i` are the Chebyshev roots
scaled to `[rhoA lower, rhoA upper]`; an eigenvector is multiplied by the polynomial that is one at zero and
vanishes at the scaled roots; the zero vector is kept.
-/

namespace PyNucleus.Props.C51

open PyNucleus.Spec PyNucleus.Smoothers

variable {K : Type} [Field K] [LinearOrder K] [IsStrictOrderedRing K]

/-- The scaled roots lie in the interval. -/
theorem roots_in_interval (rhoA lower upper : K) (std : List K) (h1 : 0 < rhoA) (h3 : lower ≤ upper)
    (hstd : ∀ c ∈ std, -1 ≤ c ∧ c ≤ 1) :
    ∀ r ∈ chebRoots rhoA lower upper std, rhoA * lower ≤ r ∧ r ≤ rhoA * upper := by
  intro r hr
  unfold chebRoots at hr
  obtain ⟨c, hc, rfl⟩ := List.mem_map.1 hr
  obtain ⟨hl, hu⟩ := hstd c hc
  have hd : 0 ≤ rhoA * upper - rhoA * lower := by rw [← mul_sub]; exact mul_nonneg h1.le (sub_nonneg.2 h3)
  constructor
  · have : 0 ≤ (rhoA * upper - rhoA * lower) * (1 + c) := mul_nonneg hd (by linarith)
    linarith
  · have : 0 ≤ (rhoA * upper - rhoA * lower) * (1 - c) := mul_nonneg hd (by linarith)
    linarith

theorem residual_polynomial (n : Nat) (A : List K → List K → List K) (M : Matrix (Fin n) (Fin n) K) (hA : Applies n A M)
    (rhoA lower upper : K) (std : List K) (h1 : 0 < rhoA) (h2 : 0 < lower) (h3 : lower ≤ upper) (hdeg : std ≠ [])
    (hstd : ∀ c ∈ std, -1 ≤ c ∧ c ≤ 1) (x y t : List K) (hx : x.length = n) (hy : y.length = n) (ht : t.length = n) :
    ∃ z, chebMatvec A (chebCoeffs (chebRoots rhoA lower upper std)) x y t = some z ∧ z.length = n ∧
      toV n x - M.mulVec (toV n z) =
        (chebRoots rhoA lower upper std).foldl (fun v r => v - r⁻¹ • M.mulVec v) (toV n x) ∧
      (toV n x = 0 → toV n z = 0) ∧
      ∀ l : K, M.mulVec (toV n x) = l • toV n x →
        toV n x - M.mulVec (toV n z) = ((chebRoots rhoA lower upper std).map fun r => 1 - l / r).prod • toV n x := by
  obtain ⟨z, e1, e2, e3, e4⟩ := cheb_eq hA (chebRoots rhoA lower upper std)
    (fun r hr => (lt_of_lt_of_le (mul_pos h1 h2) (roots_in_interval rhoA lower upper std h1 h3 hstd r hr).1).ne')
    (by unfold chebRoots; simpa using hdeg) x y t hx hy ht
  refine ⟨z, e1, e2, e3, e4, fun l hl => ?_⟩
  rw [e3]
  have := fold_eigen M (toV n x) l hl (chebRoots rhoA lower upper std) 1
  rwa [one_smul, one_mul] at this

/-- Degree zero raises (`np.poly` of no roots is a number, which cannot be sliced; the model raises when the
first coefficient is read). -/
theorem degree_zero_fails {K : Type} [Field K] (A : List K → List K → List K) (rhoA lower upper : K) (x y t : List K) :
    chebMatvec A (chebCoeffs (chebRoots rhoA lower upper [])) x y t = none := by
  simp [chebRoots, chebCoeffs, npPoly, chebMatvec]

/-! ### concrete case: `A = diag(1, 2)`, roots 1 and 3 -/

def A2 (x _ : List ℚ) : List ℚ := [x.getD 0 0, 2 * x.getD 1 0]

example : chebRoots (1 : ℚ) 1 3 [-1, 1] = [1, 3] := by decide +kernel
example : chebCoeffs [(1 : ℚ), 3] = [-1 / 3, 4 / 3] := by decide +kernel
/-- `1 - 1*(1) = 0 = (1-1)(1-1/3)` and `1 - 2*(2/3) = -1/3 = (1-2)(1-2/3)`. -/
example : chebMatvec A2 (chebCoeffs [(1 : ℚ), 3]) [1, 1] [0, 0] [0, 0] = some [1, 2 / 3] := by decide +kernel

theorem A2_applies : Applies 2 A2 (Matrix.of ![![1, 0], ![0, 2]]) := by
  intro x y _ _
  refine ⟨rfl, ?_⟩
  funext i
  fin_cases i <;> simp [toV, A2, Matrix.mulVec, dotProduct, Fin.sum_univ_two]

example : ∃ z, chebMatvec A2 (chebCoeffs (chebRoots 1 1 3 [-1, 1])) [1, 1] [0, 0] [0, 0] = some z ∧ z.length = 2 := by
  obtain ⟨z, h1, h2, _⟩ := residual_polynomial 2 A2 _ A2_applies 1 1 3 [-1, 1] (by norm_num) (by norm_num) (by norm_num) (by simp)
    (by intro c hc; simp at hc; rcases hc with rfl | rfl <;> norm_num) [1, 1] [0, 0] [0, 0] rfl rfl rfl
  exact ⟨z, h1, h2⟩

end PyNucleus.Props.C51
