import Verif.Proof.ShapeFunctions
import Mathlib.Algebra.Field.Rat
import Mathlib.Algebra.MvPolynomial.Degrees

/-!
# C41: Lagrange shape functions

Full statement: the P0, P1, P2 and P3 shape functions in 1, 2 and 3 dimensions are one at their own node and zero at the others, sum to one
at every point, and interpolation reproduces all polynomials up to the order of the element.
-/

namespace PyNucleus.Props.C41

open PyNucleus.ShapeFunctions

variable {K : Type} [Field K] [CharZero K]

/-- Value of a polynomial at barycentric coordinates. -/
noncomputable def value {n : Nat} (f : MvPolynomial (Fin n) K) (lam : List K) : K := MvPolynomial.eval (fun i : Fin n => lam.getD i 0) f

/-- `φ_i(node_j) = δ_ij`. -/
theorem nodal (p dim : Nat) (hp : p ≤ 3) (h1 : 1 ≤ dim) (h3 : dim ≤ 3) (i j : Nat) (hi : i < (localShapeFunctions p dim).length) (hj : j < (nodes K p dim).length) :
    ((localShapeFunctions p dim)[i]).eval ((nodes K p dim)[j]) = if i = j then 1 else 0 := by
  have h := nodal_matrix (K := K) p dim hp h1 h3
  have hl := congrArg List.length h
  rw [List.length_map, List.length_map, List.length_range] at hl
  have h1 := congrArg (fun m => (m[i]?.bind fun r => r[j]?)) h
  simp only [List.getElem?_map, List.getElem?_eq_getElem hi, Option.map_some, Option.bind_some, List.getElem?_eq_getElem hj,
    List.getElem?_range (show i < (nodes K p dim).length by omega), List.getElem?_range hj, Option.some.injEq] at h1
  exact h1

/-- Interpolation reproduces polynomials. -/
theorem reproduces (p dim : Nat) (hp : p ≤ 3) (h1 : 1 ≤ dim) (h3 : dim ≤ 3) (f : MvPolynomial (Fin (dim + 1)) K) (hf : f.totalDegree ≤ p)
    (lam : List K) (hl : lam.length = dim + 1) (hs : lam.sum = 1) :
    evalFun p dim (interpolate p dim (value f)) lam = value f lam := by
  have key : ∀ α : Fin (dim + 1) →₀ Nat, (∑ i, α i) ≤ p →
      (((localShapeFunctions p dim).zip (nodes K p dim)).map fun q => q.1.eval lam * ∏ i : Fin (dim + 1), q.2.getD i 0 ^ α i).sum = ∏ i : Fin (dim + 1), lam.getD i 0 ^ α i := by
    intro α hα
    rw [← evalFun_eq p dim (fun x => ∏ i : Fin (dim + 1), x.getD i 0 ^ α i)]
    interval_cases dim
    · match lam, hl with
      | [a, b], _ =>
        have hα : α 0 + α 1 ≤ p := le_of_eq_of_le (Fin.sum_univ_two fun i => α i).symm hα
        simp only [List.sum_cons, List.sum_nil, add_zero] at hs
        simpa [Fin.prod_univ_two] using monomial_1 p hp a b hs (α 0) (α 1) hα
    · match lam, hl with
      | [a, b, c], _ =>
        have hα : α 0 + α 1 + α 2 ≤ p := le_of_eq_of_le (Fin.sum_univ_three fun i => α i).symm hα
        simp only [List.sum_cons, List.sum_nil, add_zero, ← add_assoc] at hs
        simpa [Fin.prod_univ_three] using monomial_2 p hp a b c hs (α 0) (α 1) (α 2) hα
    · match lam, hl with
      | [a, b, c, d], _ =>
        have hα : α 0 + α 1 + α 2 + α 3 ≤ p := le_of_eq_of_le (Fin.sum_univ_four fun i => α i).symm hα
        simp only [List.sum_cons, List.sum_nil, add_zero, ← add_assoc] at hs
        simpa [Fin.prod_univ_four] using monomial_3 p hp a b c d hs (α 0) (α 1) (α 2) (α 3) hα
  have hv : ∀ x : List K, value f x = ∑ α ∈ f.support, f.coeff α * ∏ i : Fin (dim + 1), x.getD i 0 ^ α i := fun x => by
    unfold value
    rw [MvPolynomial.eval_eq']
  have hdeg : ∀ α ∈ f.support, (∑ i, α i) ≤ p := fun α hα => by
    have := (MvPolynomial.le_totalDegree hα).trans hf
    rwa [Finsupp.sum_fintype _ _ (fun _ => rfl)] at this
  rw [evalFun_eq, hv lam]
  have step : ∀ l : List (Shape × List K), (l.map fun q => q.1.eval lam * value f q.2).sum =
      ∑ α ∈ f.support, f.coeff α * (l.map fun q => q.1.eval lam * ∏ i : Fin (dim + 1), q.2.getD i 0 ^ α i).sum := by
    intro l
    induction l with
    | nil => simp
    | cons q l ih =>
      simp only [List.map_cons, List.sum_cons]
      rw [ih, hv, Finset.mul_sum, ← Finset.sum_add_distrib]
      exact Finset.sum_congr rfl fun α _ => by ring
  rw [step]
  exact Finset.sum_congr rfl fun α hα => by rw [key α (hdeg α hα)]

/-- Partition of unity. -/
theorem sum_one (p dim : Nat) (hp : p ≤ 3) (h1 : 1 ≤ dim) (h3 : dim ≤ 3) (lam : List K) (hl : lam.length = dim + 1) (hs : lam.sum = 1) :
    ((localShapeFunctions p dim).map fun φ => φ.eval lam).sum = 1 := by
  have h := reproduces p dim hp h1 h3 (1 : MvPolynomial (Fin (dim + 1)) K) (by simp) lam hl hs
  have hv : ∀ x : List K, value (1 : MvPolynomial (Fin (dim + 1)) K) x = 1 := fun x => by unfold value; exact map_one _
  rw [evalFun_eq, hv] at h
  simp only [hv, mul_one] at h
  have hlen := congrArg List.length (nodal_matrix (K := K) p dim hp h1 h3)
  rw [List.length_map, List.length_map, List.length_range] at hlen
  rw [← h, ← List.map_fst_zip (show (localShapeFunctions p dim).length ≤ (nodes K p dim).length by omega), List.map_map]
  rw [List.map_fst_zip (by omega)]
  rfl

/-- The nodes are in the simplex, each once, and there are as many as shape functions. -/
theorem nodes_sum (p dim : Nat) (hp : p ≤ 3) (h1 : 1 ≤ dim) (h3 : dim ≤ 3) :
    (nodes K p dim).length = (localShapeFunctions p dim).length ∧ ∀ x ∈ nodes K p dim, x.length = dim + 1 ∧ x.sum = 1 := by
  constructor
  · have hlen := congrArg List.length (nodal_matrix (K := K) p dim hp h1 h3)
    rw [List.length_map, List.length_map, List.length_range] at hlen
    omega
  · interval_cases p <;> interval_cases dim <;> simp [nodes, List.range_succ] <;> norm_num

/-- The strided evaluation is the evaluation at every `stride`-th entry. -/
theorem strided (φ : Shape) (p dim : Nat) (hp : p ≤ 3) (h1 : 1 ≤ dim) (h3 : dim ≤ 3) (hφ : φ ∈ localShapeFunctions p dim) (lam : List K) (stride : Nat) :
    φ.evalStrided lam stride = φ.eval ((List.range (dim + 1)).map fun v => lam.getD (v * stride) 0) := by
  have hget : ∀ v, v < dim + 1 → ((List.range (dim + 1)).map fun v => lam.getD (v * stride) 0).getD v 0 = lam.getD (v * stride) 0 := fun v hv => by
    rw [List.getD_eq_getElem _ _ (by simpa using hv), List.getElem_map, List.getElem_range]
  revert hφ
  interval_cases p <;> interval_cases dim <;> intro hφ <;>
    simp only [localShapeFunctions, List.range_succ, List.range_zero, List.nil_append, List.cons_append, List.map_cons, List.map_nil, List.mem_cons, List.not_mem_nil, or_false] at hφ <;>
    rcases hφ with rfl | rfl | rfl | rfl | rfl | rfl | rfl | rfl | rfl | rfl | rfl | rfl | rfl | rfl | rfl | rfl | rfl | rfl | rfl | rfl <;>
    simp only [Shape.evalStrided, Shape.eval] <;> (repeat rw [hget _ (by omega)])

/-- Example: the quadratic function of the middle of the first edge of a triangle. -/
example : ((localShapeFunctions 2 2)[3]).eval ((nodes ℚ 2 2)[3]) = 1 := by decide +kernel

open MvPolynomial in
example : evalFun 2 2 (interpolate 2 2 (value (X 0 * X 1 : MvPolynomial (Fin 3) ℚ))) [1/2, 1/3, 1/6] = 1 / 6 := by
  rw [reproduces 2 2 (by omega) (by omega) (by omega) _ ((totalDegree_mul _ _).trans (by simp)) _ rfl (by norm_num)]
  simp [value]
  norm_num

end PyNucleus.Props.C41
