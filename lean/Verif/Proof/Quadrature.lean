import Verif.Spec.Quadrature
import Verif.Proof.ShapeFunctions
import Mathlib.Tactic.LinearCombination
import Mathlib.Algebra.Polynomial.AlgebraMap
import Mathlib.Algebra.Polynomial.Degree.Lemmas

/-! # Lemmas about quadrature rules -/

namespace PyNucleus.Quadrature

open PyNucleus.SimplexGeometry

variable {K : Type} [Field K]

theorem mean_monomial (d : Nat) (α : Fin (d + 1) →₀ Nat) (c : K) : mean K d (MvPolynomial.monomial α c) = c * ((Simplex.weight d α : ℚ) : K) := by
  have h : MvPolynomial.monomial α c = c • MvPolynomial.basisMonomials (Fin (d + 1)) K α := by
    rw [MvPolynomial.coe_basisMonomials, MvPolynomial.smul_monomial, smul_eq_mul, mul_one]
  rw [h, map_smul, mean, Module.Basis.constr_basis, smul_eq_mul]

/-- It is enough to consider monomials. -/
theorem exact_of_monomials (d p : Nat) (R : List (List K × K))
    (h : ∀ α : Fin (d + 1) → Nat, (∑ i, α i) ≤ p → (R.map fun r => r.2 * ∏ i : Fin (d + 1), r.1.getD i 0 ^ α i).sum = ((Simplex.weight d α : ℚ) : K))
    (q : MvPolynomial (Fin (d + 1)) K) (hq : q.totalDegree ≤ p) :
    (R.map fun r => r.2 * MvPolynomial.eval (fun i : Fin (d + 1) => r.1.getD i 0) q).sum = mean K d q := by
  have e : ∀ q : MvPolynomial (Fin (d + 1)) K, mean K d q = ∑ α ∈ q.support, q.coeff α * ((Simplex.weight d α : ℚ) : K) := fun q => by
    conv => lhs; rw [q.as_sum, map_sum]
    exact Finset.sum_congr rfl fun α _ => mean_monomial d α _
  rw [e]
  simp only [MvPolynomial.eval_eq']
  have hcomm : ∀ R : List (List K × K), (R.map fun r => r.2 * ∑ α ∈ q.support, q.coeff α * ∏ i : Fin (d + 1), r.1.getD i 0 ^ α i).sum =
      ∑ α ∈ q.support, q.coeff α * (R.map fun r => r.2 * ∏ i : Fin (d + 1), r.1.getD i 0 ^ α i).sum := fun R => by
    induction R with
    | nil => simp
    | cons r R ih =>
      simp only [List.map_cons, List.sum_cons]
      rw [ih, Finset.mul_sum, ← Finset.sum_add_distrib]
      exact Finset.sum_congr rfl fun α _ => by ring
  rw [hcomm]
  refine Finset.sum_congr rfl fun α hα => ?_
  rw [h α ?_]
  refine le_trans ?_ hq
  refine le_trans ?_ (MvPolynomial.le_totalDegree hα)
  rw [Finsupp.sum_fintype _ _ (fun _ => rfl)]

theorem foldl_sum (l : List Nat) (g : Nat → K) (a : K) : l.foldl (fun x k => x + g k) a = a + (l.map g).sum := by
  induction l generalizing a with
  | nil => simp
  | cons k l ih => rw [List.foldl_cons, ih, List.map_cons, List.sum_cons]; ring

theorem position_eq (mdim : Nat) (S : Coords K) (node : List K) (m : Nat) : position mdim S node m = ∑ k ∈ Finset.range (mdim + 1), node.getD k 0 * S k m := by
  unfold position
  rw [foldl_sum, zero_add]
  rfl

theorem foldl_eval (R : Rule K) (g : List K × K → K) (a : K) :
    (R.zip (R.map g)).foldl (fun I p => I + p.1.2 * p.2) a = a + (R.map fun r => r.2 * g r).sum := by
  induction R generalizing a with
  | nil => simp
  | cons r R ih => rw [List.map_cons, List.zip_cons_cons, List.foldl_cons, ih, List.map_cons, List.sum_cons]; ring

theorem eval_evalFun (mdim : Nat) (R : Rule K) (f : Vec K → K) (S : Coords K) (vol : K) :
    eval R (evalFun mdim R f S) vol = (R.map fun r => r.2 * f (position mdim S r.1)).sum * vol := by
  unfold eval evalFun
  rw [foldl_eval, zero_add]

theorem pullback_degree (d dim : Nat) (S : Nat → Nat → K) (f : MvPolynomial (Fin dim) K) : (pullback d dim S f).totalDegree ≤ f.totalDegree := by
  unfold pullback
  conv => lhs; rw [f.as_sum, map_sum]
  refine MvPolynomial.totalDegree_finsetSum_le fun α hα => ?_
  rw [MvPolynomial.bind₁_monomial]
  refine (MvPolynomial.totalDegree_mul _ _).trans ?_
  rw [MvPolynomial.totalDegree_C, zero_add]
  refine (MvPolynomial.totalDegree_finset_prod _ _).trans (le_trans ?_ (MvPolynomial.le_totalDegree hα))
  refine Finset.sum_le_sum fun m _ => ?_
  refine (MvPolynomial.totalDegree_pow _ _).trans ?_
  have : (∑ k : Fin (d + 1), MvPolynomial.C (S k m) * MvPolynomial.X k : MvPolynomial (Fin (d + 1)) K).totalDegree ≤ 1 :=
    MvPolynomial.totalDegree_finsetSum_le fun k _ => (MvPolynomial.totalDegree_mul _ _).trans (by rw [MvPolynomial.totalDegree_C, MvPolynomial.totalDegree_X])
  calc _ ≤ α m * 1 := Nat.mul_le_mul_left _ this
    _ = _ := Nat.mul_one _

theorem pullback_eval (d dim : Nat) (S : Nat → Nat → K) (f : MvPolynomial (Fin dim) K) (node : List K) :
    MvPolynomial.eval (fun i : Fin (d + 1) => node.getD i 0) (pullback d dim S f) = MvPolynomial.eval (fun m : Fin dim => position d S node m) f := by
  unfold pullback
  rw [← MvPolynomial.coe_aeval_eq_eval, ← MvPolynomial.coe_aeval_eq_eval]
  simp only [RingHom.coe_coe]
  rw [MvPolynomial.aeval_bind₁]
  congr 2
  funext m
  rw [map_sum, position_eq, ← Fin.sum_univ_eq_sum_range (fun k => node.getD k 0 * S k m)]
  refine Finset.sum_congr rfl fun k _ => ?_
  rw [map_mul, MvPolynomial.aeval_X, MvPolynomial.aeval_C]
  simp [mul_comm]

theorem sum_smul_pow (L : List (K × K)) (a b : Nat) :
    (L.map fun r => r.2 * (r.1 ^ a * (1 - r.1) ^ (b + 1))).sum = (L.map fun r => r.2 * (r.1 ^ a * (1 - r.1) ^ b)).sum - (L.map fun r => r.2 * (r.1 ^ (a + 1) * (1 - r.1) ^ b)).sum := by
  induction L with
  | nil => simp
  | cons r L ih =>
    simp only [List.map_cons, List.sum_cons]
    rw [ih]
    ring

/-- Moments with powers of `1 - x`. -/
theorem jacobi_moments [CharZero K] (L : List (K × K)) (N c : Nat)
    (h : ∀ n, n ≤ N → (L.map fun r => r.2 * r.1 ^ n).sum = ((n.factorial * c.factorial / (n + c + 1).factorial : ℚ) : K)) (b : Nat) : ∀ a, a + b ≤ N →
    (L.map fun r => r.2 * (r.1 ^ a * (1 - r.1) ^ b)).sum = ((a.factorial * (b + c).factorial / (a + b + c + 1).factorial : ℚ) : K) := by
  induction b with
  | zero =>
    intro a ha
    have := h a (by omega)
    simp only [pow_zero, mul_one, Nat.zero_add, Nat.add_zero]
    exact this
  | succ b ih =>
    intro a ha
    rw [sum_smul_pow, ih a (by omega), ih (a + 1) (by omega), ← Rat.cast_sub]
    congr 1
    rw [show a + 1 + b + c + 1 = a + b + c + 1 + 1 by ring, show a + (b + 1) + c + 1 = a + b + c + 1 + 1 by ring, show b + 1 + c = b + c + 1 by ring,
      Nat.factorial_succ (a + b + c + 1), Nat.factorial_succ a, Nat.factorial_succ (b + c)]
    have h1 : ((a + b + c + 1).factorial : ℚ) ≠ 0 := by exact_mod_cast Nat.factorial_ne_zero _
    have h2 : ((a + b + c + 1 : Nat) : ℚ) + 1 ≠ 0 := by positivity
    push_cast at h2 ⊢
    field_simp
    ring

theorem map_product (p : List (K × K)) (R : Rule K) (g : K → K) (G : List K → K) :
    ((p.flatMap fun p => R.map fun q => (p.1 :: q.1, p.2 * q.2)).map fun r => r.2 * (g (r.1.getD 0 0) * G r.1.tail)).sum =
      (p.map fun r => r.2 * g r.1).sum * (R.map fun r => r.2 * G r.1).sum := by
  induction p with
  | nil => simp
  | cons a p ih =>
    rw [List.flatMap_cons, List.map_append, List.sum_append, ih, List.map_cons, List.sum_cons, add_mul, List.map_map]
    congr 1
    generalize R = R'
    induction R' with
    | nil => simp
    | cons q R' ih => simp only [List.map_cons, List.sum_cons, ih, Function.comp, List.getD_cons_zero, List.tail_cons]; ring

/-- Sums over a product rule. -/
theorem product_sum (Ls : List (List (K × K))) (g : Nat → K → K) :
    ((productRule Ls).map fun r => r.2 * ((List.range Ls.length).map fun k => g k (r.1.getD k 0)).prod).sum =
      ((List.range Ls.length).map fun k => ((Ls.getD k []).map fun r => r.2 * g k r.1).sum).prod := by
  induction Ls generalizing g with
  | nil => simp [productRule]
  | cons L Ls ih =>
    have e : ∀ r : List K × K, ((List.range (L :: Ls).length).map fun k => g k (r.1.getD k 0)).prod =
        g 0 (r.1.getD 0 0) * ((List.range Ls.length).map fun k => g (k + 1) (r.1.tail.getD k 0)).prod := fun r => by
      rw [List.length_cons, List.range_succ_eq_map, List.map_cons, List.prod_cons, List.map_map]
      congr 2
      refine List.map_congr_left fun k _ => ?_
      simp only [Function.comp]
      cases r.1 <;> simp
    simp only [e]
    unfold productRule
    rw [map_product L (productRule Ls) (g 0) (fun x => ((List.range Ls.length).map fun k => g (k + 1) (x.getD k 0)).prod), ih (fun k => g (k + 1)),
      List.length_cons, List.range_succ_eq_map, List.map_cons, List.prod_cons, List.map_map]
    rfl

theorem product_length (Ls : List (List (K × K))) : ∀ r ∈ productRule Ls, r.1.length = Ls.length := by
  induction Ls with
  | nil => intro r hr; unfold productRule at hr; simp only [List.mem_singleton] at hr; rw [hr]; rfl
  | cons L Ls ih =>
    intro r hr
    unfold productRule at hr
    obtain ⟨p, hp, hr⟩ := List.mem_flatMap.1 hr
    obtain ⟨q, hq, rfl⟩ := List.mem_map.1 hr
    simp [ih q hq]

end PyNucleus.Quadrature
