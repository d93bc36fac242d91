import Verif.Proof.Quadrature
import Verif.Proof.OptionMap
import Mathlib.Tactic.FieldSimp
import Mathlib.Tactic.LinearCombination
import Mathlib.Algebra.Polynomial.Derivative

/-!
# Sums of the tabulated rules
-/

namespace PyNucleus.Quadrature

open PyNucleus.SimplexGeometry

variable {K : Type} [Field K]

section
variable [CharZero K]

theorem weight_one (α : Fin 2 → Nat) : Simplex.weight 1 α = (α 0).factorial * (α 1).factorial / (α 0 + α 1 + 1).factorial := by
  unfold Simplex.weight
  rw [Fin.prod_univ_two, Fin.sum_univ_two]
  push_cast
  simp

theorem weight_two (α : Fin 3 → Nat) : Simplex.weight 2 α = 2 * ((α 0).factorial * (α 1).factorial * (α 2).factorial) / (α 0 + α 1 + α 2 + 2).factorial := by
  unfold Simplex.weight
  rw [Fin.prod_univ_three, Fin.sum_univ_three]
  push_cast
  simp [Nat.factorial]

theorem weight_three (α : Fin 4 → Nat) :
    Simplex.weight 3 α = 6 * ((α 0).factorial * (α 1).factorial * (α 2).factorial * (α 3).factorial) / (α 0 + α 1 + α 2 + α 3 + 3).factorial := by
  unfold Simplex.weight
  rw [Fin.prod_univ_four, Fin.sum_univ_four]
  push_cast
  simp [Nat.factorial]

/-! Numbers `a + b s` with `s ^ 2 = 15`. -/

def pmul (x y : ℚ × ℚ) : ℚ × ℚ := (x.1 * y.1 + 15 * (x.2 * y.2), x.1 * y.2 + x.2 * y.1)
def ppow (x : ℚ × ℚ) : Nat → ℚ × ℚ
  | 0 => (1, 0)
  | n + 1 => pmul (ppow x n) x
def padd (x y : ℚ × ℚ) : ℚ × ℚ := (x.1 + y.1, x.2 + y.2)
def val (s : K) (x : ℚ × ℚ) : K := (x.1 : K) + (x.2 : K) * s

theorem val_mul (s : K) (hs : s ^ 2 = 15) (x y : ℚ × ℚ) : val s (pmul x y) = val s x * val s y := by
  unfold val pmul
  push_cast
  linear_combination (-(x.2 : K) * (y.2 : K)) * hs

theorem val_pow (s : K) (hs : s ^ 2 = 15) (x : ℚ × ℚ) (n : Nat) : val s (ppow x n) = val s x ^ n := by
  induction n with
  | zero => unfold ppow val; simp
  | succ n ih => unfold ppow; rw [val_mul s hs, ih, pow_succ]

/-- Sum of a rule with such numbers. -/
def psum (R : List (List (ℚ × ℚ) × (ℚ × ℚ))) (α : List Nat) : ℚ × ℚ :=
  R.foldr (fun r x => padd (pmul r.2 ((List.zipWith ppow r.1 α).foldr pmul (1, 0))) x) (0, 0)

theorem val_psum (s : K) (hs : s ^ 2 = 15) (R : List (List (ℚ × ℚ) × (ℚ × ℚ))) (α : List Nat) :
    val s (psum R α) = (R.map fun r => val s r.2 * (List.zipWith (fun x n => val s x ^ n) r.1 α).prod).sum := by
  unfold psum
  induction R with
  | nil => unfold val; simp
  | cons r R ih =>
    rw [List.foldr_cons, List.map_cons, List.sum_cons, ← ih]
    have e : ∀ (l : List (ℚ × ℚ)) (α : List Nat), val s ((List.zipWith ppow l α).foldr pmul (1, 0)) = (List.zipWith (fun x n => val s x ^ n) l α).prod := fun l => by
      induction l with
      | nil => intro α; unfold val; simp
      | cons x l ih =>
        intro α
        cases α with
        | nil => unfold val; simp
        | cons n α => rw [List.zipWith_cons_cons, List.foldr_cons, val_mul s hs, ih, val_pow s hs, List.zipWith_cons_cons, List.prod_cons]
    have ea : ∀ x y, val s (padd x y) = val s x + val s y := fun x y => by unfold val padd; push_cast; ring
    rw [ea, val_mul s hs, e]

def rule2 : List (List (ℚ × ℚ) × (ℚ × ℚ)) := [([(1 / 2, 0), (1 / 2, 0), (0, 0)], (1 / 3, 0)), ([(0, 0), (1 / 2, 0), (1 / 2, 0)], (1 / 3, 0)), ([(1 / 2, 0), (0, 0), (1 / 2, 0)], (1 / 3, 0))]
def rule5 : List (List (ℚ × ℚ) × (ℚ × ℚ)) :=
  let a1 : ℚ × ℚ := (2 / 7, -(1 / 21))
  let a2 : ℚ × ℚ := (2 / 7, 1 / 21)
  let b1 : ℚ × ℚ := (3 / 7, 2 / 21)
  let b2 : ℚ × ℚ := (3 / 7, -(2 / 21))
  let w1 : ℚ × ℚ := (31 / 240, -(1 / 1200))
  let w2 : ℚ × ℚ := (31 / 240, 1 / 1200)
  [([(1 / 3, 0), (1 / 3, 0), (1 / 3, 0)], (9 / 40, 0)), ([a1, a1, b1], w1), ([a1, b1, a1], w1), ([b1, a1, a1], w1), ([a2, a2, b2], w2), ([a2, b2, a2], w2), ([b2, a2, a2], w2)]
def rule3 : List (List ℚ × ℚ) := [([1 / 4, 1 / 4, 1 / 4, 1 / 4], -(4 / 5)), ([1 / 2, 1 / 6, 1 / 6, 1 / 6], 9 / 20), ([1 / 6, 1 / 2, 1 / 6, 1 / 6], 9 / 20),
  ([1 / 6, 1 / 6, 1 / 2, 1 / 6], 9 / 20), ([1 / 6, 1 / 6, 1 / 6, 1 / 2], 9 / 20)]

theorem rule2_moments : ∀ i ∈ List.range 3, ∀ j ∈ List.range 3, ∀ k ∈ List.range 3, i + j + k ≤ 2 →
    psum rule2 [i, j, k] = ((2 * (i.factorial * j.factorial * k.factorial) / (i + j + k + 2).factorial : ℚ), 0) := by decide +kernel
theorem rule5_moments : ∀ i ∈ List.range 6, ∀ j ∈ List.range 6, ∀ k ∈ List.range 6, i + j + k ≤ 5 →
    psum rule5 [i, j, k] = ((2 * (i.factorial * j.factorial * k.factorial) / (i + j + k + 2).factorial : ℚ), 0) := by decide +kernel
theorem exact_two (s : K) (hs : s ^ 2 = 15) (p : Nat) (R : List (List (ℚ × ℚ) × (ℚ × ℚ))) (hl : ∀ r ∈ R, r.1.length = 3)
    (h : ∀ i ∈ List.range (p + 1), ∀ j ∈ List.range (p + 1), ∀ k ∈ List.range (p + 1), i + j + k ≤ p →
      psum R [i, j, k] = ((2 * (i.factorial * j.factorial * k.factorial) / (i + j + k + 2).factorial : ℚ), 0)) (q : MvPolynomial (Fin 3) K) (hq : q.totalDegree ≤ p) :
    ((R.map fun r => (r.1.map (val s), val s r.2)).map fun r => r.2 * MvPolynomial.eval (fun i : Fin 3 => r.1.getD i 0) q).sum = mean K 2 q := by
  refine exact_of_monomials 2 p _ (fun α hα => ?_) q hq
  rw [Fin.sum_univ_three] at hα
  have e := congrArg (val s) (h (α 0) (List.mem_range.2 (by omega)) (α 1) (List.mem_range.2 (by omega)) (α 2) (List.mem_range.2 (by omega)) hα)
  rw [val_psum s hs] at e
  rw [weight_two, List.map_map]
  have e2 : ∀ x : ℚ, val s (x, 0) = (x : K) := fun x => by unfold val; simp
  rw [e2] at e
  rw [← e]
  congr 1
  refine List.map_congr_left fun r hr => ?_
  match r, hl r hr with
  | ([a, b, c], w), _ => simp [Function.comp, Fin.prod_univ_three, mul_assoc]

/-- Sum of a rule with rational numbers. -/
def rsum (R : List (List ℚ × ℚ)) (α : List Nat) : ℚ := (R.map fun r => r.2 * (List.zipWith (· ^ ·) r.1 α).prod).sum

theorem rsum_cast (R : List (List ℚ × ℚ)) (α : List Nat) : ((rsum R α : ℚ) : K) = (R.map fun r => (r.2 : K) * (List.zipWith (fun (x : ℚ) (n : Nat) => (x : K) ^ n) r.1 α).prod).sum := by
  unfold rsum
  induction R with
  | nil => simp
  | cons r R ih =>
    rw [List.map_cons, List.sum_cons, Rat.cast_add, ih, List.map_cons, List.sum_cons, Rat.cast_mul]
    have e : ∀ (l : List ℚ) (α : List Nat), (((List.zipWith (· ^ ·) l α).prod : ℚ) : K) = (List.zipWith (fun (x : ℚ) (n : Nat) => (x : K) ^ n) l α).prod := fun l => by
      induction l with
      | nil => intro α; simp
      | cons x l ih =>
        intro α
        cases α with
        | nil => simp
        | cons n α => rw [List.zipWith_cons_cons, List.prod_cons, Rat.cast_mul, ih, Rat.cast_pow, List.zipWith_cons_cons, List.prod_cons]
    rw [e]

theorem rule3_moments : ∀ i ∈ List.range 4, ∀ j ∈ List.range 4, ∀ k ∈ List.range 4, ∀ l ∈ List.range 4, i + j + k + l ≤ 3 →
    rsum rule3 [i, j, k, l] = 6 * (i.factorial * j.factorial * k.factorial * l.factorial) / (i + j + k + l + 3).factorial := by decide +kernel

theorem exact_three (p : Nat) (R : List (List ℚ × ℚ)) (hl : ∀ r ∈ R, r.1.length = 4)
    (h : ∀ i ∈ List.range (p + 1), ∀ j ∈ List.range (p + 1), ∀ k ∈ List.range (p + 1), ∀ l ∈ List.range (p + 1), i + j + k + l ≤ p →
      rsum R [i, j, k, l] = 6 * (i.factorial * j.factorial * k.factorial * l.factorial) / (i + j + k + l + 3).factorial) (q : MvPolynomial (Fin 4) K) (hq : q.totalDegree ≤ p) :
    ((R.map fun r => (r.1.map (Rat.cast : ℚ → K), (r.2 : K))).map fun r => r.2 * MvPolynomial.eval (fun i : Fin 4 => r.1.getD i 0) q).sum = mean K 3 q := by
  refine exact_of_monomials 3 p _ (fun α hα => ?_) q hq
  rw [Fin.sum_univ_four] at hα
  have e := congrArg (Rat.cast : ℚ → K) (h (α 0) (List.mem_range.2 (by omega)) (α 1) (List.mem_range.2 (by omega)) (α 2) (List.mem_range.2 (by omega)) (α 3) (List.mem_range.2 (by omega)) hα)
  rw [rsum_cast] at e
  rw [weight_three, List.map_map, ← e]
  congr 1
  refine List.map_congr_left fun r hr => ?_
  match r, hl r hr with
  | ([a, b, c, d], w), _ => simp [Function.comp, Fin.prod_univ_four, mul_assoc]

end

section
variable [CharZero K]

theorem numNodes_le (order : Nat) : order ≤ 2 * numNodes order - 1 := by
  unfold numNodes
  dsimp only
  split <;> omega

theorem jacobi_sum (k c : Nat) (L : List (K × K)) (h : IsJacobi k (c + 1) 1 L) (a b : Nat) (hab : a + b ≤ 2 * k - 1) :
    (L.map fun r => r.2 * (r.1 ^ a * (1 - r.1) ^ b)).sum = ((a.factorial * (b + c).factorial / (a + b + c + 1).factorial : ℚ) : K) :=
  jacobi_moments L (2 * k - 1) c (fun n hn => by
    have := h n hn
    rw [Nat.add_sub_cancel, Nat.add_sub_cancel] at this
    rw [this]
    rfl) b a hab

/-- Moments give exactness of Gauss quadrature. -/
theorem legendre_of_moments (k : Nat) (L : List (K × K)) (h : ∀ n, n < 2 * k → (n + 1) * (L.map fun r => r.2 * r.1 ^ n).sum = 1 - (-1) ^ (n + 1)) : IsLegendre k L := by
  intro Q hQ
  have e : ∀ p : K × K, p.2 * (Polynomial.derivative Q).eval p.1 = ∑ n ∈ Finset.range (2 * k), Q.coeff (n + 1) * ((n + 1) * (p.2 * p.1 ^ n)) := fun p => by
    conv => lhs; rw [Q.as_sum_range' (2 * k + 1) (by omega), Polynomial.derivative_sum, Polynomial.eval_finset_sum, Finset.sum_range_succ']
    rw [Polynomial.monomial_zero_left, Polynomial.derivative_C, Polynomial.eval_zero, add_zero, Finset.mul_sum]
    refine Finset.sum_congr rfl fun n _ => ?_
    rw [Polynomial.derivative_monomial, Polynomial.eval_monomial, Nat.add_sub_cancel]
    push_cast
    ring
  have e1 : ∀ x : K, Q.eval x = ∑ n ∈ Finset.range (2 * k), Q.coeff (n + 1) * x ^ (n + 1) + Q.coeff 0 := fun x => by
    rw [Polynomial.eval_eq_sum_range' (show Q.natDegree < 2 * k + 1 by omega), Finset.sum_range_succ', pow_zero, mul_one]
  simp only [e]
  have e2 : ∀ (L : List (K × K)), (L.map fun p => ∑ n ∈ Finset.range (2 * k), Q.coeff (n + 1) * ((n + 1) * (p.2 * p.1 ^ n))).sum =
      ∑ n ∈ Finset.range (2 * k), Q.coeff (n + 1) * ((n + 1) * (L.map fun r => r.2 * r.1 ^ n).sum) := fun L => by
    induction L with
    | nil => simp
    | cons p L ih =>
      simp only [List.map_cons, List.sum_cons, ih, ← Finset.sum_add_distrib]
      exact Finset.sum_congr rfl fun n _ => by ring
  rw [e2, e1, e1, add_sub_add_right_eq_sub, ← Finset.sum_sub_distrib]
  refine Finset.sum_congr rfl fun n hn => ?_
  rw [h n (Finset.mem_range.1 hn), one_pow]
  ring

/-- Moments of Gauss quadrature moved to the interval from 0 to 1. -/
theorem legendre_moments (k : Nat) (L : List (K × K)) (hL : IsLegendre k L) (n : Nat) (hn : n + 1 ≤ 2 * k) :
    ((L.map fun p => ((p.1 + 1) / 2, p.2 / 2)).map fun r => r.2 * r.1 ^ n).sum = 1 / (n + 1 : K) := by
  have h := hL (Polynomial.C ((1 / (n + 1 : K)) * (1 / 2) ^ (n + 1)) * (Polynomial.X + Polynomial.C 1) ^ (n + 1)) (by
    refine (Polynomial.natDegree_C_mul_le _ _).trans (Polynomial.natDegree_pow_le.trans ?_)
    rw [Polynomial.natDegree_X_add_C]
    omega)
  rw [List.map_map]
  have hn1 : (n : K) + 1 ≠ 0 := by exact_mod_cast Nat.succ_ne_zero n
  have e : ∀ p ∈ L, p.2 * (Polynomial.derivative (Polynomial.C ((1 / (n + 1 : K)) * (1 / 2) ^ (n + 1)) * (Polynomial.X + Polynomial.C 1) ^ (n + 1))).eval p.1 =
      ((fun r : K × K => r.2 * r.1 ^ n) ∘ fun p : K × K => ((p.1 + 1) / 2, p.2 / 2)) p := fun p _ => by
    simp only [Polynomial.derivative_C_mul, Polynomial.derivative_X_add_C_pow, Polynomial.eval_mul, Polynomial.eval_C, Polynomial.eval_pow, Polynomial.eval_add, Polynomial.eval_X,
      Function.comp, Nat.add_sub_cancel, Polynomial.eval_natCast]
    rw [one_div_pow, div_pow, pow_succ]
    push_cast
    field_simp
  rw [List.map_congr_left e] at h
  rw [h]
  simp only [Polynomial.eval_mul, Polynomial.eval_C, Polynomial.eval_pow, Polynomial.eval_add, Polynomial.eval_X]
  rw [show (1 : K) + 1 = 2 by norm_num, neg_add_cancel, zero_pow (by omega), one_div_pow]
  have h2 : (2 : K) ^ (n + 1) ≠ 0 := pow_ne_zero _ two_ne_zero
  field_simp
  simp

omit [CharZero K] in
theorem sum_mul_left (R : List (List K × K)) (g : List K × K → K) (c : K) : (R.map fun r => c * g r).sum = c * (R.map g).sum := by
  induction R with
  | nil => simp
  | cons r R ih => simp only [List.map_cons, List.sum_cons, ih]; ring

/-- The nodes of the Duffy transformation. -/
theorem duffy_one (a : K) : duffyNode 1 [a] = [1 - a, a] := by
  unfold duffyNode
  simp [List.range_succ]

theorem duffy_two (a b : K) : duffyNode 2 [a, b] = [(1 - a) * (1 - b), a, b * (1 - a)] := by
  unfold duffyNode
  simp [List.range_succ]
  ring

theorem duffy_three (a b c : K) : duffyNode 3 [a, b, c] = [(1 - a) * (1 - b) * (1 - c), a, b * (1 - a), c * (1 - a) * (1 - b)] := by
  unfold duffyNode
  simp [List.range_succ]
  ring

end

theorem mapM_none {α β : Type} (f : α → Option β) (l : List α) (a : α) (ha : a ∈ l) (h : f a = none) : l.mapM f = none := by
  by_contra hc
  obtain ⟨r, hr⟩ := Option.ne_none_iff_exists'.1 hc
  have := mapM_eq_some.1 hr
  clear hr hc
  induction this with
  | nil => cases ha
  | cons hx _ ih =>
    rcases List.mem_cons.1 ha with rfl | ha
    · rw [h] at hx; cases hx
    · exact ih ha

theorem foldlM_none {α β : Type} (g : β → α → Option β) (l : List α) (a : α) (ha : a ∈ l) (h : ∀ x, g x a = none) (x : β) : l.foldlM g x = none := by
  induction l generalizing x with
  | nil => cases ha
  | cons b l ih =>
    rw [List.foldlM_cons]
    rcases List.mem_cons.1 ha with rfl | ha
    · rw [h]; rfl
    · cases g x b with
      | none => rfl
      | some y => exact ih ha y

theorem product_number (Ls : List (List (K × K))) : (productRule Ls).length = (Ls.map List.length).prod := by
  induction Ls with
  | nil => rfl
  | cons L Ls ih =>
    unfold productRule
    rw [List.map_cons, List.prod_cons, ← ih]
    induction L with
    | nil => simp
    | cons p L ihL => rw [List.flatMap_cons, List.length_append, ihL, List.length_map, List.length_cons]; ring

end PyNucleus.Quadrature
