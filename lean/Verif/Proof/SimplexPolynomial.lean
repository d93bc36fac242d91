import Verif.Spec.SimplexPolynomial
import Verif.Model.ShapeFunctions
import Mathlib.Algebra.BigOperators.Fin
import Mathlib.Tactic.FieldSimp
import Mathlib.Data.Nat.Cast.Field

/-!
Computable polynomials in barycentric coordinates, used to compare the tables of local matrices with the mean values of `Verif.Spec.SimplexPolynomial`.
-/

namespace PyNucleus.Simplex

open MvPolynomial

/-- Terms: coefficient and exponents. -/
abbrev Poly := List (Int × List Nat)

/-- Exponents of a term. -/
noncomputable def expo (n : Nat) (a : List Nat) : Fin n →₀ Nat := Finsupp.equivFunOnFinite.symm fun i => a.getD i 0

theorem expo_apply (n : Nat) (a : List Nat) (i : Fin n) : expo n a i = a.getD i 0 := rfl

noncomputable def term (n : Nat) (t : Int × List Nat) : MvPolynomial (Fin n) ℚ := monomial (expo n t.2) (t.1 : ℚ)

noncomputable def toMv (n : Nat) (p : Poly) : MvPolynomial (Fin n) ℚ := (p.map (term n)).sum

theorem toMv_nil (n : Nat) : toMv n [] = 0 := rfl

theorem toMv_cons (n : Nat) (t : Int × List Nat) (p : Poly) : toMv n (t :: p) = term n t + toMv n p := by
  unfold toMv; rw [List.map_cons, List.sum_cons]

theorem toMv_append (n : Nat) (p q : Poly) : toMv n (p ++ q) = toMv n p + toMv n q := by
  unfold toMv; rw [List.map_append, List.sum_append]

def mulTerm (n : Nat) (s t : Int × List Nat) : Int × List Nat := (s.1 * t.1, (List.range n).map fun i => s.2.getD i 0 + t.2.getD i 0)

def mul (n : Nat) (p q : Poly) : Poly := p.flatMap fun s => q.map (mulTerm n s)

theorem getD_map_range (n i : Nat) (f : Nat → Nat) (h : i < n) : ((List.range n).map f).getD i 0 = f i := by
  rw [List.getD_eq_getElem?_getD, List.getElem?_map, List.getElem?_range h]; rfl

theorem term_mul (n : Nat) (s t : Int × List Nat) : term n (mulTerm n s t) = term n s * term n t := by
  unfold term mulTerm
  have h : expo n ((List.range n).map fun i => s.2.getD i 0 + t.2.getD i 0) = expo n s.2 + expo n t.2 := Finsupp.ext fun i => by
    rw [Finsupp.add_apply, expo_apply, expo_apply, expo_apply, getD_map_range _ _ _ i.2]
  rw [monomial_mul, h]
  push_cast
  rfl

theorem toMv_map_mul (n : Nat) (s : Int × List Nat) (q : Poly) : toMv n (q.map (mulTerm n s)) = term n s * toMv n q := by
  induction q with
  | nil => rw [toMv_nil, mul_zero]; rfl
  | cons t q ih => rw [List.map_cons, toMv_cons, toMv_cons, term_mul, mul_add, ih]

theorem toMv_mul (n : Nat) (p q : Poly) : toMv n (mul n p q) = toMv n p * toMv n q := by
  induction p with
  | nil => rw [toMv_nil, zero_mul]; rfl
  | cons s p ih =>
    have h : mul n (s :: p) q = q.map (mulTerm n s) ++ mul n p q := rfl
    rw [h, toMv_append, toMv_map_mul, ih, toMv_cons, add_mul]

def derivTerm (n k : Nat) (t : Int × List Nat) : Int × List Nat :=
  (t.1 * (t.2.getD k 0 : Nat), (List.range n).map fun i => if i = k then t.2.getD i 0 - 1 else t.2.getD i 0)

def deriv (n k : Nat) (p : Poly) : Poly := p.map (derivTerm n k)

theorem term_deriv (n : Nat) (k : Fin n) (t : Int × List Nat) : term n (derivTerm n k t) = pderiv k (term n t) := by
  unfold term derivTerm
  have h : expo n ((List.range n).map fun i => if i = (k : Nat) then t.2.getD i 0 - 1 else t.2.getD i 0) = expo n t.2 - Finsupp.single k 1 := Finsupp.ext fun i => by
    rw [Finsupp.tsub_apply, expo_apply, expo_apply, getD_map_range _ _ _ i.2]
    by_cases h : i = k
    · rw [h, if_pos rfl, Finsupp.single_eq_same]
    · rw [if_neg (fun e => h (Fin.ext e)), Finsupp.single_eq_of_ne h, Nat.sub_zero]
  rw [pderiv_monomial, h, expo_apply]
  push_cast
  rfl

theorem toMv_deriv (n : Nat) (k : Fin n) (p : Poly) : toMv n (deriv n k p) = pderiv k (toMv n p) := by
  induction p with
  | nil => rw [toMv_nil, map_zero]; rfl
  | cons t p ih =>
    have h : deriv n k (t :: p) = derivTerm n k t :: deriv n k p := rfl
    rw [h, toMv_cons, toMv_cons, map_add, term_deriv, ih]

/-- Mean value of a term times `M! / d!`, if the degree of the term is at most `M - d`. -/
def weightInt (d M : Nat) (a : List Nat) : Nat :=
  ((List.range (d + 1)).map fun i => (a.getD i 0).factorial).prod * (M.factorial / (((List.range (d + 1)).map fun i => a.getD i 0).sum + d).factorial)

def meanInt (d M : Nat) (p : Poly) : Int := (p.map fun t => t.1 * (weightInt d M t.2 : Int)).sum

def degreeOk (d M : Nat) (p : Poly) : Bool := p.all fun t => t.1 == 0 || decide (((List.range (d + 1)).map fun i => t.2.getD i 0).sum + d ≤ M)

theorem prod_map_range {M : Type} [CommMonoid M] (n : Nat) (f : Nat → M) : ((List.range n).map f).prod = ∏ i : Fin n, f i := by
  induction n with
  | zero => rfl
  | succ n ih => rw [List.range_succ, List.map_append, List.prod_append, ih, Fin.prod_univ_castSucc, List.map_singleton, List.prod_singleton]; rfl

theorem sum_map_range {M : Type} [AddCommMonoid M] (n : Nat) (f : Nat → M) : ((List.range n).map f).sum = ∑ i : Fin n, f i := by
  induction n with
  | zero => rfl
  | succ n ih => rw [List.range_succ, List.map_append, List.sum_append, ih, Fin.sum_univ_castSucc, List.map_singleton, List.sum_singleton]; rfl

theorem mean_toMv (d M : Nat) (p : Poly) (h : degreeOk d M p = true) : mean d (toMv (d + 1) p) = meanInt d M p * (d.factorial / M.factorial) := by
  induction p with
  | nil => rw [toMv_nil, map_zero]; simp [meanInt]
  | cons t p ih =>
    unfold degreeOk at h
    rw [List.all_cons, Bool.and_eq_true] at h
    have hm : meanInt d M (t :: p) = t.1 * (weightInt d M t.2 : Int) + meanInt d M p := rfl
    rw [toMv_cons, map_add, ih h.2, hm, term, mean_monomial]
    push_cast
    rw [add_mul]
    congr 1
    rw [mul_assoc]
    rcases Bool.or_eq_true _ _ ▸ h.1 with h0 | h1
    · rw [eq_of_beq h0, Int.cast_zero, zero_mul, zero_mul]
    congr 1
    have h1 := of_decide_eq_true h1
    unfold weight weightInt
    rw [sum_map_range] at h1 ⊢
    rw [prod_map_range]
    simp only [expo_apply]
    generalize (∑ i : Fin (d + 1), t.2.getD i 0) + d = m at *
    have hd := Nat.factorial_dvd_factorial h1
    have hM : ((M.factorial : Nat) : ℚ) ≠ 0 := by exact_mod_cast Nat.factorial_ne_zero M
    have hm : ((m.factorial : Nat) : ℚ) ≠ 0 := by exact_mod_cast Nat.factorial_ne_zero m
    rw [Nat.cast_mul, Nat.cast_mul, Nat.cast_div hd hm]
    field_simp

end PyNucleus.Simplex
