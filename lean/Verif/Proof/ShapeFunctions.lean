import Verif.Model.ShapeFunctions
import Mathlib.Algebra.BigOperators.Fin
import Mathlib.Algebra.CharZero.Defs
import Mathlib.Tactic.Ring
import Mathlib.Tactic.NormNum
import Mathlib.Tactic.FieldSimp
import Mathlib.Tactic.IntervalCases
import Mathlib.Data.List.GetD

/-! # Lemmas about shape functions -/

namespace PyNucleus.ShapeFunctions

variable {K : Type} [Field K] [CharZero K]

/-- `φ_i(node_j) = δ_ij`. -/
theorem nodal_matrix (p dim : Nat) (hp : p ≤ 3) (h1 : 1 ≤ dim) (h3 : dim ≤ 3) :
    (localShapeFunctions p dim).map (fun φ => (nodes K p dim).map fun x => φ.eval x) =
      (List.range (nodes K p dim).length).map fun i => (List.range (nodes K p dim).length).map fun j => if i = j then 1 else 0 := by
  interval_cases p <;> interval_cases dim <;>
    simp [localShapeFunctions, nodes, Shape.eval, List.range_succ] <;> norm_num

theorem foldl_add (l : List K) : ∀ a : K, l.foldl (· + ·) a = a + l.sum := by
  induction l with
  | nil => intro a; simp
  | cons x l ih => intro a; rw [List.foldl_cons, ih, List.sum_cons]; ring

/-- Sum over the local dofs. -/
theorem evalFun_eq (p dim : Nat) (f : List K → K) (lam : List K) :
    evalFun p dim (interpolate p dim f) lam = (((localShapeFunctions p dim).zip (nodes K p dim)).map fun q => q.1.eval lam * f q.2).sum := by
  unfold evalFun interpolate
  rw [foldl_add, zero_add, List.zipWith_map_right, List.zip, List.map_zipWith]

/-- Interpolation reproduces monomials: local dofs of a triangle etc. -/
theorem monomial_1 (p : Nat) (hp : p ≤ 3) (a b : K) (h : a + b = 1) (i j : Nat) (hij : i + j ≤ p) :
    evalFun p 1 (interpolate p 1 fun x => x.getD 0 0 ^ i * x.getD 1 0 ^ j) [a, b] = a ^ i * b ^ j := by
  obtain rfl : b = 1 - a := by rw [← h]; ring
  have hi : i ≤ p := by omega
  have hj : j ≤ p - i := by omega
  clear hij
  interval_cases p <;> interval_cases i <;> interval_cases j <;>
    simp [evalFun, interpolate, localShapeFunctions, nodes, Shape.eval, List.range_succ] <;> ring

theorem monomial_2 (p : Nat) (hp : p ≤ 3) (a b c : K) (h : a + b + c = 1) (i j k : Nat) (hij : i + j + k ≤ p) :
    evalFun p 2 (interpolate p 2 fun x => x.getD 0 0 ^ i * x.getD 1 0 ^ j * x.getD 2 0 ^ k) [a, b, c] = a ^ i * b ^ j * c ^ k := by
  obtain rfl : c = 1 - a - b := by rw [← h]; ring
  have hi : i ≤ p := by omega
  have hj : j ≤ p - i := by omega
  have hk : k ≤ p - i - j := by omega
  clear hij
  interval_cases p <;> interval_cases i <;> interval_cases j <;> interval_cases k <;>
    simp [evalFun, interpolate, localShapeFunctions, nodes, Shape.eval, List.range_succ] <;> ring

set_option maxHeartbeats 4000000 in
theorem monomial_3 (p : Nat) (hp : p ≤ 3) (a b c d : K) (h : a + b + c + d = 1) (i j k l : Nat) (hij : i + j + k + l ≤ p) :
    evalFun p 3 (interpolate p 3 fun x => x.getD 0 0 ^ i * x.getD 1 0 ^ j * x.getD 2 0 ^ k * x.getD 3 0 ^ l) [a, b, c, d] = a ^ i * b ^ j * c ^ k * d ^ l := by
  obtain rfl : d = 1 - a - b - c := by rw [← h]; ring
  have hi : i ≤ p := by omega
  have hj : j ≤ p - i := by omega
  have hk : k ≤ p - i - j := by omega
  have hl : l ≤ p - i - j - k := by omega
  clear hij
  interval_cases p <;> interval_cases i <;> interval_cases j <;> interval_cases k <;> interval_cases l <;>
    simp [evalFun, interpolate, localShapeFunctions, nodes, Shape.eval, List.range_succ] <;> ring

end PyNucleus.ShapeFunctions
