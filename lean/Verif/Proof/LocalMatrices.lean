import Verif.Proof.SimplexPolynomial
import Verif.Model.LocalMatrices
import Mathlib.Tactic.IntervalCases
import Mathlib.Tactic.Ring

/-! Shape functions as computable polynomials and comparison of the tables. -/

namespace PyNucleus.Simplex

open MvPolynomial PyNucleus.ShapeFunctions

def const (c : Int) : Poly := [(c, [])]

def var (n v : Nat) : Poly := [(1, (List.range n).map fun i => if i = v then 1 else 0)]

theorem toMv_const (n : Nat) (c : Int) : toMv n (const c) = C (c : ℚ) := by
  have h : expo n [] = 0 := Finsupp.ext fun i => rfl
  rw [const, toMv_cons, toMv_nil, add_zero, term, h, monomial_zero']

theorem toMv_var (n : Nat) (v : Fin n) : toMv n (var n v) = X v := by
  have h : expo n ((List.range n).map fun i => if i = (v : Nat) then 1 else 0) = Finsupp.single v 1 := Finsupp.ext fun i => by
    rw [expo_apply, getD_map_range _ _ _ i.2]
    by_cases h : i = v
    · rw [h, if_pos rfl, Finsupp.single_eq_same]
    · rw [if_neg (fun e => h (Fin.ext e)), Finsupp.single_eq_of_ne h]
  rw [var, toMv_cons, toMv_nil, add_zero, term, h, Int.cast_one, X]

/-- Twice the shape function. -/
def double (n : Nat) : Shape → Poly
  | .p0 => const 2
  | .p1 v => mul n (const 2) (var n v)
  | .p2v v => mul n (const 2) (mul n (var n v) (mul n (const 2) (var n v) ++ const (-1)))
  | .p2e v w => mul n (const 8) (mul n (var n v) (var n w))
  | .p3v v => mul n (var n v) (mul n (mul n (const 3) (var n v) ++ const (-1)) (mul n (const 3) (var n v) ++ const (-2)))
  | .p3e v w => mul n (const 9) (mul n (mul n (var n v) (var n w)) (mul n (const 3) (var n v) ++ const (-1)))
  | .p3f u v w => mul n (const 54) (mul n (mul n (var n u) (var n v)) (var n w))

/-- The vertex numbers of a shape function are less than `n`. -/
def vertsLt (n : Nat) : Shape → Prop
  | .p0 => True
  | .p1 v => v < n
  | .p2v v => v < n
  | .p2e v w => v < n ∧ w < n
  | .p3v v => v < n
  | .p3e v w => v < n ∧ w < n
  | .p3f u v w => u < n ∧ v < n ∧ w < n

theorem eval_var (n v : Nat) (h : v < n) (lam : List ℚ) : eval (fun i : Fin n => lam.getD i 0) (toMv n (var n v)) = lam.getD v 0 := by
  rw [toMv_var n ⟨v, h⟩, eval_X]

theorem eval_const (n : Nat) (c : Int) (lam : List ℚ) : eval (fun i : Fin n => lam.getD i 0) (toMv n (const c)) = (c : ℚ) := by
  rw [toMv_const, eval_C]

theorem eval_double (n : Nat) (φ : Shape) (h : vertsLt n φ) (lam : List ℚ) :
    eval (fun i : Fin n => lam.getD i 0) (toMv n (double n φ)) = 2 * φ.eval lam := by
  cases φ with
  | p0 => rw [double, eval_const, Shape.eval]; norm_num
  | p1 v => rw [double, toMv_mul, map_mul, eval_const, eval_var n v h, Shape.eval]; norm_num
  | p2v v =>
    simp only [double, toMv_mul, toMv_append, map_mul, map_add, eval_const, eval_var n v h, Shape.eval]; push_cast; ring
  | p2e v w => simp only [double, toMv_mul, toMv_append, map_mul, map_add, eval_const, eval_var n v h.1, eval_var n w h.2, Shape.eval]; push_cast; ring
  | p3v v => simp only [double, toMv_mul, toMv_append, map_mul, map_add, eval_const, eval_var n v h, Shape.eval]; push_cast; ring
  | p3e v w => simp only [double, toMv_mul, toMv_append, map_mul, map_add, eval_const, eval_var n v h.1, eval_var n w h.2, Shape.eval]; push_cast; ring
  | p3f u v w =>
    simp only [double, toMv_mul, toMv_append, map_mul, map_add, eval_const, eval_var n u h.1, eval_var n v h.2.1, eval_var n w h.2.2, Shape.eval]; push_cast; ring

theorem vertsLt_local (p dim : Nat) (hp : p ≤ 3) (h1 : 1 ≤ dim) (h3 : dim ≤ 3) : ∀ φ ∈ localShapeFunctions p dim, vertsLt (dim + 1) φ := by
  intro φ hφ
  revert hφ
  interval_cases p <;> interval_cases dim <;> intro hφ <;>
    simp only [localShapeFunctions, List.range_succ, List.range_zero, List.nil_append, List.cons_append, List.map_cons, List.map_nil, List.mem_cons, List.not_mem_nil, or_false] at hφ <;>
    (try rcases hφ with rfl | hφ) <;> simp_all [vertsLt] <;> (repeat' rcases hφ with rfl | hφ) <;> simp_all [vertsLt]

open PyNucleus.LocalMatrices

/-- Number relating the entries of the tables to mean values. -/
def massF : Nat → Nat → Nat
  | 0, _ => 4
  | 1, _ => 4
  | 2, 1 => 16
  | 2, _ => 8
  | 3, 3 => 54
  | _, _ => 12

def stiffnessF : Nat → Nat → Nat
  | 1, _ => 4
  | 2, 1 => 8
  | 2, _ => 16
  | 3, 1 => 12
  | 3, 2 => 18
  | _, _ => 6

def doubles (p d : Nat) : List Poly := (localShapeFunctions p d).map (double (d + 1))

def massCheck (p d : Nat) : Bool :=
  let fs := doubles p d
  let prods := (upper fs.length).map fun q => mul (d + 1) (fs.getD q.1 []) (fs.getD q.2 [])
  prods.all (degreeOk d (d + 2 * p)) &&
    (prods.map (meanInt d (d + 2 * p)) == (mass p d).factors.map fun a => (massF p d : Int) * a)

theorem massCheck_true (p d : Nat) (hp : p ≤ 3) (h1 : 1 ≤ d) (h3 : d ≤ 3) : massCheck p d = true := by
  interval_cases p <;> interval_cases d <;> decide +kernel

def mass01Check (d : Nat) : Bool :=
  let fs := doubles 1 d
  fs.all (degreeOk d (d + 1)) && (fs.map (meanInt d (d + 1)) == (mass01 d).factors.map fun a => 2 * a)

theorem mass01Check_true (d : Nat) (h1 : 1 ≤ d) (h3 : d ≤ 3) : mass01Check d = true := by
  interval_cases d <;> decide +kernel

/-- Terms of the stiffness matrices; in one dimension the inner product `l00` is one. -/
def stiffnessRows (p d : Nat) : List (List (Int × Nat)) := if d = 1 then (stiffness1 p).factors.map fun a => [(a, 0)] else (stiffness p d).factors

/-- Coefficient of `G k l` in a row. -/
def rowMat (d : Nat) (row : List (Int × Nat)) (k l : Nat) : Int := (row.map fun t => if (upper (d + 1))[t.2]? = some (k, l) then t.1 else 0).sum

def normal (A : Nat → Nat → Int) (k l : Nat) : Int := A k l + A l k - A k k - A l l

def matOf (n : Nat) (A : Nat → Nat → Int) : List (List Int) := (List.range n).map fun k => (List.range n).map fun l => A k l

def stiffnessPair (d M : Nat) (F : Nat) (f g : Poly) (row : List (Int × Nat)) : Bool :=
  let n := d + 1
  let df := (List.range n).map fun k => deriv n k f
  let dg := (List.range n).map fun k => deriv n k g
  let prod := fun k l => mul n (df.getD k []) (dg.getD l [])
  let A := matOf n fun k l => meanInt d M (prod k l)
  let B := matOf n (rowMat d row)
  (List.range n).all fun k => (List.range n).all fun l => degreeOk d M (prod k l) &&
    (normal (fun k l => (A.getD k []).getD l 0) k l == F * normal (fun k l => (B.getD k []).getD l 0) k l)

def stiffnessCheck (p d : Nat) : Bool :=
  let fs := doubles p d
  let rows := stiffnessRows p d
  let u := upper fs.length
  u.length == rows.length && (rows.all fun row => row.all fun t => t.2 < (upper (d + 1)).length) &&
    (u.zip rows).all fun q => stiffnessPair d (d + 2 * (p - 1)) (stiffnessF p d) (fs.getD q.1.1 []) (fs.getD q.1.2 []) q.2

theorem stiffnessCheck_true (p d : Nat) (h0 : 1 ≤ p) (hp : p ≤ 3) (h1 : 1 ≤ d) (h3 : d ≤ 3) : stiffnessCheck p d = true := by
  interval_cases p <;> interval_cases d <;> decide +kernel

end PyNucleus.Simplex
