import Verif.Model.Blas
import Verif.Model.Block
import Mathlib.Order.Defs.LinearOrder

/-!
# Model of interpolation operators

/repo/base/PyNucleus_base/linear_operators.pyx, `sumMultiplyOperator` (1165-1258),
`interpolationOperator` (1260-1390) and `multiIntervalInterpolationOperator` (1393-1530).

The work arrays `W`, `W_prime`, `W_2prime` are functions of two indices.  The coefficients are NaN
before the first call of `set`: `none`.
-/

namespace PyNucleus.Interp

open PyNucleus.Loops PyNucleus.Block PyNucleus.Blas

variable {K : Type}

/-- Two dimensional work array. -/
abbrev Arr2 (K : Type) := Nat → Nat → K

/-- `W[j, i] = v`. -/
def upd (W : Arr2 K) (j i : Nat) (v : K) : Arr2 K := fun j' i' => if j' = j ∧ i' = i then v else W j' i'

/-- Double loop `for j in range(m): for i in range(n): W[j, i] = f j i W`. -/
def fill (m n : Nat) (W : Arr2 K) (f : Nat → Nat → Arr2 K → K) : Arr2 K :=
  forRange 0 m W fun W j => forRange 0 n W fun W i => upd W j i (f j i W)

section
variable [Field K]

/-- Identity, 1301-1306. -/
def initW (n : Nat) (W : Arr2 K) : Arr2 K := fill n n W fun i j _ => if i = j then 1 else 0

/-- Zero, 1323, 1345-1346. -/
def initZero (n : Nat) (W : Arr2 K) : Arr2 K := fill n n W fun _ _ _ => 0

/-- Update of `W`, 1309-1311. -/
def stepW (n k : Nat) (nodes : List K) (val : K) (W : Arr2 K) : Arr2 K :=
  fill (n - k) n W fun j i W =>
    (W j i * (val - nodes.getD (k + j) 0) - W (1 + j) i * (val - nodes.getD j 0)) / (nodes.getD j 0 - nodes.getD (k + j) 0)

/-- Update of `W_prime`, 1326-1328 and 1355-1357. -/
def stepW1 (n k : Nat) (nodes : List K) (val : K) (W W1 : Arr2 K) : Arr2 K :=
  fill (n - k) n W1 fun j i W1 =>
    (W1 j i * (val - nodes.getD (k + j) 0) + W j i - W1 (1 + j) i * (val - nodes.getD j 0) - W (1 + j) i) /
      (nodes.getD j 0 - nodes.getD (k + j) 0)

/-- Update of `W_2prime`, 1350-1353. -/
def stepW2 (n k : Nat) (nodes : List K) (val : K) (W1 W2 : Arr2 K) : Arr2 K :=
  fill (n - k) n W2 fun j i W2 =>
    (W2 j i * (val - nodes.getD (k + j) 0) + 2 * W1 j i - W2 (1 + j) i * (val - nodes.getD j 0) - 2 * W1 (1 + j) i) /
      (nodes.getD j 0 - nodes.getD (k + j) 0)

/-- State of an interpolation operator. -/
structure InterpOp (K : Type) where
  nodes : List K
  left : K
  right : K
  val : Option K
  derivative : Int
  coeffs : List (Option K)
  W : Arr2 K
  W1 : Arr2 K
  W2 : Arr2 K

/-- The three branches of `set`: final contents of the work arrays. -/
def table (n : Nat) (nodes : List K) (val : K) (derivative : Nat) (s : Arr2 K × Arr2 K × Arr2 K) : Arr2 K × Arr2 K × Arr2 K :=
  match derivative with
  | 0 => forRange 1 n (initW n s.1, s.2.1, s.2.2) fun s k => (stepW n k nodes val s.1, s.2.1, s.2.2)
  | 1 => forRange 1 n (initW n s.1, initZero n s.2.1, s.2.2) fun s k =>
      let w1 := stepW1 n k nodes val s.1 s.2.1
      (stepW n k nodes val s.1, w1, s.2.2)
  | _ => forRange 1 n (initW n s.1, initZero n s.2.1, initZero n s.2.2) fun s k =>
      let w2 := stepW2 n k nodes val s.2.1 s.2.2
      let w1 := stepW1 n k nodes val s.1 s.2.1
      (stepW n k nodes val s.1, w1, w2)

/-- `interpolationOperator.set`, 1286-1365: new state, and whether an exception was raised after
`val` and `derivative` were stored.  `none`: the assertion on the range failed. -/
def InterpOp.set [LinearOrder K] (op : InterpOp K) (val : K) (derivative : Nat) : Option (InterpOp K × Bool) :=
  if op.left ≤ val ∧ val ≤ op.right then
    let op := { op with val := some val, derivative := derivative }
    if derivative ≤ 2 then
      let n := op.nodes.length
      let s := table n op.nodes val derivative (op.W, op.W1, op.W2)
      let row := match derivative with
        | 0 => s.1
        | 1 => s.2.1
        | _ => s.2.2
      some ({ op with W := s.1, W1 := s.2.1, W2 := s.2.2,
                      coeffs := forRange 0 n op.coeffs fun c i => c.set i (some (row 0 i)) }, true)
    else some (op, false)
  else none

/-- `interpolationOperator.__init__`, 1267-1284. -/
def InterpOp.init [LinearOrder K] (nodes : List K) (left right : K) : Option (InterpOp K) :=
  if (List.range (nodes.length - 1)).all fun i => decide (nodes.getD i 0 < nodes.getD (i + 1) 0) then
    some ⟨nodes, left, right, none, -1, List.replicate nodes.length none, fun _ _ => 0, fun _ _ => 0, fun _ _ => 0⟩
  else none

/-- `sumMultiplyOperator.matvec`, 1187-1202; `z` is the buffer. -/
def sumMatvec (ops : List (Blk K)) (coeffs : List K) (x y z : List K) : List K × List K :=
  let y := scaleScalar ((ops.getD 0 default).apply x y) (coeffs.getD 0 0)
  forRange 1 coeffs.length (y, z) fun s i =>
    let z := (ops.getD i default).apply x s.2
    (assign3Self s.1 1 z (coeffs.getD i 0), z)

/-- `sumMultiplyOperator.matvec_no_overwrite`, 1204-1215. -/
def sumMatvecNoOverwrite (ops : List (Blk K)) (coeffs : List K) (x y z : List K) : List K × List K :=
  forRange 0 coeffs.length (y, z) fun s i =>
    let z := (ops.getD i default).apply x s.2
    (assign3Self s.1 1 z (coeffs.getD i 0), z)

/-- State of `multiIntervalInterpolationOperator`. -/
structure MultiOp (K : Type) where
  ops : List (InterpOp K)
  left : K
  right : K
  selected : Option Nat

/-- `multiIntervalInterpolationOperator.__init__`, 1400-1413.  The bounds start at plus and minus
infinity, so the first interval replaces them; without intervals the constructor fails at `ops[0]`. -/
def MultiOp.init [LinearOrder K] (intervals : List (K × K)) (nodes : List (List K)) : Option (MultiOp K) :=
  match intervals with
  | [] => none
  | iv :: ivs => do
    let ops ← ((iv :: ivs).zip nodes).mapM fun p => InterpOp.init p.2 p.1.1 p.1.2
    some ⟨ops, ivs.foldl (fun l iv => min l iv.1) iv.1, ivs.foldl (fun r iv => max r iv.2) iv.2, none⟩

/-- Loop of `multiIntervalInterpolationOperator.set`, 1425-1434: first interval that contains the value. -/
def findInterval [LinearOrder K] (ops : List (InterpOp K)) (val : K) : Option Nat :=
  ops.findIdx? fun op => decide (op.left ≤ val ∧ val ≤ op.right)

/-- `multiIntervalInterpolationOperator.set`, 1418-1434. -/
def MultiOp.set [LinearOrder K] (m : MultiOp K) (val : K) (derivative : Nat) : Option (MultiOp K) :=
  if m.left ≤ val ∧ val ≤ m.right then
    match findInterval m.ops val with
    | some k =>
      match m.ops[k]? with
      | some op =>
        match op.set val derivative with
        | some (op', true) => some { m with ops := m.ops.set k op', selected := some k }
        | _ => none
      | none => none
    | none => none
  else none

end

end PyNucleus.Interp
