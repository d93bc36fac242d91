/-!
# Array loops shared by several routines

Typed memoryviews are lists.  Reads use `getD`, writes `set`/`modify`; the theorems assume
the validity of the arrays that makes every index of the code an index into its array.
-/

namespace PyNucleus.Loops

/-- `for k in range(lo, hi): body`. -/
def forRange {σ : Type} (lo hi : Nat) (init : σ) (body : σ → Nat → σ) : σ :=
  (List.range' lo (hi - lo)).foldl body init

/-- Counting loop: `p = np.zeros(n+1); for each key c: p[c+1] += 1`.
base/PyNucleus_base/linear_operators.pyx 61-64 and 220-223,
base/PyNucleus_base/SSS_LinearOperator_{SCALAR}.pxi 170-175. -/
def countKeys (n : Nat) (keys : List Nat) : List Nat :=
  keys.foldl (fun p c => p.modify (c + 1) (· + 1)) (List.replicate (n + 1) 0)

/-- Running sums: `for i in range(n): p[i+1] += p[i]`.
base/PyNucleus_base/linear_operators.pyx 66-67 (`for j in range(1, ncol+1)`) and 224-225,
base/PyNucleus_base/SSS_LinearOperator_{SCALAR}.pxi 176-177. -/
def cumsum (n : Nat) (p : List Nat) : List Nat :=
  forRange 0 n p fun p i => p.set (i + 1) (p.getD (i + 1) 0 + p.getD i 0)

/-- Fill loop: `out[p[c]] = a; p[c] += 1` for each item `(c, a)`.
base/PyNucleus_base/linear_operators.pyx 69-81 and 226-230,
base/PyNucleus_base/SSS_LinearOperator_{SCALAR}.pxi 183-194. -/
def fill {α : Type} (items : List (Nat × α)) (s : List Nat × List α) : List Nat × List α :=
  items.foldl (fun s it => (s.1.modify it.1 (· + 1), s.2.set (s.1.getD it.1 0) it.2)) s

/-- `for i in range(n, 0, -1): p[i] = p[i-1]` and `p[0] = 0`.
base/PyNucleus_base/SSS_LinearOperator_{SCALAR}.pxi 195-197. -/
def shiftBack (n : Nat) (p : List Nat) : List Nat :=
  ((List.range' 1 n).reverse.foldl (fun p i => p.set i (p.getD (i - 1) 0)) p).set 0 0

/-- `temp = 0; for i in range(n+1): p[i], temp = temp, p[i]`.
base/PyNucleus_base/linear_operators.pyx 83-85 and 231-233. -/
def rotate (n : Nat) (p : List Nat) : List Nat :=
  (forRange 0 (n + 1) (p, 0) fun s i => (s.1.set i s.2, s.1.getD i 0)).1

end PyNucleus.Loops
