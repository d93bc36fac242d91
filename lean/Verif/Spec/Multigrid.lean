import Verif.Model.Multigrid
import Verif.Spec.Vec
import Mathlib.LinearAlgebra.Matrix.ToLin

/-! # Matrices of a multigrid hierarchy -/

namespace PyNucleus.Multigrid

open PyNucleus.Spec

variable {K : Type} [Field K]

/-- Matrices of the levels: `R l` and `P l` connect level `l + 1` and level `l`, `N l post` is the smoother
`y -> y + N (b - A y)`, `C` is the coarse solver. -/
structure Mats (K : Type) (n : Nat → Nat) where
  A : ∀ l, Matrix (Fin (n l)) (Fin (n l)) K
  R : ∀ l, Matrix (Fin (n l)) (Fin (n (l + 1))) K
  P : ∀ l, Matrix (Fin (n (l + 1))) (Fin (n l)) K
  N : ∀ l, Bool → Matrix (Fin (n l)) (Fin (n l)) K
  C : Matrix (Fin (n 0)) (Fin (n 0)) K

/-- The operators of the hierarchy are these matrices on the levels up to `L`. -/
structure Describes (H : Hier K) (T : Mats K H.n) (L : Nat) : Prop where
  A : ∀ l, l < L → Applies (H.n (l + 1)) (H.A (l + 1)) (T.A (l + 1))
  R : ∀ l, l < L → ∀ x y : List K, x.length = H.n (l + 1) → y.length = H.n l →
    (H.R (l + 1) x y).length = H.n l ∧ toV _ (H.R (l + 1) x y) = (T.R l).mulVec (toV _ x)
  P : ∀ l, l < L → ∀ x y : List K, x.length = H.n l → y.length = H.n (l + 1) →
    (H.P (l + 1) x y).length = H.n (l + 1) ∧ toV _ (H.P (l + 1) x y) = (T.P l).mulVec (toV _ x)
  smooth : ∀ l, l < L → ∀ (post simple : Bool) (b y t : List K), b.length = H.n (l + 1) → y.length = H.n (l + 1) →
    t.length = H.n (l + 1) → (simple = true → toV (H.n (l + 1)) y = 0) →
    ∃ y' t', H.smooth (l + 1) post simple b y t = some (y', t') ∧ y'.length = H.n (l + 1) ∧ t'.length = H.n (l + 1) ∧
      toV (H.n (l + 1)) y' = toV _ y + (T.N (l + 1) post).mulVec (toV _ b - (T.A (l + 1)).mulVec (toV _ y))
  coarse : ∀ b x : List K, b.length = H.n 0 → x.length = H.n 0 →
    ∃ x', H.coarse b x = some x' ∧ x'.length = H.n 0 ∧ toV (H.n 0) x' = T.C.mulVec (toV _ b)

/-- The arrays of the levels are allocated. -/
def MemOK (n : Nat → Nat) (L : Nat) (mem : Mems K) : Prop :=
  (∀ l, l < L → (mem l).rhs.length = n l ∧ (mem l).sol.length = n l) ∧
    ∀ l, l < L → (mem (l + 1)).temp.length = n (l + 1)

/-- `k` steps of `x -> x + B (b - A x)` from zero give `iter B A k b`. -/
def iter {m : Nat} (B A : Matrix (Fin m) (Fin m) K) : Nat → Matrix (Fin m) (Fin m) K
  | 0 => 0
  | k + 1 => iter B A k + B * (1 - A * iter B A k)

/-- The textbook recursion: `I - B A = (I - N2 A)(I - P B' R A)(I - N1 A)` with the coarse correction `B'` of `cycle`
cycles on the next coarser level. -/
def Mats.B {n : Nat → Nat} (T : Mats K n) (cycle : Nat) : ∀ l, Matrix (Fin (n l)) (Fin (n l)) K
  | 0 => T.C
  | l + 1 =>
    let G := T.P l * (if l = 0 then T.B cycle l else iter (T.B cycle l) (T.A l) cycle) * T.R l
    let N1 := T.N (l + 1) false
    let N2 := T.N (l + 1) true
    N1 + (G * (1 - T.A (l + 1) * N1)) + N2 * (1 - T.A (l + 1) * (N1 + G * (1 - T.A (l + 1) * N1)))

/-- Nested iteration: the solution on level `l` from the right hand side of level `l`. -/
def Mats.F {n : Nat → Nat} (T : Mats K n) (cycle : Nat) : ∀ l, Matrix (Fin (n l)) (Fin (n l)) K
  | 0 => T.C
  | l + 1 =>
    let X := T.P l * T.F cycle l * T.R l
    X + T.B cycle (l + 1) * (1 - T.A (l + 1) * X)

/-- Initial approximation of full multigrid on the finest level: interpolate and smooth. -/
def Mats.start {n : Nat → Nat} (T : Mats K n) (cycle : Nat) : ∀ l, Matrix (Fin (n l)) (Fin (n l)) K
  | 0 => 0
  | l + 1 =>
    let X := T.P l * T.F cycle l * T.R l
    X + T.N (l + 1) true * (1 - T.A (l + 1) * X)

/-- The preconditioner multiplies by `Q`. -/
def PrecApplies (m : Nat) (prec : List K → List K → Option (List K)) (Q : Matrix (Fin m) (Fin m) K) : Prop :=
  ∀ x r : List K, x.length = m → r.length = m → ∃ z, prec x r = some z ∧ z.length = m ∧ toV m z = Q.mulVec (toV m x)

/-- The `i`-th iterate of `x -> x + B (b - A x)` from `x`. -/
def iterate {m : Nat} (B A : Matrix (Fin m) (Fin m) K) (b x : Fin m → K) : Nat → Fin m → K
  | 0 => x
  | i + 1 => iterate B A b x i + B.mulVec (b - A.mulVec (iterate B A b x i))

/-- Norm of the residual, as computed by `sqrt`. -/
def resNorm {m : Nat} (sqrt : K → Option K) (A : Matrix (Fin m) (Fin m) K) (b x : Fin m → K) : Option K :=
  sqrt ((b - A.mulVec x) ⬝ᵥ (b - A.mulVec x))

/-- Stopping tolerance. -/
def MG.tol (S : MG K) (A : Matrix (Fin (S.H.n S.L)) (Fin (S.H.n S.L)) K) (b x0 : Fin (S.H.n S.L) → K) : Option K :=
  if S.relTol then (resNorm S.sqrt A b x0).map fun r => S.tolerance * r else some S.tolerance

/-- Initial guess, zero if none is set. -/
def MG.guess (S : MG K) : Fin (S.H.n S.L) → K := toV _ (S.x0.getD [])

/-- Whether the cycle starts with a full multigrid sweep. -/
def Cycle.full : Cycle → Bool
  | .V => false
  | .W => false
  | .FMG_V => true
  | .FMG_W => true

/-- Coarse corrections per level. -/
def Cycle.gamma : Cycle → Nat
  | .V => 1
  | .W => 2
  | .FMG_V => 1
  | .FMG_W => 2

/-- Where the cycles start. -/
def MG.first (S : MG K) (T : Mats K S.H.n) (b : Fin (S.H.n S.L) → K) : Fin (S.H.n S.L) → K :=
  if S.cycle.full then (T.start S.cycle.gamma S.L).mulVec b else S.guess

/-- Iterations counted before the loop. -/
def Cycle.before (c : Cycle) : Nat := if c.full then 1 else 0

end PyNucleus.Multigrid
