import Verif.Model.Loops
import Mathlib.Algebra.Module.Basic
import Mathlib.Algebra.Field.Basic

/-!
# Model of the time steppers

/repo/base/PyNucleus_base/timestepping.py.  Vectors are elements of a vector space `V` over `K`; the callbacks `residual`
and `solverBuilder` are functions, as described in the docstrings (19-25, 386-396).  Not modelled: `fastL1Scheme`,
initial guesses of iterative solvers other than as argument of the solver.
-/

namespace PyNucleus.TimeStepping

variable {K V : Type}

/-- The callbacks of `Stepper`, 19-25: `solver t alpha beta` is what `solverBuilder(t, alpha, beta)` returns, called with the right hand
side and the old contents of `u`. -/
structure Prob (K V : Type) where
  A : K → V → V
  B : K → V → V
  g : K → V
  solver : K → K → K → V → V → Option V

section
variable [Field K] [AddCommGroup V] [Module K V]

/-- `residual` callback, 23, with the arguments of 54. -/
def Prob.residual (P : Prob K V) (t : K) (u ut : Option V) (res : V) (cA cB cg cr : K) (forcing : Option V) : V :=
  cA • (ut.map (P.A t)).getD 0 + cB • (u.map (P.B t)).getD 0 - cg • forcing.getD (P.g t) + cr • res

/-- `if dt is None: dt = self.dt; assert dt is not None`. -/
def pick (dt own : Option K) : Option K := if dt.isSome then dt else own

/-- `CrankNicolson`; `cache` holds the arguments with which `_solver` was built. -/
structure CN (K V : Type) where
  P : Prob K V
  theta : K
  dt : Option K
  timeDep : Bool
  cache : Option (K × K × K)
  rhs : V

/-- `getSolver`, 37-43. -/
def CN.getSolver (S : CN K V) (t cA cB : K) : (V → V → Option V) × CN K V :=
  if S.timeDep then (S.P.solver t cA cB, S)
  else match S.cache with
    | none => (S.P.solver 0 cA cB, { S with cache := some (0, cA, cB) })
    | some (t', a, b) => (S.P.solver t' a b, S)

/-- `CrankNicolson.step`, 93-110; `none` is a failed assertion or solve. -/
def CN.step [DecidableEq K] (S : CN K V) (t : K) (dt : Option K) (u : V) (forcing : Option V) : Option (K × V × CN K V) := do
  let dt ← pick dt S.dt
  if S.timeDep = false ∧ S.dt ≠ some dt then none
  else do
    let rhs := S.P.residual t (some u) (some u) S.rhs (1 / dt) (-(1 - S.theta)) (-(1 - S.theta)) 0 forcing
    let rhs := S.P.residual (t + dt) (some u) (some u) rhs 0 0 (-S.theta) 1 forcing
    let (solver, S) := S.getSolver (t + dt) (1 / dt) S.theta
    let u ← solver rhs u
    some (t + dt, u, { S with rhs := rhs })

/-- Steps with given time step sizes and forcing vectors: the visited states. -/
def CN.run [DecidableEq K] : CN K V → K → V → List (Option K × Option V) → Option (List (K × V))
  | _, _, _, [] => some []
  | S, t, u, (dt, f) :: rest => do
    let (t, u, S) ← S.step t dt u f
    let more ← CN.run S t u rest
    some ((t, u) :: more)

/-- `L1Scheme`: `b` are the weights of 215, `dta` is `dt**alpha`; `memory` holds the rows of 214. -/
structure L1 (K V : Type) where
  P : Prob K V
  dt : K
  dta : K
  b : Nat → K
  maxSteps : Nat
  memory : Nat → V
  k : Nat

/-- Coefficients, 247-250. -/
def l1Coeff (b : Nat → K) (k : Nat) (coeff : Nat → K) : Nat → K :=
  Loops.forRange 1 k (fun i => if i = 0 then b (k - 1) / b 0 else coeff i) fun c j =>
    fun i => if i = k - j then (b (j - 1) - b j) / b 0 else c i

/-- `np.dot(coeff, memory[:k])`. -/
def combine (coeff : Nat → K) (memory : Nat → V) (k : Nat) : V := Loops.forRange 0 k 0 fun s i => s + coeff i • memory i

/-- `L1Scheme.step`, 221-267; `coeff` is the uninitialised array of 247, `rhs`, `rhs2` old contents. -/
def L1.step [DecidableEq K] (S : L1 K V) (coeff : Nat → K) (rhs rhs2 : V) (t : K) (dt : Option K) (u : V) : Option (K × V × L1 K V) :=
  let dt := dt.getD S.dt
  if S.maxSteps < S.k ∨ dt ≠ S.dt then none
  else do
    let rhs := S.P.residual (t + dt) none none rhs 0 0 (-(S.dta / S.b 0)) 0 none
    let rhs2 := S.P.residual t none (some u) rhs2 1 0 0 0 none
    let memory := if S.k = 1 then fun i => if i = 0 then rhs2 else S.memory i else S.memory
    let rhs2 := combine (l1Coeff S.b S.k coeff) memory S.k
    let rhs := rhs + rhs2
    let u ← S.P.solver 0 1 (S.dta / S.b 0) rhs u
    let row := S.P.residual (t + dt) none (some u) (memory S.k) 1 0 0 0 none
    some (t + dt, u, { S with memory := fun i => if i = S.k then row else memory i, k := S.k + 1 })

/-- Steps: the visited solutions. -/
def L1.run [DecidableEq K] (coeff : Nat → K) (rhs rhs2 : V) : L1 K V → K → V → Nat → Option (List V)
  | _, _, _, 0 => some []
  | S, t, u, m + 1 => do
    let (t, u, S) ← S.step coeff rhs rhs2 t none u
    let more ← L1.run coeff rhs rhs2 S t u m
    some (u :: more)

/-- Callbacks of `IMEX`, 386-396. -/
structure ProbIE (K V : Type) where
  A : K → V → V
  I : K → V → V
  E : K → V → V
  g : K → V
  solver : K → K → K → V → V → Option V

/-- The residual callback, 448. -/
def ProbIE.residual (P : ProbIE K V) (t : K) (u ut : Option V) (res : V) (cA cI cE cg cr : K) (forcing : Option V) : V :=
  cA • (ut.map (P.A t)).getD 0 + cI • (u.map (P.I t)).getD 0 + cE • (u.map (P.E t)).getD 0 - cg • forcing.getD (P.g t) + cr • res

/-- Tableau, 382. -/
structure Tableau (K : Type) where
  s : Nat
  c : Nat → K
  bExpl : Nat → K
  bImpl : Nat → K
  AExpl : Nat → Nat → K
  AImpl : Nat → Nat → K

/-- `IMEX`, 431-446; caches hold the arguments with which the solvers were built. -/
structure IMEX (K V : Type) where
  P : ProbIE K V
  T : Tableau K
  dt : Option K
  timeDep : Bool
  mass : Option K
  impl : Option (K × K × K)
  U : Nat → V
  UExpl : Nat → V
  UImpl : Nat → V
  force : Nat → V
  rhs : V

/-- Write an array entry. -/
def upd (f : Nat → V) (k : Nat) (v : V) : Nat → V := fun i => if i = k then v else f i

/-- `getMassSolver`, 451-457. -/
def IMEX.getMass (S : IMEX K V) (t : K) : (V → V → Option V) × IMEX K V :=
  if S.timeDep then (S.P.solver t 1 0, S)
  else match S.mass with
    | none => (S.P.solver t 1 0, { S with mass := some t })
    | some t' => (S.P.solver t' 1 0, S)

/-- `getImplicitSolver`, 459-465. -/
def IMEX.getImplicit (S : IMEX K V) (t alpha beta : K) : (V → V → Option V) × IMEX K V :=
  if S.timeDep then (S.P.solver t alpha beta, S)
  else match S.impl with
    | none => (S.P.solver t alpha beta, { S with impl := some (t, alpha, beta) })
    | some (t', a, b) => (S.P.solver t' a b, S)

variable [DecidableEq K]

/-- `A[:, k].sum()`. -/
def colSum (s : Nat) (A : Nat → Nat → K) (k : Nat) : K := Loops.forRange 0 s 0 fun x i => x + A i k

/-- `np.absolute(A[k, :]).max() == 0`. -/
def rowZero (s : Nat) (A : Nat → Nat → K) (k : Nat) : Bool := (List.range s).all fun j => decide (A k j = 0)

/-- `A[:, k].sum() != 0 or b[k] != 0`. -/
def used (s : Nat) (A : Nat → Nat → K) (b : Nat → K) (k : Nat) : Bool := decide (colSum s A k ≠ 0 ∨ b k ≠ 0)

/-- Forcing, 477-497; `forcing` are the given vectors. -/
def IMEX.forces (S : IMEX K V) (t dt : K) (forcing : Option (Nat → V)) : IMEX K V :=
  { S with force := Loops.forRange 0 S.T.s S.force fun f k =>
      if used S.T.s S.T.AImpl S.T.bImpl k then
        upd f k (S.P.residual (t + S.T.c k * dt) none none (f k) 0 0 0 (-1) 0 (forcing.map fun F => F k))
      else f }

/-- Right hand side of stage `k`, 505-523. -/
def IMEX.stageRhs (S : IMEX K V) (t dt : K) (ut : V) (k : Nat) : V :=
  let rhs := S.P.residual (t + dt) none (some ut) S.rhs 1 0 0 0 0 none
  let rhs := Loops.forRange 0 k rhs fun rhs j =>
    let rhs := if S.T.AExpl k j ≠ 0 then rhs - (dt * S.T.AExpl k j) • S.UExpl j else rhs
    if S.T.AImpl k j ≠ 0 then rhs - (dt * S.T.AImpl k j) • S.UImpl j else rhs
  Loops.forRange 0 (k + 1) rhs fun rhs j => if S.T.AImpl k j ≠ 0 then rhs + (dt * S.T.AImpl k j) • S.force j else rhs

/-- Value of stage `k`, 500-529. -/
def IMEX.stageSolve (S : IMEX K V) (t dt : K) (ut u : V) (k : Nat) : Option (IMEX K V) :=
  if rowZero S.T.s S.T.AExpl k then some { S with U := upd S.U k u }
  else do
    let rhs := S.stageRhs t dt ut k
    let (solver, S) := S.getImplicit (t + S.T.c k * dt) 1 (S.T.AImpl k k * dt)
    let Uk ← solver rhs (S.U k)
    some { S with U := upd S.U k Uk, rhs := rhs }

/-- Evaluation of the explicit and implicit parts, 532-549. -/
def IMEX.stageEval (S : IMEX K V) (t dt : K) (k : Nat) : IMEX K V :=
  let S := if used S.T.s S.T.AExpl S.T.bExpl k then
      { S with UExpl := upd S.UExpl k (S.P.residual (t + S.T.c k * dt) (some (S.U k)) none (S.UExpl k) 0 0 1 0 0 none) } else S
  if used S.T.s S.T.AImpl S.T.bImpl k then
      { S with UImpl := upd S.UImpl k (S.P.residual (t + S.T.c k * dt) (some (S.U k)) none (S.UImpl k) 0 1 0 0 0 none) } else S

/-- One stage, 499-549. -/
def IMEX.stage (S : IMEX K V) (t dt : K) (ut u : V) (k : Nat) : Option (IMEX K V) := do
  let S ← S.stageSolve t dt ut u k
  some (S.stageEval t dt k)

/-- Stages `k, k + 1, ...`. -/
def IMEX.stages (t dt : K) (ut u : V) : Nat → Nat → IMEX K V → Option (IMEX K V)
  | 0, _, S => some S
  | m + 1, k, S => do
    let S ← S.stage t dt ut u k
    IMEX.stages t dt ut u m (k + 1) S

/-- Right hand side of the final solve, 551-570. -/
def IMEX.finalRhs (S : IMEX K V) (t dt : K) (ut : V) : V :=
  let rhs := S.P.residual (t + dt) none (some ut) S.rhs 1 0 0 0 0 none
  let rhs := Loops.forRange 0 S.T.s rhs fun rhs k =>
    let rhs := if S.T.bExpl k ≠ 0 then rhs - (dt * S.T.bExpl k) • S.UExpl k else rhs
    if S.T.bImpl k ≠ 0 then rhs - (dt * S.T.bImpl k) • S.UImpl k else rhs
  Loops.forRange 0 S.T.s rhs fun rhs k => if S.T.bImpl k ≠ 0 then rhs + (dt * S.T.bImpl k) • S.force k else rhs

/-- `_stepOfPicard`, 467-576: new time and new value of `unew`.  `ut` is passed by value: with `step` (595-596) it is the same
object as `unew`, which is written in the last solve only. -/
def IMEX.picard (S : IMEX K V) (t : K) (dt : Option K) (ut unew : V) (forcing : Option (Nat → V)) : Option (K × V × IMEX K V) := do
  let dt ← pick dt S.dt
  let S := S.forces t dt forcing
  let S ← IMEX.stages t dt ut unew S.T.s 0 S
  let rhs := S.finalRhs t dt ut
  let (solver, S) := S.getMass t
  let u ← solver rhs unew
  some (t + dt, u, { S with rhs := rhs })

/-- `step`, 595-596. -/
def IMEX.step (S : IMEX K V) (t : K) (dt : Option K) (u : V) (forcing : Option (Nat → V)) : Option (K × V × IMEX K V) :=
  S.picard t dt u u forcing

/-- `EulerIMEX`, 605-611. -/
def eulerTableau : Tableau K where
  s := 2
  AExpl := fun i j => (([[0, 0], [1, 0]] : List (List K)).getD i []).getD j 0
  AImpl := fun i j => (([[0, 0], [0, 1]] : List (List K)).getD i []).getD j 0
  bExpl := fun i => ([1, 0] : List K).getD i 0
  bImpl := fun i => ([0, 1] : List K).getD i 0
  c := fun i => ([0, 1] : List K).getD i 0

/-- `ARS3`, 631-640. -/
def ars3Tableau (gamma : K) : Tableau K where
  s := 3
  AExpl := fun i j => (([[0, 0, 0], [gamma, 0, 0], [gamma - 1, 2 * (1 - gamma), 0]] : List (List K)).getD i []).getD j 0
  AImpl := fun i j => (([[0, 0, 0], [0, gamma, 0], [0, 1 - 2 * gamma, gamma]] : List (List K)).getD i []).getD j 0
  bExpl := fun i => ([0, 1/2, 1/2] : List K).getD i 0
  bImpl := fun i => ([0, 1/2, 1/2] : List K).getD i 0
  c := fun i => ([0, gamma, 1 - gamma] : List K).getD i 0

/-- `koto`, 660-670. -/
def kotoTableau : Tableau K where
  s := 4
  AImpl := fun i j => (([[0, 0, 0, 0], [0, 1, 0, 0], [0, -1/2, 1, 0], [0, -1, 1, 1]] : List (List K)).getD i []).getD j 0
  AExpl := fun i j => (([[0, 0, 0, 0], [1, 0, 0, 0], [1/2, 0, 0, 0], [0, 0, 1, 0]] : List (List K)).getD i []).getD j 0
  bExpl := fun i => ([0, 0, 1, 0] : List K).getD i 0
  bImpl := fun i => ([0, -1, 1, 1] : List K).getD i 0
  c := fun i => ([0, 1, 1/2, 1] : List K).getD i 0

end

end PyNucleus.TimeStepping
