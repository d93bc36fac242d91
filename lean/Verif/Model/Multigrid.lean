import Verif.Model.Smoothers

/-!
# Model of the multigrid solver

/repo/multilevelSolver/PyNucleus_multilevelSolver/multigrid_{SCALAR}.pxi: `solveOnLevel` (241-297),
`solve` (302-394), `iterationMatrix` (455-474), `multigridPreconditioner.matvec` (492-505), in the serial case.

Operators, smoothers and the coarse solver are functions of the vectors that they read and of the old
contents of the array that they write; `none` is a raised error.  A smoother works on the `temp` array of its
level (as arranged by `setup`, 184-188) and returns its new contents.
-/

namespace PyNucleus.Multigrid

open PyNucleus.Loops PyNucleus.Blas PyNucleus.Krylov PyNucleus.Smoothers

variable {K : Type}

/-- `levelMemory`, 31-70: arrays `rhs`, `sol`, `temp`. -/
structure Mem (K : Type) where
  rhs : List K
  sol : List K
  temp : List K

/-- Arrays of all levels. -/
abbrev Mems (K : Type) := Nat → Mem K

/-- Overwrite the arrays of level `l`. -/
def put (mem : Mems K) (l : Nat) (m : Mem K) : Mems K := fun k => if k = l then m else mem k

/-- The hierarchy; level 0 is the coarsest one, `R l` and `P l` lead from level `l` to `l - 1` and back. -/
structure Hier (K : Type) where
  n : Nat → Nat
  A : Nat → List K → List K → List K
  R : Nat → List K → List K → List K
  P : Nat → List K → List K → List K
  /-- level, `postsmoother`, `simpleResidual`, `b`, `y`, `temp` -/
  smooth : Nat → Bool → Bool → List K → List K → List K → Option (List K × List K)
  coarse : List K → List K → Option (List K)

/-- `CycleType`, multigrid.pxd 8-12. -/
inductive Cycle where
  | V | W | FMG_V | FMG_W
deriving DecidableEq

/-- The enum value, used as number of iterations in 276. -/
def Cycle.value : Cycle → Nat
  | .V => 1
  | .W => 2
  | .FMG_V => 666
  | .FMG_W => 667

/-- Coarse corrections, 274-279: `f` is `solveOnLevel(lvlNo-1, defect, ..)`. -/
def cycles (f : List K → Bool → Mems K → Option (List K × Mems K)) : Nat → List K → Bool → Mems K → Option (List K × Mems K)
  | 0, sol, _, mem => some (sol, mem)
  | i + 1, sol, simple, mem => do
    let (sol, mem) ← f sol simple mem
    cycles f i sol false mem

/-- `solveOnLevel`, 241-297: new `x` and new contents of the arrays. -/
def solveOnLevel [Field K] (H : Hier K) (cycle : Nat) : Nat → List K → List K → Bool → Mems K → Option (List K × Mems K)
  | 0, b, x, _, mem => do
    let x ← H.coarse b x
    some (x, mem)
  | l + 1, b, x, simple, mem => do
    let (x, temp) ← H.smooth (l + 1) false simple b x (mem (l + 1)).temp
    let res := residual (H.A (l + 1)) x b temp false
    let defect := H.R (l + 1) res (mem l).rhs
    let solcg := zeros (mem l).sol
    let mem := put mem l ⟨defect, solcg, (mem l).temp⟩
    let (solcg, mem) ← cycles (fun sol simple mem => solveOnLevel H cycle l defect sol simple mem) cycle solcg true mem
    let mem := put mem l ⟨(mem l).rhs, solcg, (mem l).temp⟩
    let correction := H.P (l + 1) solcg res
    let x := update x correction
    let (x, temp) ← H.smooth (l + 1) true false b x correction
    some (x, put mem (l + 1) ⟨(mem (l + 1)).rhs, (mem (l + 1)).sol, temp⟩)

/-- Settings of the solver; `L` is the number of the finest level. -/
structure MG (K : Type) where
  H : Hier K
  L : Nat
  cycle : Cycle
  maxIter : Nat
  tolerance : K
  relTol : Bool
  x0 : Option (List K)
  sqrt : K → Option K

section
variable [Field K] [LinearOrder K]

/-- `norm_serial.eval`. -/
def MG.norm (S : MG K) (v : List K) : Option K := S.sqrt (mydot v v)

/-- `a > b`, false for NaN. -/
def gt? : Option K → Option K → Bool
  | some a, some b => decide (b < a)
  | _, _ => false

/-- `iterative_solver.solve`, base/PyNucleus_base/solvers.pyx 284-304: initial guess and tolerance. -/
def MG.prepare (S : MG K) (b x r : List K) : List K × Option K :=
  let x := match S.x0 with
    | none => forRange 0 (S.H.n S.L) x fun x i => x.set i 0
    | some x0 => assign x x0
  let tol := if S.relTol then (S.norm (residual (S.H.A S.L) x b r S.x0.isNone)).map fun res => S.tolerance * res
    else some S.tolerance
  (x, tol)

/-- Restriction of the right hand side to all levels, 337-345, starting from level `l`. -/
def coarsenRhs (H : Hier K) : Nat → List K → Mems K → Mems K
  | 0, _, mem => mem
  | l + 1, bFine, mem =>
    let b := H.R (l + 1) bFine (mem l).rhs
    coarsenRhs H l b (put mem l ⟨b, (mem l).sol, (mem l).temp⟩)

/-- 348-356: solve on the levels `l, l+1, ...` below level `l + m` and interpolate. -/
def fmgUp (H : Hier K) (cycle : Nat) : Nat → Nat → Mems K → Option (Mems K)
  | 0, _, mem => some mem
  | m + 1, l, mem => do
    let (x, mem) ← solveOnLevel H cycle l (mem l).rhs (mem l).sol false mem
    let mem := put mem l ⟨(mem l).rhs, x, (mem l).temp⟩
    let fine := H.P (l + 1) x (mem (l + 1)).sol
    let mem := put mem (l + 1) ⟨(mem (l + 1)).rhs, fine, (mem (l + 1)).temp⟩
    fmgUp H cycle m (l + 1) mem

/-- Full multigrid start, 328-366. -/
def fmgStart (H : Hier K) (cycle L : Nat) (b x : List K) (mem : Mems K) : Option (List K × Mems K) :=
  match L with
  | 0 => none  -- a single level: `P` is None
  | l + 1 => do
    let mem := coarsenRhs H (l + 1) b mem
    let mem ← fmgUp H cycle l 0 mem
    let (xc, mem) ← solveOnLevel H cycle l (mem l).rhs (mem l).sol false mem
    let mem := put mem l ⟨(mem l).rhs, xc, (mem l).temp⟩
    let x := H.P (l + 1) xc x
    let (x, temp) ← H.smooth (l + 1) true false b x (mem (l + 1)).temp
    some (x, put mem (l + 1) ⟨(mem (l + 1)).rhs, (mem (l + 1)).sol, temp⟩)

/-- Loop, 378-386: `m` iterations are still allowed, `iterNo` are done; returned number, solution and residuals. -/
def MG.loop (S : MG K) (cycle : Nat) (b : List K) (tol : Option K) : Nat → Nat → List K → Bool → List (Option K) → Option K → Mems K →
    Option (Nat × List K × List (Option K) × Mems K)
  | 0, iterNo, x, _, residuals, _, mem => some (iterNo, x, residuals, mem)
  | m + 1, iterNo, x, simple, residuals, last, mem =>
    if gt? last tol then do
      let (x, mem) ← solveOnLevel S.H cycle S.L b x simple mem
      let res := residual (S.H.A S.L) x b (mem S.L).temp false
      let mem := put mem S.L ⟨(mem S.L).rhs, (mem S.L).sol, res⟩
      let n := S.norm res
      MG.loop S cycle b tol m (iterNo + 1) x false (residuals ++ [n]) n mem
    else some (iterNo, x, residuals, mem)

/-- `solve`, 302-394; `r` is the work array of the base class.  A single level has no `temp` array: error. -/
def MG.solve (S : MG K) (b x r : List K) (mem : Mems K) : Option (Nat × List K × List (Option K) × Mems K) :=
  if S.L = 0 then none
  else do
    let (x, tol) := S.prepare b x r
    let doFMG := decide (S.cycle = .FMG_V ∨ S.cycle = .FMG_W)
    let cycle := match S.cycle with | .FMG_V => Cycle.V | .FMG_W => Cycle.W | c => c
    let (x, mem) ← if doFMG then fmgStart S.H cycle.value S.L b x mem else some (x, mem)
    let simple := !doFMG && S.x0.isNone
    let iterNo := if doFMG then 1 else 0
    let res := residual (S.H.A S.L) x b (mem S.L).temp simple
    let n := S.norm res
    let mem := put mem S.L ⟨(mem S.L).rhs, (mem S.L).sol, res⟩
    MG.loop S cycle.value b tol (S.maxIter - iterNo) iterNo x simple [n] n mem

/-- `iterationMatrix`, 455-474: columns; `none` is an error of a solve.  The arrays keep their contents between
the solves. -/
def MG.iterationMatrix (S : MG K) (r : List K) : List Nat → Mems K → Option (List (List K))
  | [], _ => some []
  | i :: is, mem => do
    let n := S.H.n S.L
    let e := (List.replicate n (0 : K)).set i 1
    let (_, x, _, mem) ← MG.solve { S with x0 := some e, maxIter := 1 } (List.replicate n 0) (List.replicate n 0) r mem
    let rest ← MG.iterationMatrix S r is mem
    some (x :: rest)

end

/-- Loop of `multigridPreconditioner.matvec`, 502-504. -/
def precLoop [Field K] (H : Hier K) (cycle L : Nat) (x : List K) : Nat → List K → Bool → Mems K → Option (List K × Mems K)
  | 0, y, _, mem => some (y, mem)
  | m + 1, y, simple, mem => do
    let (y, mem) ← solveOnLevel H cycle L x y simple mem
    precLoop H cycle L x m y false mem

/-- `multigridPreconditioner.matvec`, 492-505, with the cycle type of the preconditioner. -/
def precMatvec [Field K] (H : Hier K) (cycle : Cycle) (L maxIter : Nat) (x y : List K) (mem : Mems K) : Option (List K × Mems K) :=
  precLoop H cycle.value L x maxIter (zeros y) true mem

end PyNucleus.Multigrid
