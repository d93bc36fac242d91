import Verif.Model.Blas
import Mathlib.Order.Defs.LinearOrder

/-!
# Model of the conjugate gradient and BiCGStab solvers

/repo/base/PyNucleus_base/solvers.pyx: `iterative_solver.solve` (284-304), `krylov_solver.solve` (323-326),
`cg_solver.solve` (364-445), `bicgstab_solver.solve` (715-787), in the serial case (`ip_serial`, `norm_serial`).

The operator and the preconditioner are arbitrary functions of the input vector and the old output.
`sqrt` is a parameter; `none` is NaN, which compares as false.  A division by zero gives `none` (the code
is compiled with `cdivision`, so infinities and NaN enter all vectors from there on): *breakdown*.
The case that `x` is the array of the initial guess is covered: its contents are then those of `x0`.
-/

namespace PyNucleus.Krylov

open PyNucleus.Loops PyNucleus.Blas

variable {K : Type}

/-- Division. -/
def div? [Field K] [DecidableEq K] (a b : K) : Option K := if b = 0 then none else some (a / b)

/-- `a <= b`, false for NaN. -/
def le? [LinearOrder K] : Option K → Option K → Bool
  | some a, some b => decide (a ≤ b)
  | _, _ => false

/-- `a < b`, false for NaN. -/
def lt? [LinearOrder K] : Option K → Option K → Bool
  | some a, some b => decide (a < b)
  | _, _ => false

/-- Settings of a solver. -/
structure Solver (K : Type) where
  n : Nat
  A : List K → List K → List K
  prec : Option (List K → List K → List K)
  use2norm : Bool
  relTol : Bool
  tolerance : K
  maxIter : Nat
  x0 : Option (List K)
  sqrt : K → Option K

section
variable [Field K] [LinearOrder K]

/-- `norm_serial.eval`. -/
def Solver.norm (S : Solver K) (v : List K) : Option K := S.sqrt (mydot v v)

/-- `LinearOperator._residual`, LinearOperator_{SCALAR}.pxi 183-194. -/
def Solver.residual (S : Solver K) (x b r : List K) (simple : Bool) : List K :=
  if simple then assign r b else assign3Self (S.A x r) (-1) b 1

/-- `iterative_solver.solve` and `krylov_solver.solve`, 284-326: initial guess, initial residual, tolerance. -/
def Solver.prepare (S : Solver K) (b x r : List K) : List K × List K × Option K :=
  let x := match S.x0 with
    | none => forRange 0 S.n x fun x i => x.set i 0
    | some x0 => assign x x0
  let r := S.residual x b r S.x0.isNone
  let tol := if S.relTol then (S.norm r).map fun res => S.tolerance * res else some S.tolerance
  (x, r, tol)

/-! ### Conjugate gradients -/

/-- Variables of the iteration. -/
structure CG (K : Type) where
  x : List K
  r : List K
  p : List K
  Ap : List K
  Br : List K
  betaOld : K
  k : Nat
  residuals : List (Option K)

/-- 391-405: first direction and residual norm. -/
def Solver.cgStart (S : Solver K) (x r p Ap Br : List K) : CG K × Option K :=
  match S.prec with
  | none =>
    let p := assign p r
    let beta := mydot r p
    let c := S.sqrt beta
    (⟨x, r, p, Ap, Br, beta, 0, [c]⟩, c)
  | some M =>
    let p := M r p
    let beta := mydot r p
    let c := if S.use2norm then S.norm r else S.sqrt beta
    (⟨x, r, p, Ap, Br, beta, 0, [c]⟩, c)

/-- Solution and residual update, 410-417. -/
def Solver.cgAdvance (S : Solver K) (b : List K) (s : CG K) : Option (CG K) := do
  let Ap := S.A s.p s.Ap
  let alpha ← div? s.betaOld (mydot s.p Ap)
  let x := updateScaled s.x s.p alpha
  let r := updateScaled s.r Ap (-alpha)
  let r := if s.k = 50 then S.residual x b r false else r
  some { s with x := x, r := r, Ap := Ap, k := if s.k = 50 then 0 else s.k }

/-- Stopping criterion, 418-437: new state, convergence value, new `beta`. -/
def Solver.cgMeasure (S : Solver K) (s : CG K) : CG K × Option K × Option K :=
  match S.prec with
  | none =>
    let c := S.norm s.r
    ({ s with residuals := s.residuals ++ [c] }, c, c.map fun c => c * c)
  | some M =>
    let Br := M s.r s.Br
    let beta := mydot s.r Br
    let c := if S.use2norm then S.norm s.r else S.sqrt beta
    ({ s with Br := Br, residuals := s.residuals ++ [c] }, c, some beta)

/-- New direction, 426-427, 438-441. -/
def Solver.cgDirect (S : Solver K) (s : CG K) (beta : K) : Option (CG K) := do
  let t ← div? beta s.betaOld
  let p := assign3Self s.p t (match S.prec with | none => s.r | some _ => s.Br) 1
  some { s with p := p, betaOld := beta, k := s.k + 1 }

/-- The loop, 408-443, with `m` iterations left of which the next is number `i`: returned number and state. -/
def Solver.cgLoop (S : Solver K) (b : List K) (tol : Option K) : Nat → Nat → CG K → Option (Nat × CG K)
  | 0, i, s => some (i, s)
  | m + 1, i, s => do
    let s ← S.cgAdvance b s
    let q := S.cgMeasure s
    if le? q.2.1 tol then some (i, q.1)
    else
      match q.2.2.bind (S.cgDirect q.1) with
      | some s => S.cgLoop b tol m (i + 1) s
      | none => if m = 0 then some (i + 1, q.1) else none  -- a direction that is not used any more

/-- `cg_solver.solve`: returned number and final variables.  `mem` are the contents of the work arrays
`r`, `p`, `Ap`, `Br`. -/
def Solver.cg (S : Solver K) (b x : List K) (mem : List K × List K × List K × List K) : Option (Nat × CG K) :=
  let q := S.prepare b x mem.1
  let st := S.cgStart q.1 q.2.1 mem.2.1 mem.2.2.1 mem.2.2.2
  if le? st.2 q.2.2 then some (0, st.1)
  else S.cgLoop b q.2.2 S.maxIter 0 st.1

/-! ### BiCGStab -/

/-- Variables of the iteration. -/
structure Bi (K : Type) where
  x : List K
  r : List K
  r0 : List K
  p : List K
  p2 : List K
  s : List K
  s2 : List K
  temp : List K
  temp2 : List K
  kappa : K
  residuals : List (Option K)

/-- 741-760.  Without preconditioner `p2` and `s2` are the arrays `p` and `s`. -/
def Solver.biStart (S : Solver K) (x r r0 p p2 s s2 temp temp2 : List K) : Bi K :=
  let q : List K × List K := match S.prec with
    | some M => (assign p r, M r r0)
    | none => forRange 0 S.n (p, r0) fun q i => (q.1.set i (r.getD i 0), q.2.set i (r.getD i 0))
  let kappa := mydot r q.2
  ⟨x, r, q.2, q.1, p2, s, s2, temp, temp2, kappa, [S.sqrt kappa]⟩

/-- `precond.matvec(v, out)`, or `v` itself without preconditioner (then `out` is the same array as `v`). -/
def Solver.applyPrec (S : Solver K) (v out : List K) : List K :=
  match S.prec with
  | some M => M v out
  | none => v

/-- First half of an iteration, 763-776: `(state, alpha, omega)`. -/
def Solver.biAdvance (S : Solver K) (t : Bi K) : Option (Bi K × K × K) := do
  let p2 := S.applyPrec t.p t.p2
  let temp := S.A p2 t.temp
  let tt := mydot temp t.r0
  let alpha ← div? t.kappa tt
  let s := assign3 t.s t.r 1 temp (-alpha)
  let s2 := S.applyPrec s t.s2
  let temp2 := S.A s2 t.temp2
  let nt ← S.norm temp2
  let omega ← div? (mydot temp2 s) (nt * nt)
  let x := forRange 0 S.n t.x fun x i => x.set i (x.getD i 0 + (alpha * p2.getD i 0 + omega * s2.getD i 0))
  let r := assign3 t.r s 1 temp2 (-omega)
  some ({ t with x := x, r := r, p2 := p2, s := s, s2 := s2, temp := temp, temp2 := temp2,
                 residuals := t.residuals ++ [S.norm r] }, alpha, omega)

/-- Second half, 780-785. -/
def Solver.biDirect (S : Solver K) (t : Bi K) (alpha omega : K) : Option (Bi K) := do
  let kappaNew := mydot t.r t.r0
  let q ← div? kappaNew t.kappa
  let beta ← div? (q * alpha) omega
  let p := forRange 0 S.n t.p fun p i => p.set i (t.r.getD i 0 + beta * (p.getD i 0 - omega * t.temp.getD i 0))
  some { t with kappa := kappaNew, p := p }

/-- The loop, 762-787. -/
def Solver.biLoop (S : Solver K) (tol : Option K) : Nat → Nat → Bi K → Option (Nat × Bi K)
  | 0, i, t => some (i, t)
  | m + 1, i, t => do
    let q ← S.biAdvance t
    if lt? (S.norm q.1.r) tol then some (i, q.1)
    else
      match S.biDirect q.1 q.2.1 q.2.2 with
      | some t => S.biLoop tol m (i + 1) t
      | none => if m = 0 then some (i + 1, q.1) else none  -- a direction that is not used any more

/-- Work arrays of BiCGStab. -/
structure BiMem (K : Type) where
  r : List K
  r0 : List K
  p : List K
  p2 : List K
  s : List K
  s2 : List K
  temp : List K
  temp2 : List K

/-- `bicgstab_solver.solve` with `use2norm` (otherwise it raises an error). -/
def Solver.bicgstab (S : Solver K) (b x : List K) (m : BiMem K) : Option (Nat × Bi K) :=
  let q := S.prepare b x m.r
  S.biLoop q.2.2 S.maxIter 0 (S.biStart q.1 q.2.1 m.r0 m.p m.p2 m.s m.s2 m.temp m.temp2)

end

end PyNucleus.Krylov
