import Verif.Model.Krylov
import Mathlib.Algebra.Order.Group.Unbundled.Abs

/-!
# Model of the GMRES solver

/repo/base/PyNucleus_base/solvers.pyx, `gmres_solver.solve` (504-661), in the serial case and without
convergence master or client.

The two-dimensional arrays `Q`, `Z` are functions from the column number, `H` and the arrays `c`, `s`,
`gamma`, `y` are functions of the indices; they are read and written for indices below `maxIter + 1` only.
`none` is a division by zero or the square root of a negative number (NaN), or the failing assertion in line 658.
-/

namespace PyNucleus.Krylov

open PyNucleus.Loops PyNucleus.Blas

/-- Settings. -/
structure Gmres (K : Type) extends Solver K where
  left : Bool
  flexible : Bool
  restarts : Nat
  eps : K
  blas : Bool

/-- Variables and work arrays. -/
structure GM (K : Type) where
  x : List K
  r : List K
  Ar : List K
  Q : Nat → List K
  Z : Nat → List K
  H : Nat → Nat → K
  c : Nat → K
  s : Nat → K
  gamma : Nat → K
  y : Nat → K
  residuals : List K

/-- How the inner loop ends: `maxiter` iterations done, Arnoldi breakdown (608), residual below the tolerance (637). -/
inductive Exit
  | exhausted
  | breakdown
  | tolerance
  deriving DecidableEq

/-- Write to an array. -/
def upd {α : Type} (f : Nat → α) (i : Nat) (v : α) : Nat → α := fun j => if j = i then v else f j

/-- Write to a two-dimensional array. -/
def upd2 {α : Type} (f : Nat → Nat → α) (i j : Nat) (v : α) : Nat → Nat → α := fun a b => if a = i ∧ b = j then v else f a b

variable {K : Type} [Field K] [LinearOrder K]

/-- `gemvF(Q[:, :m], y[:m], r)`: the variant without BLAS (opt_false_blas.pxi 113-129) adds to `r`, BLAS
(opt_true_blas.pxi 184-208) overwrites. -/
def gemvCols (blas : Bool) (Q : Nat → List K) (y : Nat → K) (m : Nat) (r : List K) : List K :=
  let r := if blas then forRange 0 r.length r fun r i => r.set i 0 else r
  forRange 0 m r fun r j => forRange 0 r.length r fun r i => r.set i (r.getD i 0 + (Q j).getD i 0 * y j)

/-- 545-552: residual for the start of a cycle. -/
def Gmres.start (S : Gmres K) (b : List K) (g : GM K) : GM K :=
  let Ar := S.A g.x g.Ar
  match S.prec, S.left with
  | some P, true =>
    let Ar := assign3Self Ar (-1) b 1
    { g with Ar := Ar, r := P Ar g.r }
  | _, _ => { g with Ar := Ar, r := assign3 g.r b 1 Ar (-1) }

/-- 567-587: `r` becomes the (preconditioned) operator applied to column `i`. -/
def Gmres.expand (S : Gmres K) (i : Nat) (g : GM K) : GM K :=
  let r := assign g.r (g.Q i)
  match S.flexible, S.prec, S.left with
  | false, some P, true =>
    let Ar := S.A r g.Ar
    { g with Ar := Ar, r := P Ar r }
  | false, some P, false =>
    let Ar := P r g.Ar
    { g with Ar := Ar, r := S.A Ar r }
  | false, none, _ =>
    let Ar := S.A r g.Ar
    { g with Ar := Ar, r := assign r Ar }
  | true, some P, true =>
    let Zi := S.A r (g.Z i)
    { g with Z := upd g.Z i Zi, r := P Zi r }
  | true, some P, false =>
    let Zi := P r (g.Z i)
    { g with Z := upd g.Z i Zi, r := S.A Zi r }
  | true, none, _ =>
    let Zi := S.A r (g.Z i)
    { g with Z := upd g.Z i Zi, r := assign r Zi }

/-- 588-592, 594-598: modified Gram-Schmidt. -/
def orthogonalise (i : Nat) (g : GM K) : GM K :=
  forRange 0 (i + 1) g fun g j =>
    let h := mydot (g.Q j) g.r
    { g with H := upd2 g.H j i h, r := updateScaled g.r (g.Q j) (-h) }

/-- 612-616: previous Givens rotations. -/
def rotate (i : Nat) (g : GM K) : GM K :=
  forRange 0 i g fun g j =>
    let rho := g.H j i
    let sigma := g.H (j + 1) i
    { g with H := upd2 (upd2 g.H j i (g.c j * rho + g.s j * sigma)) (j + 1) i (-g.s j * rho + g.c j * sigma) }

/-- 619-630: new Givens rotation. -/
def Gmres.givens (S : Gmres K) (i : Nat) (g : GM K) : Option (GM K) := do
  let beta ← S.sqrt (g.H i i * g.H i i + g.H (i + 1) i * g.H (i + 1) i)
  let ci ← div? (g.H i i) beta
  let si ← div? (g.H (i + 1) i) beta
  let gamma := upd g.gamma (i + 1) (-si * g.gamma i)
  let gamma := upd gamma i (ci * gamma i)
  some { g with c := upd g.c i ci, s := upd g.s i si, H := upd2 g.H i i beta, gamma := gamma,
                residuals := g.residuals ++ [|gamma (i + 1)|] }

/-- One iteration, 565-638, up to the test of line 600 (first component) and to its end (second). -/
def Gmres.arnoldi (S : Gmres K) (i : Nat) (g : GM K) : Option (GM K) := do
  let g := orthogonalise i (S.expand i g)
  let h ← S.norm g.r
  some { g with H := upd2 g.H (i + 1) i h }

/-- 605-638 without breakdown. -/
def Gmres.extend (S : Gmres K) (i : Nat) (g : GM K) : Option (GM K) := do
  let a ← div? 1 (g.H (i + 1) i)
  S.givens i (rotate i { g with Q := upd g.Q (i + 1) (assignScaled (g.Q (i + 1)) g.r a) })

/-- The inner loop, 564-638, with `m + 1` iterations left: value of `i`, state and kind of exit. -/
def Gmres.inner (S : Gmres K) (tol : K) : Nat → Nat → GM K → Option (Nat × GM K × Exit)
  | m, i, g => do
    let g ← S.arnoldi i g
    if |g.H (i + 1) i| ≤ S.eps then some (i, g, .breakdown)
    else
      let g ← S.extend i g
      if |g.gamma (i + 1)| < tol then some (i, g, .tolerance)
      else
        match m with
        | 0 => some (i, g, .exhausted)
        | m + 1 => S.inner tol m (i + 1) g

/-- One row of the back-solve, 643-646. -/
def backRow (i : Nat) (g : GM K) (j : Nat) : Option (GM K) := do
  let temp := forRange (j + 1) (i + 1) (g.gamma j) fun t l => t - g.H j l * g.y l
  let v ← div? temp (g.H j j)
  some { g with y := upd g.y j v }

/-- The back-solve, 642-646, for rows `j - 1, …, 0`. -/
def backSolve (i : Nat) : Nat → GM K → Option (GM K)
  | 0, g => some g
  | j + 1, g => do
    let g ← backRow i g j
    backSolve i j g

/-- 649-659: update of the solution. -/
def Gmres.correct (S : Gmres K) (i : Nat) (g : GM K) : Option (GM K) :=
  match S.flexible, S.prec, S.left with
  | false, some P, false =>
    let r := gemvCols S.blas g.Q g.y (i + 1) g.r
    let Ar := P r g.Ar
    some { g with r := r, Ar := Ar, x := update g.x Ar }
  | false, _, _ =>
    let r := gemvCols S.blas g.Q g.y (i + 1) g.r
    some { g with r := r, x := update g.x r }
  | true, some _, true => none
  | true, _, _ =>
    let r := gemvCols S.blas g.Z g.y (i + 1) g.r
    some { g with r := r, x := update g.x r }

/-- 563-659: one cycle after the test of the initial residual. -/
def Gmres.cycle (S : Gmres K) (tol : K) (g : GM K) : Option (Nat × GM K × Exit) := do
  let a ← div? 1 (g.gamma 0)
  let q ← S.inner tol (S.maxIter - 1) 0 { g with Q := upd g.Q 0 (assignScaled (g.Q 0) g.r a) }
  let g ← backSolve q.1 (q.1 + 1) q.2.1
  let g ← S.correct q.1 g
  some (q.1, g, q.2.2)

/-- 545-554: initial residual of a cycle. -/
def Gmres.begin (S : Gmres K) (b : List K) (g : GM K) : Option (GM K) := do
  let g := S.start b g
  let g0 ← S.norm g.r
  some { g with gamma := upd g.gamma 0 g0, residuals := if g.residuals = [] then [|g0|] else g.residuals }

/-- The outer loop, 541-661: `allIter`, final state, and how the last cycle ended (`breakout` is true unless that is
`exhausted`; a cycle that converges in line 560 counts as `tolerance`). -/
def Gmres.outer (S : Gmres K) (tol : K) (b : List K) : Nat → Nat → Exit → GM K → Option (Nat × GM K × Exit)
  | 0, all, e, g => some (all, g, e)
  | k + 1, all, e, g =>
    if e ≠ .exhausted then some (all, g, e)
    else do
      let g ← S.begin b g
      if |g.gamma 0| < tol then some (all, g, .tolerance)
      else
        let q ← S.cycle tol g
        S.outer tol b k (all + q.1) q.2.2 q.2.1

/-- `gmres_solver.solve`; `g` are the contents of the work arrays. -/
def Gmres.gmres (S : Gmres K) (b x : List K) (g : GM K) : Option (Nat × GM K × Exit) := do
  let q := S.prepare b x g.r
  let tol ← q.2.2
  S.outer tol b S.restarts 0 .exhausted { g with x := q.1, r := q.2.1, residuals := [] }

end PyNucleus.Krylov
