import Verif.Model.Loops
import Mathlib.Algebra.Field.Defs

/-!
# Model of the vector and dense kernels

/repo/base/PyNucleus_base/opt_false_blas.pxi (the variant without BLAS).  Complex branches perform
the same assignments, except `mydot` and `norm`, which conjugate.
-/

namespace PyNucleus.Blas

open PyNucleus.Loops

variable {K : Type}

/-- `assign(y, x)`, 8-12. -/
def assign [Zero K] (y x : List K) : List K :=
  forRange 0 x.length y fun y i => y.set i (x.getD i 0)

/-- `assignScaled(y, x, alpha)`, 14-18. -/
def assignScaled [Semiring K] (y x : List K) (alpha : K) : List K :=
  forRange 0 x.length y fun y i => y.set i (alpha * x.getD i 0)

/-- `assign3(z, x, alpha, y, beta)`, 21-25, for `z` different from `x` and `y`. -/
def assign3 [Semiring K] (z x : List K) (alpha : K) (y : List K) (beta : K) : List K :=
  forRange 0 x.length z fun z i => z.set i (alpha * x.getD i 0 + beta * y.getD i 0)

/-- `assign3(z, z, alpha, y, beta)`: the same loop on one array. -/
def assign3Self [Semiring K] (z : List K) (alpha : K) (y : List K) (beta : K) : List K :=
  forRange 0 z.length z fun z i => z.set i (alpha * z.getD i 0 + beta * y.getD i 0)

/-- `update(x, y)`, 27-35. -/
def update [Semiring K] (x y : List K) : List K :=
  forRange 0 x.length x fun x i => x.set i (x.getD i 0 + y.getD i 0)

/-- `updateScaled(x, y, alpha)`, 37-45. -/
def updateScaled [Semiring K] (x y : List K) (alpha : K) : List K :=
  forRange 0 x.length x fun x i => x.set i (x.getD i 0 + alpha * y.getD i 0)

/-- `scaleScalar(x, alpha)`, 47-55. -/
def scaleScalar [Semiring K] (x : List K) (alpha : K) : List K :=
  forRange 0 x.length x fun x i => x.set i (x.getD i 0 * alpha)

/-- `mydot`, 57-67, real branch. -/
def mydot [Semiring K] (v0 v1 : List K) : K :=
  forRange 0 v0.length 0 fun s i => s + v0.getD i 0 * v1.getD i 0

/-- A row major array. -/
structure Dense (K : Type) where
  data : List (List K)
  numRows : Nat
  numCols : Nat

/-- `A[i, j]`. -/
def Dense.entry [Zero K] (A : Dense K) (i j : Nat) : K := (A.data.getD i []).getD j 0

/-- `gemv(A, x, y, beta)`, 82-110. -/
def gemv [Semiring K] [DecidableEq K] (A : Dense K) (x y : List K) (beta : K) : List K :=
  forRange 0 A.numRows y fun y i =>
    let s := forRange 0 A.numCols 0 fun s j => s + A.entry i j * x.getD j 0
    if beta ≠ 0 then y.set i (beta * y.getD i 0 + s) else y.set i s

/-- `gemvT(A, x, y, beta)`, 132-153.  The scaling loop runs over `A.shape[0]`, which is the length
of `x` and not of `y`; `none` is the access past the end of `y`. -/
def gemvT [Semiring K] [DecidableEq K] (A : Dense K) (x y : List K) (beta : K) : Option (List K) :=
  if beta ≠ 0 ∧ y.length < A.numRows then none
  else
    let y := if beta ≠ 0 then forRange 0 A.numRows y fun y i => y.set i (y.getD i 0 * beta)
      else forRange 0 y.length y fun y i => y.set i 0
    some (forRange 0 A.numCols y fun y i =>
      forRange 0 A.numRows y fun y j => y.set i (y.getD i 0 + A.entry j i * x.getD j 0))

/-- `gemvF(A, x, y, beta)`, 113-129: with `beta = 0` the old `y` is kept. -/
def gemvF [Semiring K] [DecidableEq K] (A : Dense K) (x y : List K) (beta : K) : List K :=
  let y := if beta ≠ 0 then forRange 0 A.numRows y fun y i => y.set i (y.getD i 0 * beta) else y
  forRange 0 A.numCols y fun y j =>
    forRange 0 A.numRows y fun y i => y.set i (y.getD i 0 + A.entry i j * x.getD j 0)

end PyNucleus.Blas
