import Mathlib.Algebra.Order.Field.Basic
import Mathlib.Algebra.Order.Group.Unbundled.Abs

/-!
# Model of barycentric coordinates

/repo/fem/PyNucleus_fem/meshCy.pyx 2385-2510 and `vertexInCell`, 696-744.  The routines with suffix `Ptr` have the same text.  `sqrt` and the LAPACK routines are
parameters.
-/

namespace PyNucleus.BarycentricCoords

variable {K : Type} [Field K] [LinearOrder K] [IsStrictOrderedRing K]

/-- `getBarycentricCoords1D`, 2385-2390. -/
def bary1D (s : Nat → Nat → K) (x : Nat → K) : List K :=
  let vol := s 0 0 - s 1 0
  let b := (x 0 - s 1 0) / vol
  [b, 1 - b]

/-- `getBarycentricCoords1Din2D`, 2393-2401. -/
def bary1Din2D (sqrt : K → K) (s : Nat → Nat → K) (x : Nat → K) : List K :=
  let vol := sqrt ((s 0 0 - s 1 0) ^ 2 + (s 0 1 - s 1 1) ^ 2)
  let b := if |s 1 0 - s 0 0| > 1 / 10 ^ 10 then (x 0 - s 1 0) / vol else (x 1 - s 1 1) / vol
  [b, 1 - b]

/-- `getBarycentricCoords1Din3D`, 2404-2414. -/
def bary1Din3D (sqrt : K → K) (s : Nat → Nat → K) (x : Nat → K) : List K :=
  let vol := sqrt ((s 0 0 - s 1 0) ^ 2 + (s 0 1 - s 1 1) ^ 2 + (s 0 2 - s 1 2) ^ 2)
  let b := if |s 1 0 - s 0 0| > 1 / 10 ^ 10 then (x 0 - s 1 0) / vol else if |s 1 1 - s 0 1| > 1 / 10 ^ 10 then (x 1 - s 1 1) / vol else (x 2 - s 1 2) / vol
  [b, 1 - b]

/-- `getBarycentricCoords2D`, 2417-2426. -/
def bary2D (s : Nat → Nat → K) (x : Nat → K) : List K :=
  let vol := (s 0 0 - s 1 0) * (s 2 1 - s 1 1) - (s 0 1 - s 1 1) * (s 2 0 - s 1 0)
  let b0 := ((x 0 - s 1 0) * (s 2 1 - s 1 1) - (x 1 - s 1 1) * (s 2 0 - s 1 0)) / vol
  let b1 := ((x 0 - s 2 0) * (s 0 1 - s 2 1) - (x 1 - s 2 1) * (s 0 0 - s 2 0)) / vol
  [b0, b1, 1 - b0 - b1]

/-- `getBarycentricCoords2Din3D`, 2429-2446.  `solve A b` is the solution found by `dgetrf` and `dgetrs`; LAPACK reads `a` by columns, so the entry of row `k` and
column `j` is `simplex[j, k]`. -/
def bary2Din3D (solve : (Nat → Nat → K) → (Nat → K) → Nat → K) (s : Nat → Nat → K) (x : Nat → K) : List K :=
  let b := solve (fun k j => s j k) x
  [b 0, b 1, b 2]

/-- `vertexInCell`, 696-719; `none` is `NotImplementedError`. -/
def vertexInCell (sqrt : K → K) (solve : (Nat → Nat → K) → (Nat → K) → Nat → K) (manifoldDim dim : Nat) (s : Nat → Nat → K) (x : Nat → K) (tol : K) : Option Bool :=
  match manifoldDim, dim with
  | 1, 1 => some ((bary1D s x).all fun b => ¬ b < -tol)
  | 1, 2 => some ((bary1Din2D sqrt s x).all fun b => ¬ b < -tol)
  | 1, 3 => some ((bary1Din3D sqrt s x).all fun b => ¬ b < -tol)
  | 2, 2 => some ((bary2D s x).all fun b => ¬ b < -tol)
  | 2, 3 => some ((bary2Din3D solve s x).all fun b => ¬ b < -tol)
  | _, _ => none

end PyNucleus.BarycentricCoords
