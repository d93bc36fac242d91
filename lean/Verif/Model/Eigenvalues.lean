import Mathlib.LinearAlgebra.Matrix.DotProduct
import Mathlib.Analysis.Real.Sqrt

/-!
# Estimates of eigenvalues

Models `estimateSpectralRadius`, `arnoldi`, `lanczos`, `lanczos2`
(base/PyNucleus_base/linalg.pyx:811-829, 832-913, 916-948, 951-984).

Simplifications: reals instead of floating point numbers; operators are matrices, inner products and
norms are the serial ones; `none` is an error or NaN; random start vectors are parameters.
-/

namespace PyNucleus.Eigenvalues

open Matrix

variable {n : Nat}

abbrev Vec (n : Nat) := Fin n → ℝ
abbrev Mat (n : Nat) := Matrix (Fin n) (Fin n) ℝ

/-- `norm`. -/
noncomputable def norm (x : Vec n) : ℝ := Real.sqrt (x ⬝ᵥ x)

/-! ### Power method -/

/-- The loop of `estimateSpectralRadius` (823-828); the counter is the number of passes left before
`k > kMax`. After a division by zero the next norm is NaN, if there is a next pass, and ends the
loop. -/
noncomputable def powerLoop (A : Mat n) (eps : ℝ) : Nat → Vec n → ℝ → ℝ → Option ℝ
  | 0, _, _, l => some l
  | left + 1, x, lold, l =>
    if |l - lold| > eps then
      let y := A *ᵥ x
      if norm y = 0 then
        if left ≠ 0 ∧ |0 - l| > eps then none else some 0
      else powerLoop A eps left ((norm y)⁻¹ • y) l (norm y)
    else some l

/-- `estimateSpectralRadius` (811-829) with the start vector `x`. -/
noncomputable def spectralRadius (A : Mat n) (eps : ℝ) (kMax : Nat) (x : Vec n) : Option ℝ :=
  powerLoop A eps (kMax + 1) x 0 1

/-! ### Lanczos -/

/-- `H[a, b] = v`. -/
def put (H : Nat → Nat → ℝ) (a b : Nat) (v : ℝ) : Nat → Nat → ℝ :=
  fun i j => if i = a ∧ j = b then v else H i j

/-- The loop of `lanczos` (929-948): the entries and the number of columns of the result; `m` is the
current column. -/
noncomputable def lanczosLoop (A : Mat n) : Nat → Nat → Vec n → Vec n → (Nat → Nat → ℝ) →
    (Nat → Nat → ℝ) × Nat
  | 0, m, _, _, H => (H, m)
  | left + 1, m, x, w, H =>
    let b := norm w
    let H := put H 0 m b
    if |b| < 1e-10 then (H, m)
    else
      let xold := x
      let x := b⁻¹ • w
      let w := A *ᵥ x - b • xold
      let a := w ⬝ᵥ x
      lanczosLoop A left (m + 1) x (w - a • x) (put H 1 m a)

/-- Lines 924-926 and the loop, with the normalised start vector. Without columns, `H[1, 0]` is an
error. -/
noncomputable def lanczosFrom (A : Mat n) (x : Vec n) (numIter : Nat) (H : Nat → Nat → ℝ) :
    Option ((Nat → Nat → ℝ) × Nat) :=
  if numIter = 0 then none
  else
    let w := A *ᵥ x
    let a := w ⬝ᵥ x
    some (lanczosLoop A (numIter - 1) 1 x (w - a • x) (put H 1 0 a))

/-- `lanczos` (916-948); `H` is the uninitialised array. -/
noncomputable def lanczos (A : Mat n) (x : Option (Vec n)) (numIter : Nat) (H : Nat → Nat → ℝ) :
    Option ((Nat → Nat → ℝ) × Nat) :=
  match x with
  | none => lanczosFrom A ((Real.sqrt n)⁻¹ • (fun _ => 1 : Vec n)) numIter H
  | some x => if norm x = 0 then none else lanczosFrom A ((norm x)⁻¹ • x) numIter H

/-- The loop of `lanczos2` (963-984); `Minv` is the given solver. -/
noncomputable def lanczos2Loop (A M Minv : Mat n) : Nat → Nat → Vec n → Vec n →
    (Nat → Nat → ℝ) → (Nat → Nat → ℝ) × Nat
  | 0, m, _, _, H => (H, m)
  | left + 1, m, x, w, H =>
    let z := Minv *ᵥ w
    let b := Real.sqrt (w ⬝ᵥ z)
    let H := put H 0 m b
    if |b| < 1e-10 then (H, m)
    else
      let xold := x
      let x := b⁻¹ • z
      let w := A *ᵥ x - b • (M *ᵥ xold)
      let a := w ⬝ᵥ x
      lanczos2Loop A M Minv left (m + 1) x (w - a • (M *ᵥ x)) (put H 1 m a)

/-- `lanczos2` (951-984); the result and the array that was given for `x`, which `x /= …` has
overwritten. -/
noncomputable def lanczos2 (A M Minv : Mat n) (x : Option (Vec n)) (numIter : Nat)
    (H : Nat → Nat → ℝ) : Option (((Nat → Nat → ℝ) × Nat) × Vec n) :=
  let x : Vec n := x.getD fun _ => 1
  let s := Real.sqrt (x ⬝ᵥ (M *ᵥ x))
  if s = 0 then none
  else if numIter = 0 then none
  else
    let x := s⁻¹ • x
    let w := A *ᵥ x
    let a := w ⬝ᵥ x
    some (lanczos2Loop A M Minv (numIter - 1) 1 x (w - a • (M *ᵥ x)) (put H 1 0 a), x)

/-! ### Arnoldi -/

/-- Lines 892-902: both preconditioners and the operator. -/
def applyAll (A : Mat n) (L R : Option (Mat n)) (r : Vec n) : Vec n :=
  let r := match R with | none => r | some R => R *ᵥ r
  let Ar := A *ᵥ r
  match L with | none => Ar | some L => L *ᵥ Ar

/-- Lines 903-906, passes `0, …, j-1`. -/
def orthogonalise (Q : Nat → Vec n) (i : Nat) : Nat → Vec n → (Nat → Nat → ℝ) →
    Vec n × (Nat → Nat → ℝ)
  | 0, r, H => (r, H)
  | j + 1, r, H =>
    let s := orthogonalise Q i j r H
    let h := Q j ⬝ᵥ s.1
    (s.1 - h • Q j, put s.2 j i h)

/-- The loop of `arnoldi` (889-913): the entries of the result and its numbers of rows and columns. -/
noncomputable def arnoldiLoop (op : Vec n → Vec n) (tol : ℝ) : Nat → Nat → (Nat → Vec n) →
    (Nat → Nat → ℝ) → (Nat → Nat → ℝ) × Nat × Nat
  | 0, i, _, H => (H, i + 1, i)
  | left + 1, i, Q, H =>
    let s := orthogonalise Q i (i + 1) (op (Q i)) H
    let b := norm s.1
    let H := put s.2 (i + 1) i b
    if |b| > tol then arnoldiLoop op tol left (i + 1) (fun j => if j = i + 1 then b⁻¹ • s.1 else Q j) H
    else (H, i + 1, i)

/-- `arnoldi` (832-913) without memory for `H`; `Q` is uninitialised memory. -/
noncomputable def arnoldi (A : Mat n) (x0 : Vec n) (maxiter : Nat) (tol : ℝ) (L R : Option (Mat n))
    (Q : Nat → Vec n) : Option ((Nat → Nat → ℝ) × Nat × Nat) :=
  if norm x0 = 0 then none
  else some (arnoldiLoop (applyAll A L R) tol maxiter 0
    (fun j => if j = 0 then (norm x0)⁻¹ • x0 else Q j) fun _ _ => 0)

end PyNucleus.Eigenvalues
