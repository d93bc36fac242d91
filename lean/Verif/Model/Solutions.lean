import Mathlib.Analysis.SpecialFunctions.Trigonometric.Basic
import Mathlib.Analysis.SpecialFunctions.Complex.Arg
import Mathlib.Analysis.SpecialFunctions.Pow.Real
import Verif.Model.KernelScaling

/-!
Solutions and right-hand sides of test problems (`/repo/fem/PyNucleus_fem/functions.pyx`), and the nonlinearities of reaction
diffusion systems (`/repo/fem/PyNucleus_fem/femCy.pyx`).

Points are functions `Nat → ℝ`. The operator `**` with a constant exponent 2 is a square, also of negative numbers.
-/

namespace PyNucleus.Solutions

open Real

/-- `_rhsFunSin1D` (functions.pyx:299-301). -/
noncomputable def rhsSin1D (x : Nat → ℝ) : ℝ := π ^ 2 * sin (π * x 0)

/-- `_solSin1D` (304-312). -/
noncomputable def solSin1D (k : Int) (x : Nat → ℝ) : ℝ := sin (k * π * x 0)

/-- `_cos1D` (315-323). -/
noncomputable def cos1D (k : Int) (x : Nat → ℝ) : ℝ := cos (k * π * x 0)

/-- `_rhsFunSin2D` (326-336). -/
noncomputable def rhsSin2D (k l : Int) (x : Nat → ℝ) : ℝ :=
  ((k * π) ^ 2 + (l * π) ^ 2) * sin (k * π * x 0) * sin (l * π * x 1)

/-- `_solSin2D` (357-366). -/
noncomputable def solSin2D (k l : Int) (x : Nat → ℝ) : ℝ := sin (k * π * x 0) * sin (l * π * x 1)

/-- `_cos2D` (339-341). -/
noncomputable def cos2D (x : Nat → ℝ) : ℝ := cos (π * x 0) * cos (π * x 1)

/-- `_rhsCos2D` (344-346). -/
noncomputable def rhsCos2D (x : Nat → ℝ) : ℝ := 2 * π ^ 2 * cos (π * x 0) * cos (π * x 1)

open Classical in
/-- `_grad_cos2d_n` (349-354); elsewhere the method ends without a `return`, the value is then 0. -/
noncomputable def gradCos2Dn (x : Nat → ℝ) : ℝ :=
  if x 0 = 1 then -sin 1 * cos (x 1) else if x 1 = 1 then -sin 1 * cos (x 0) else 0

/-- `_rhsFunSin3D` (369-371). -/
noncomputable def rhsSin3D (x : Nat → ℝ) : ℝ := 3 * π ^ 2 * sin (π * x 0) * sin (π * x 1) * sin (π * x 2)

/-- `_solSin3D` (379-389). -/
noncomputable def solSin3D (k l m : Int) (x : Nat → ℝ) : ℝ := sin (k * π * x 0) * sin (l * π * x 1) * sin (m * π * x 2)

/-- `_rhsBoundaryLayer2D` (392-405). -/
noncomputable def rhsBoundaryLayer (radius c : ℝ) (x : Nat → ℝ) : ℝ :=
  let r := √((x 0 - 1 / 2) ^ 2 + (x 1 - 1 / 2) ^ 2)
  let z := r ^ 2 - radius ^ 2;
  -4 * c / cosh (c * z) ^ 2 + 8 * c ^ 2 * r ^ 2 * sinh (c * z) / cosh (c * z) ^ 3

/-- `_solBoundaryLayer2D` (408-421). -/
noncomputable def solBoundaryLayer (radius c : ℝ) (x : Nat → ℝ) : ℝ :=
  let r := √((x 0 - 1 / 2) ^ 2 + (x 1 - 1 / 2) ^ 2)
  let z := r ^ 2 - radius ^ 2
  tanh (c * z) - 1

/-- `arctan2(y, x)`, the argument of the complex number `x + iy`. -/
noncomputable def arctan2 (y x : ℝ) : ℝ := Complex.arg ⟨x, y⟩

open Classical in
/-- `_solCornerSingularity2D` (424-438). -/
noncomputable def solCorner (x : Nat → ℝ) : ℝ :=
  let y0 := x 1 - 1
  let y1 := -x 0 + 1
  let r := √(y0 ^ 2 + y1 ^ 2)
  let theta := arctan2 y1 y0
  let theta := if theta < 0 then theta + 2 * π else theta
  r ^ (2 / 3 : ℝ) * sin (2 / 3 * theta)

open Classical in
/-- `rhsBoundarySingularity2D` (441-451). -/
noncomputable def rhsBoundarySingularity (alpha : ℝ) (x : Nat → ℝ) : ℝ :=
  if 0 < x 0 then alpha * (1 - alpha) * x 0 ^ (alpha - 2) else 1000

/-- `solBoundarySingularity2D` (454-461). -/
noncomputable def solBoundarySingularity (alpha : ℝ) (x : Nat → ℝ) : ℝ := x 0 ^ alpha

/-- `_rhsFichera` (464-466). -/
noncomputable def rhsFichera (x : Nat → ℝ) : ℝ :=
  -(3 / 4) * ((x 0 - 1) ^ 2 + (x 1 - 1) ^ 2 + (x 2 - 1) ^ 2) ^ (-(3 / 4) : ℝ)

/-- `_solFichera` (469-471). -/
noncomputable def solFichera (x : Nat → ℝ) : ℝ := ((x 0 - 1) ^ 2 + (x 1 - 1) ^ 2 + (x 2 - 1) ^ 2) ^ (1 / 4 : ℝ)

/-- `rhsFunCos1DHeat` (474-482). -/
noncomputable def rhsHeat1D (t : ℝ) (x : Nat → ℝ) : ℝ := (cos t + π ^ 2 * sin t) * cos (π * x 0)

/-- `solCos1DHeat` (497-505). -/
noncomputable def solHeat1D (t : ℝ) (x : Nat → ℝ) : ℝ := sin t * cos (π * x 0)

/-- `rhsFunCos2DHeat` (508-516). -/
noncomputable def rhsHeat2D (t : ℝ) (x : Nat → ℝ) : ℝ := (cos t + 2 * π ^ 2 * sin t) * cos (π * x 0) * cos (π * x 1)

/-- `solCos2DHeat` (565-573). -/
noncomputable def solHeat2D (t : ℝ) (x : Nat → ℝ) : ℝ := sin t * cos (π * x 0) * cos (π * x 1)

/-- `rhsFunCos2DNonlinear` (519-530); `pow` is the operator `**` of floating point numbers. -/
noncomputable def rhsNonlinear (pow : ℝ → ℝ → ℝ) (k t : ℝ) (x : Nat → ℝ) : ℝ :=
  (cos t + 2 * π ^ 2 * sin t) * cos (π * x 0) * cos (π * x 1) - pow (sin t * cos (π * x 0) * cos (π * x 1)) k

/-- `rhsFunCos2DNonlinear_U` (533-546). -/
noncomputable def rhsNonlinearU (pow : ℝ → ℝ → ℝ) (k t : ℝ) (x : Nat → ℝ) : ℝ :=
  (cos t + 2 * π ^ 2 * sin t) * cos (π * x 0) * cos (π * x 1) +
    (pow (cos t * cos (π * x 0) * cos (π * x 1)) k - pow (sin t * cos (π * x 0) * cos (π * x 1)) k)

/-- `rhsFunCos2DNonlinear_V` (549-562). -/
noncomputable def rhsNonlinearV (pow : ℝ → ℝ → ℝ) (k t : ℝ) (x : Nat → ℝ) : ℝ :=
  (-sin t + 2 * π ^ 2 * cos t) * cos (π * x 0) * cos (π * x 1) +
    (pow (sin t * cos (π * x 0) * cos (π * x 1)) k - pow (cos t * cos (π * x 0) * cos (π * x 1)) k)

/-- `rhsTestGrayScott2D_U` (589-604). -/
noncomputable def rhsGrayScottU (F Du t : ℝ) (x : Nat → ℝ) : ℝ :=
  let u := sin t * cos (π * x 0) * cos (π * x 1)
  let v := cos t * cos (π * x 0) * cos (π * x 1)
  v + 2 * π ^ 2 * Du * u + u * v ^ 2 - F * (1 - u)

/-- `rhsTestGrayScott2D_V` (607-622). -/
noncomputable def rhsGrayScottV (k F Dv t : ℝ) (x : Nat → ℝ) : ℝ :=
  let u := sin t * cos (π * x 0) * cos (π * x 1)
  let v := cos t * cos (π * x 0) * cos (π * x 1);
  -u + 2 * π ^ 2 * Dv * v - u * v ^ 2 + (k + F) * v

/-- `gray_scott.eval` (femCy.pyx:2989-3005). -/
noncomputable def grayScott (F k : ℝ) (u v : ℝ) : ℝ × ℝ := (-u * v ^ 2 + F * (1 - u), u * v ^ 2 - (F + k) * v)

/-- `gray_scott_gradient.eval` (femCy.pyx:3006-3023): the inputs are `u, v, unew, vnew`. -/
noncomputable def grayScottGradient (F k : ℝ) (u v unew vnew : ℝ) : ℝ × ℝ :=
  (-unew * v ^ 2 - 2 * u * v * vnew - F * unew, unew * v ^ 2 + 2 * u * v * vnew - (k + F) * vnew)

/-- `brusselator.eval` (femCy.pyx:3025-3043). -/
noncomputable def brusselator (B Q : ℝ) (u v : ℝ) : ℝ × ℝ :=
  let z := B * u + Q ^ 2 * v + B / Q * u ^ 2 + 2 * Q * u * v + u ^ 2 * v
  (-u + z, -z)

/-- `CahnHilliard_F_prime.eval` (femCy.pyx:3045-3053). -/
noncomputable def cahnHilliardPrime (u : ℝ) : ℝ := u ^ 3 - u

/-- `CahnHilliard_F.eval` (femCy.pyx:3056-3064). -/
noncomputable def cahnHilliard (u : ℝ) : ℝ := 1 / 4 * (1 - u ^ 2) ^ 2

/-- The loop `for i in range(dim): r2 += x[i]**2` (functions.pyx:636-640, 663-667). -/
def norm2 (dim : Nat) (x : Nat → ℝ) : ℝ := (List.range dim).foldl (fun r2 i => r2 + x i ^ 2) 0

/-- The member `fac` of `solFractional` and `solFractionalDerivative` (633, 659). -/
noncomputable def fracFac (s : ℝ) (dim : Nat) (radius2 : ℝ) : ℝ :=
  radius2 ^ s * 2 ^ (-2 * s) * Gamma (dim / 2) / Gamma ((dim + 2 * s) / 2) / Gamma (1 + s)

open Classical in
/-- `solFractional` (625-644). -/
noncomputable def solFractional (s : ℝ) (dim : Nat) (radius : ℝ) (x : Nat → ℝ) : ℝ :=
  let radius2 := radius ^ 2
  let r2 := norm2 dim x
  if r2 ≤ radius2 then fracFac s dim radius2 * (1 - r2 / radius2) ^ s else 0

open Classical in
/-- `solFractionalDerivative` (647-671). On the sphere the logarithm is `-inf` and the power is 0, the product is NaN: no
value. -/
noncomputable def solFractionalDerivative (s : ℝ) (dim : Nat) (radius : ℝ) (x : Nat → ℝ) : Option ℝ :=
  let radius2 := radius ^ 2
  let r2 := norm2 dim x
  let fac2 := log (1 / 4 * radius2) - KernelScaling.digamma (1 / 2 * dim + s) - KernelScaling.digamma (1 + s)
  if r2 = radius2 then none
  else if r2 ≤ radius2 then some ((fac2 + log (1 - r2 / radius2)) * fracFac s dim radius2 * (1 - r2 / radius2) ^ s)
  else some 0

open Classical in
/-- `rhsFractional1D` (677-695); `jacobi` is `scipy.special.eval_jacobi`. -/
noncomputable def rhsFractional1D (jacobi : Nat → ℝ → ℝ → ℝ → ℝ) (s : ℝ) (n : Nat) (x : Nat → ℝ) : ℝ :=
  if x 0 ^ 2 ≤ 1 then
    2 ^ (2 * s) * Gamma (1 / 2 + s + n) * Gamma (1 + s + n) / Gamma (1 + n) / Gamma (1 / 2 + n) *
      jacobi n s (-1 / 2) (2 * x 0 ^ 2 - 1)
  else 0

open Classical in
/-- `solFractional1D` (698-714). -/
noncomputable def solFractional1D (jacobi : Nat → ℝ → ℝ → ℝ → ℝ) (s : ℝ) (n : Nat) (x : Nat → ℝ) : ℝ :=
  if x 0 ^ 2 ≤ 1 then (1 - x 0 ^ 2) ^ s * jacobi n s (-1 / 2) (2 * x 0 ^ 2 - 1) else 0

open Classical in
/-- `rhsFractional2D` (717-740). -/
noncomputable def rhsFractional2D (jacobi : Nat → ℝ → ℝ → ℝ → ℝ) (s : ℝ) (l n : Nat) (shift : ℝ) (x : Nat → ℝ) : ℝ :=
  let r2 := x 0 ^ 2 + x 1 ^ 2
  if r2 ≤ 1 then
    2 ^ (2 * s) * Gamma (1 + s + n) * Gamma (1 + l + s + n) / Gamma (1 + n) / Gamma (1 + l + n) * r2 ^ (1 / 2 * (l : ℝ)) *
      cos (l * (arctan2 (x 1) (x 0) + shift)) * jacobi n s l (2 * r2 - 1)
  else 0

open Classical in
/-- `solFractional2D` (743-763). -/
noncomputable def solFractional2D (jacobi : Nat → ℝ → ℝ → ℝ → ℝ) (s : ℝ) (l n : Nat) (shift : ℝ) (x : Nat → ℝ) : ℝ :=
  let r2 := x 0 ^ 2 + x 1 ^ 2
  if r2 ≤ 1 then
    (1 - r2) ^ s * r2 ^ (1 / 2 * (l : ℝ)) * cos (l * (arctan2 (x 1) (x 0) + shift)) * jacobi n s l (2 * r2 - 1)
  else 0

/-- `rhsTestFractional_U` (800-811). -/
noncomputable def rhsTestU (s : ℝ) (dim : Nat) (t radius : ℝ) (x : Nat → ℝ) : ℝ :=
  let u := solFractional s dim radius x
  cos t * u + (cos t ^ 2 - sin t ^ 2) * u ^ 2 + sin t

/-- `rhsTestFractional_V` (814-825). -/
noncomputable def rhsTestV (s : ℝ) (dim : Nat) (t radius : ℝ) (x : Nat → ℝ) : ℝ :=
  let u := solFractional s dim radius x;
  -sin t * u + (-cos t ^ 2 + sin t ^ 2) * u ^ 2 + cos t

/-- `rhsFractionalBrusselator_U` (828-853). -/
noncomputable def rhsBrusselatorU (s1 s2 B Q eta : ℝ) (dim : Nat) (t radius : ℝ) (x : Nat → ℝ) : ℝ :=
  let u0 := solFractional s1 dim radius x * eta
  let v0 := solFractional s2 dim radius x / eta
  let s := sin t
  let c := cos (2 * t)
  let u := u0 * s
  let v := v0 * c
  cos t * u0 + s * eta / radius ^ (2 * s1) - ((B - 1) * u + Q ^ 2 * v + B / Q * u ^ 2 + 2 * Q * u * v + u ^ 2 * v)

/-- `rhsFractionalBrusselator_V` (856-881). -/
noncomputable def rhsBrusselatorV (s1 s2 B Q eta : ℝ) (dim : Nat) (t radius : ℝ) (x : Nat → ℝ) : ℝ :=
  let u0 := solFractional s1 dim radius x * eta
  let v0 := solFractional s2 dim radius x / eta
  let s := sin t
  let c := cos (2 * t)
  let u := u0 * s
  let v := v0 * c
  eta ^ 2 * (-2 * sin (2 * t) * v0) + c / eta / radius ^ (2 * s2) +
    (B * u + Q ^ 2 * v + B / Q * u ^ 2 + 2 * Q * u * v + u ^ 2 * v)

end PyNucleus.Solutions
