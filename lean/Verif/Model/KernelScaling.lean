import Mathlib.Analysis.SpecialFunctions.Gamma.Basic
import Mathlib.Analysis.Calculus.Deriv.Basic
import Verif.Model.Kernels

/-!
Scalings of fractional kernels and the kernels of their derivatives with respect to the fractional order
(`/repo/nl/PyNucleus_nl/kernelNormalization.pyx`, `/repo/nl/PyNucleus_nl/kernels.py`,
`/repo/nl/PyNucleus_nl/kernelsCy.pyx`).

Modelled: orders and horizons whose values at the two points are given, scalings that are `constantTwoPoint`,
`constantFractionalLaplacianScaling`, `constantFractionalLaplacianScalingDerivative` or
`variableFractionalLaplacianScaling`, constant `phi`, no manifold. A horizon `none` is `inf`. `none` stands for NaN and for
raised errors.
-/

namespace PyNucleus.KernelScaling

open Kernels

/-- `scipy.special.cython_special.digamma` (kernelNormalization.pyx:66): the logarithmic derivative of Γ. -/
noncomputable def digamma (x : ℝ) : ℝ := deriv Real.Gamma x / Real.Gamma x

/-- `polygamma(1, d)` (kernelNormalization.pyx:35-36), that is the Hurwitz zeta value `ζ(2, d)`; the model has the
derivative of the digamma function, which is the same function. -/
noncomputable def polygamma1 (x : ℝ) : ℝ := deriv digamma x

/-- Two point functions that scale a kernel. -/
inductive Scaling
  /-- `constantTwoPoint(value)` (twoPointFunctions_{SCALAR}.pxi). -/
  | const (value : ℝ)
  /-- `constantFractionalLaplacianScaling(dim, s, horizon, tempered)` (kernelNormalization.pyx:70-92). -/
  | laplacian (dim : Nat) (s : ℝ) (horizon : Option ℝ) (tempered : ℝ)
  /-- `constantFractionalLaplacianScalingDerivative` (kernelNormalization.pyx:107-117). -/
  | derivative (dim : Nat) (s : ℝ) (horizon : Option ℝ) (normalized boundary : Bool) (order : Nat) (tempered : ℝ)
  /-- `variableFractionalLaplacianScaling(symmetric, normalized, boundary, derivative)` (kernelNormalization.pyx:329-335);
  dimension, order and horizon are parameters of the kernel. -/
  | variable (normalized boundary : Bool) (order : Nat)

open Classical in
/-- The value of `constantFractionalLaplacianScaling` (kernelNormalization.pyx:71-88). -/
noncomputable def laplacianValue (dim : Nat) (s : ℝ) (horizon : Option ℝ) (tempered : ℝ) : Option ℝ :=
  let s := if 1 < s ∧ s < 2 then s - 1 else s
  if (∃ h, horizon = some h ∧ h ≤ 0) ∨ s ≤ 0 ∨ 1 ≤ s then none else
  match horizon with
  | some h =>
    some ((2 - 2 * s) * h ^ (2 * s - 2) * dim * Real.Gamma ((1 / 2) * dim) / Real.pi ^ ((1 / 2) * (dim : ℝ)) * (1 / 2))
  | none =>
    if tempered = 0 ∨ s = 1 / 2 then
      some ((2 : ℝ) ^ (2 * s) * s * Real.Gamma (s + (1 / 2) * dim) / Real.pi ^ ((1 / 2) * (dim : ℝ)) / Real.Gamma (1 - s) *
        (1 / 2))
    else
      some (Real.Gamma ((1 / 2) * dim) / |Real.Gamma (-2 * s)| / Real.pi ^ ((1 / 2) * (dim : ℝ)) * (1 / 2) * (1 / 2))

open Classical in
/-- The member `C` of `constantFractionalLaplacianScalingDerivative` (kernelNormalization.pyx:121-133). -/
noncomputable def derivativeC (dim : Nat) (s : ℝ) (horizon : Option ℝ) (normalized : Bool) (tempered : ℝ) : ℝ :=
  if normalized then
    match horizon with
    | some h =>
      (2 - 2 * s) * (h ^ 2) ^ (s - 1) * dim * Real.Gamma ((1 / 2) * dim) / Real.pi ^ ((1 / 2) * (dim : ℝ)) * (1 / 2)
    | none =>
      if tempered = 0 ∨ s = 1 / 2 then
        (2 : ℝ) ^ (2 * s) * s * Real.Gamma (s + (1 / 2) * dim) * Real.pi ^ (-(1 / 2) * (dim : ℝ)) / Real.Gamma (1 - s) *
          (1 / 2)
      else
        Real.Gamma ((1 / 2) * dim) / |Real.Gamma (-2 * s)| / Real.pi ^ ((1 / 2) * (dim : ℝ)) * (1 / 2) * (1 / 2)
  else 1 / 2

/-- The member `fac` of `constantFractionalLaplacianScalingDerivative` for the first derivative
(kernelNormalization.pyx:135-151). -/
noncomputable def derivativeFac (dim : Nat) (s : ℝ) (horizon : Option ℝ) (normalized boundary : Bool) : ℝ :=
  if normalized then
    match horizon with
    | some h =>
      if !boundary then -1 / (1 - s) + Real.log (h ^ 2) else -1 / (1 - s) - 1 / s + Real.log (h ^ 2)
    | none =>
      if !boundary then Real.log 4 + digamma (s + (1 / 2) * dim) + digamma (-s)
      else Real.log 4 + digamma (s + (1 / 2) * dim) + digamma (1 - s)
  else
    if !boundary then 0 else -1 / s

/-- The members `fac` and `fac2` of `constantFractionalLaplacianScalingDerivative` for the second derivative
(kernelNormalization.pyx:152-174). -/
noncomputable def hessianFac (dim : Nat) (s : ℝ) (horizon : Option ℝ) (normalized boundary : Bool) : ℝ × ℝ :=
  if normalized then
    match horizon with
    | some h =>
      if !boundary then
        (-2 / (1 - s) * Real.log (h ^ 2) + Real.log (h ^ 2) ^ 2, -2 * (-1 / (1 - s) + Real.log (h ^ 2)))
      else
        (-2 / (1 - s) * Real.log (h ^ 2) + Real.log (h ^ 2) ^ 2 + 2 / s ^ 2 - 2 / s * (-1 / (1 - s) + Real.log (h ^ 2)),
          -2 * (-1 / (1 - s) + Real.log (h ^ 2) - 1 / s))
    | none =>
      if !boundary then
        ((Real.log 4 + digamma (s + (1 / 2) * dim) + digamma (-s)) ^ 2 +
            (polygamma1 (s + (1 / 2) * dim) - polygamma1 (-s)),
          -2 * (Real.log 4 + digamma (s + (1 / 2) * dim) + digamma (-s)))
      else
        ((Real.log 4 + digamma (s + (1 / 2) * dim) + digamma (1 - s)) ^ 2 +
            (polygamma1 (s + (1 / 2) * dim) - polygamma1 (1 - s)),
          -2 * (Real.log 4 + digamma (s + (1 / 2) * dim) + digamma (1 - s)))
  else
    if !boundary then (0, 0) else (2 / s ^ 2, 2 / s)

/-- `constantFractionalLaplacianScalingDerivative`: the constructor raises for other orders than 1 and 2
(kernelNormalization.pyx:175-176), `eval` and `evalPtr` (178-222). -/
noncomputable def derivativeValue (dim : Nat) (s : ℝ) (horizon : Option ℝ) (normalized boundary : Bool) (order : Nat)
    (tempered d2 : ℝ) : Option ℝ :=
  if order = 1 then
    some (derivativeC dim s horizon normalized tempered *
      (-Real.log d2 + derivativeFac dim s horizon normalized boundary))
  else if order = 2 then
    some (derivativeC dim s horizon normalized tempered *
      (Real.log d2 ^ 2 + (hessianFac dim s horizon normalized boundary).1 +
        (hessianFac dim s horizon normalized boundary).2 * Real.log d2))
  else none

/-- The local variable `C` of `variableFractionalLaplacianScaling.eval` (kernelNormalization.pyx:348-361, 426-439). -/
noncomputable def variableC (dim : Nat) (s : ℝ) (horizon : Option ℝ) (normalized : Bool) : Option ℝ :=
  if normalized then
    match horizon with
    | some h =>
      if dim = 1 then some ((2 - 2 * s) * (h ^ 2) ^ (s - 1) * (1 / 2))
      else if dim = 2 then some ((2 - 2 * s) * (h ^ 2) ^ (s - 1) * 2 / Real.pi * (1 / 2))
      else if dim = 3 then some ((2 - 2 * s) * (h ^ 2) ^ (s - 1) * (3 / 2) / Real.pi * (1 / 2))
      else none
    | none =>
      some ((2 : ℝ) ^ (2 * s) * s * Real.Gamma (s + (1 / 2) * dim) * Real.pi ^ (-(1 / 2) * (dim : ℝ)) /
        Real.Gamma (1 - s) * (1 / 2))
  else some (1 / 2)

/-- The factor of `C` for the first derivative (kernelNormalization.pyx:365-384, 443-462). -/
noncomputable def variableFirst (dim : Nat) (s : ℝ) (horizon : Option ℝ) (normalized boundary : Bool) (d2 : ℝ) : ℝ :=
  if normalized then
    match horizon with
    | some h =>
      if !boundary then -Real.log (d2 / h ^ 2) - 1 / (1 - s) else -Real.log (d2 / h ^ 2) - 1 / (1 - s) - 1 / s
    | none =>
      if !boundary then -Real.log ((1 / 4) * d2) + digamma (s + (1 / 2) * dim) + digamma (-s)
      else -Real.log ((1 / 4) * d2) + digamma (s + (1 / 2) * dim) + digamma (1 - s)
  else
    if !boundary then -Real.log d2 else -Real.log d2 - 1 / s

/-- `variableFractionalLaplacianScaling.eval` and `evalPtr` (kernelNormalization.pyx:341-418, 420-497). The second derivative
(385-416) has the same expressions `fac`, `fac2` as `constantFractionalLaplacianScalingDerivative`. -/
noncomputable def variableValue (dim : Nat) (s : ℝ) (horizon : Option ℝ) (normalized boundary : Bool) (order : Nat)
    (d2 : ℝ) : Option ℝ :=
  (variableC dim s horizon normalized).bind fun C =>
    if order = 0 then some C
    else if order = 1 then some (C * variableFirst dim s horizon normalized boundary d2)
    else if order = 2 then
      some (C * (Real.log d2 ^ 2 + (hessianFac dim s horizon normalized boundary).1 +
        (hessianFac dim s horizon normalized boundary).2 * Real.log d2))
    else none

/-- State of a fractional kernel (kernelsCy.pyx:1567-1634). -/
structure FractionalKernel where
  dim : Nat
  s : ℝ
  horizon : Option ℝ
  scalingPrePhi : Scaling
  phi : Option ℝ
  boundary : Bool
  derivative : Nat
  tempered : ℝ

/-- Evaluation of a scaling; the parameters of the kernel are used by `variableFractionalLaplacianScaling` only. -/
noncomputable def Scaling.eval (dim : Nat) (s : ℝ) (horizon : Option ℝ) (d2 : ℝ) : Scaling → Option ℝ
  | .const v => some v
  | .laplacian dim' s' horizon' tempered => laplacianValue dim' s' horizon' tempered
  | .derivative dim' s' horizon' normalized boundary order tempered =>
    derivativeValue dim' s' horizon' normalized boundary order tempered d2
  | .variable normalized boundary order => variableValue dim s horizon normalized boundary order d2

/-- `self.scaling = phi*scaling` (kernelsCy.pyx:706-710) as far as `getDerivativeKernel` looks at it: a product of
`constantTwoPoint`s, one of them may be a `constantFractionalLaplacianScaling`, is a `constantTwoPoint`, other products have
the type `productTwoPoint` or `productParametrizedTwoPoint` (twoPointFunctions_{SCALAR}.pxi:73-83), here `none`. -/
noncomputable def FractionalKernel.scaling (k : FractionalKernel) : Option Scaling :=
  match k.phi, k.scalingPrePhi with
  | none, sc => some sc
  | some p, .const v => some (.const (p * v))
  | some p, .laplacian dim s horizon tempered => (laplacianValue dim s horizon tempered).map fun v => .const (p * v)
  | some _, _ => none

/-- The kernel function with its scaling evaluated at the two points (kernelsCy.pyx:601-623, 1636-1785). -/
noncomputable def FractionalKernel.fac (k : FractionalKernel) (x y : Point) : Option ℝ :=
  (k.scalingPrePhi.eval k.dim k.s k.horizon (dist2 k.dim x y)).bind fun v =>
    (kernelFun { kind := .fractional, dim := k.dim, boundary := k.boundary, horizon := k.horizon
                 interaction := defaultInteraction k.dim k.horizon, s := k.s, scalingPrePhi := v, phi := k.phi
                 tempered := k.tempered, exponent := 0, power := 0 }).map fun f => f x y

/-- `FractionalKernel.eval` and `evalPtr` (kernelsCy.pyx:1907-1944): `grad` are the derivatives of the order with respect to
its parameters (`evalGrad`; `constFractionalOrder` has one parameter and derivative 1). -/
noncomputable def FractionalKernel.eval (k : FractionalKernel) (grad : List ℝ) (x y : Point) : Option (List ℝ) :=
  (k.fac x y).bind fun f =>
    if k.derivative = 0 then some [f]
    else if k.derivative = 1 then some (grad.map fun g => g * f)
    else if k.derivative = 2 then some (grad.flatMap fun gi => grad.map fun gj => f * gi * gj)
    else none

/-- `getFractionalKernel` with `scaling=None`, `phi=None` and constant order and horizon (kernels.py:109-169). -/
noncomputable def getFractionalKernel (dim : Nat) (s : ℝ) (horizon : Option ℝ) (normalized boundary : Bool)
    (derivative : Nat) (tempered : ℝ) : FractionalKernel where
  dim := dim
  s := s
  horizon := horizon
  scalingPrePhi :=
    if derivative = 0 then
      if normalized then .laplacian dim s horizon tempered else .const (1 / 2)
    else .derivative dim s horizon normalized boundary derivative tempered
  phi := if boundary then some (1 / s) else none
  boundary := boundary
  derivative := derivative
  tempered := tempered

/-- `getFractionalKernel` when the order is variable (kernels.py:145-160), `s` is the value of the order at the two
points. -/
noncomputable def getVariableKernel (dim : Nat) (s : ℝ) (horizon : Option ℝ) (normalized boundary : Bool)
    (derivative : Nat) (tempered : ℝ) : FractionalKernel where
  dim := dim
  s := s
  horizon := horizon
  scalingPrePhi := .variable normalized boundary derivative
  phi := if boundary then some (1 / s) else none
  boundary := boundary
  derivative := derivative
  tempered := tempered

/-- The scaling that `getDerivativeKernel` (kernelsCy.pyx:2039-2048) and `getHessianKernel` (2065-2074) select by the type of
`self.scaling`; other types raise `NotImplementedError`. -/
noncomputable def FractionalKernel.derivativeScaling (k : FractionalKernel) (order : Nat) : Option Scaling :=
  match k.scaling with
  | some (.laplacian dim s horizon tempered) => some (.derivative dim s horizon true false order tempered)
  | some (.variable normalized boundary _) => some (.variable normalized boundary order)
  | some (.const _) => some (.derivative k.dim k.s none false k.boundary order 0)
  | _ => none

/-- `getDerivativeKernel` (kernelsCy.pyx:2034-2058) with `order` 1 and `getHessianKernel` (2060-2084) with `order` 2; the
factor `phi` of the kernel is applied again. -/
noncomputable def FractionalKernel.getDerivativeKernel (k : FractionalKernel) (order : Nat) : Option FractionalKernel :=
  (k.derivativeScaling order).map fun scaling => { k with scalingPrePhi := scaling, derivative := order }

/-- `getBoundaryKernel` (kernelsCy.pyx:1982-2032); not modelled when the scaling is a product of other two point functions
than constants. -/
noncomputable def FractionalKernel.getBoundaryKernel (k : FractionalKernel) : Option FractionalKernel :=
  k.scaling.map fun sc =>
    { k with
      scalingPrePhi :=
        match sc with
        | .derivative dim s horizon normalized _ order tempered => .derivative dim s horizon normalized true order tempered
        | .variable normalized _ order => .variable normalized true order
        | sc => sc
      phi := some (1 / k.s), boundary := true, tempered := 0 }

end PyNucleus.KernelScaling
