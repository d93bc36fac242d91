import Mathlib.Analysis.SpecialFunctions.Pow.Real
import Mathlib.MeasureTheory.Integral.Bochner.Set
import Mathlib.MeasureTheory.Measure.Lebesgue.Basic

/-!
Kernels of nonlocal operators and their boundary kernels
(`/repo/nl/PyNucleus_nl/kernelsCy.pyx`, `/repo/nl/PyNucleus_nl/kernels.py`).

Modelled: real kernels whose fractional order, horizon and scaling are constant, not on a manifold and without
derivatives. For them the piecewise evaluation and `updateAndEval…` (kernelsCy.pyx:550-622) call the same function with
the same parameters. Points are functions from coordinate numbers to ℝ. A missing function is `none`.
-/

namespace PyNucleus.Kernels

/-- Points of ℝᵈ; only the first `d` coordinates matter. -/
abbrev Point := Nat → ℝ

/-- An interaction domain, `evalPtr`: the value stored through the pointer and the member `dist2` that it leaves
(interactionDomains.pyx:25-30, 846-853). -/
abbrev Interaction := Point → Point → ℝ × ℝ

/-- The loop `for i in range(dim): d2 += (x[i]-y[i])**2` (interactionDomains.pyx:849-851, 957-958), also written out for
the dimensions 1, 2, 3 (kernelsCy.pyx:164, 173, 182). -/
def dist2 (d : Nat) (x y : Point) : ℝ := (List.range d).foldl (fun d2 i => d2 + (x i - y i) ^ 2) 0

/-- The loop `for i in range(dim): d2 = max(d2, (x[i]-y[i])**2)` (interactionDomains.pyx:1185-1186). -/
noncomputable def distMax2 (d : Nat) (x y : Point) : ℝ := (List.range d).foldl (fun d2 i => max d2 ((x i - y i) ^ 2)) 0

/-- `fullSpace.evalPtr` (interactionDomains.pyx:846-853). -/
def fullSpace (d : Nat) : Interaction := fun x y => (1, dist2 d x y)

open Classical in
/-- `ball2_retriangulation.evalPtr` (interactionDomains.pyx:952-963), `fHORIZON2` is the square of the horizon. -/
noncomputable def ball2 (d : Nat) (horizon : ℝ) : Interaction := fun x y =>
  (if dist2 d x y ≤ horizon * horizon then 1 else 0, dist2 d x y)

open Classical in
/-- `ballInf_retriangulation.evalPtr` (interactionDomains.pyx:1180-1191). -/
noncomputable def ballInf (d : Nat) (horizon : ℝ) : Interaction := fun x y =>
  (if distMax2 d x y ≤ horizon * horizon then 1 else 0, distMax2 d x y)

/-- Types of kernels (kernelsCy.pyx:645-673). -/
inductive Kind
  | fractional
  | indicator
  | peridynamic
  | gaussian
  | exponential
  | polynomial
  | logInverseDistance
  | monomial
  deriving DecidableEq

/-- State of a kernel (kernelsCy.pyx:628-721, 1567-1634): `horizon` is `none` for `np.inf`, `exponent` is
`fEXPONENTINVERSE`, `power` is `monomialPower`, `tempered` is `fTEMPERED`. -/
structure Kernel where
  kind : Kind
  dim : Nat
  boundary : Bool
  horizon : Option ℝ
  interaction : Interaction
  s : ℝ
  scalingPrePhi : ℝ
  phi : Option ℝ
  tempered : ℝ
  exponent : ℝ
  power : ℝ

/-- `scaling = phi*scaling` unless `phi` is `None` (kernelsCy.pyx:706-710). -/
noncomputable def Kernel.scaling (k : Kernel) : ℝ :=
  match k.phi with
  | some p => p * k.scalingPrePhi
  | none => k.scalingPrePhi

/-- `_getInteraction(None, horizon)` (kernels.py:84-90). -/
noncomputable def defaultInteraction (d : Nat) : Option ℝ → Interaction
  | none => fullSpace d
  | some h => ball2 d h

/-- `gamma(a)*gammaincc(a, x)` for `a > 0`, the upper incomplete gamma function (kernelsCy.pyx:39-40). -/
noncomputable def gammainc (a x : ℝ) : ℝ := ∫ t in Set.Ioi x, t ^ (a - 1) * Real.exp (-t)

open Classical in
/-- The kernels that are restricted by the interaction domain: evaluate it, return 0 when it vanishes, else use `dist2`
(e.g. kernelsCy.pyx:75-86). -/
noncomputable def within (I : Interaction) (f : ℝ → ℝ) : Point → Point → ℝ := fun x y =>
  if (I x y).1 ≠ 0 then f (I x y).2 else 0

/-- The fractional kernels (kernelsCy.pyx:75-114, 159-213): `pow(d2, -0.5-s)`, `pow(d2, -1.-s)`, `pow(d2, -1.5-s)`, multiplied by
`exp(-lam*sqrt(d2))` when tempered. For an infinite horizon `d2` comes from the coordinates, else from the interaction
domain. Tempered kernels of finite horizon are not implemented (1696-1697). -/
noncomputable def fractionalFun (k : Kernel) : Option (Point → Point → ℝ) :=
  if k.dim = 1 ∨ k.dim = 2 ∨ k.dim = 3 then
    match k.horizon with
    | none =>
      some fun x y =>
        if k.tempered = 0 then k.scaling * dist2 k.dim x y ^ (-(k.dim : ℝ) / 2 - k.s)
        else k.scaling * dist2 k.dim x y ^ (-(k.dim : ℝ) / 2 - k.s) * Real.exp (-k.tempered * √(dist2 k.dim x y))
    | some _ =>
      if k.tempered = 0 then some (within k.interaction fun d2 => k.scaling * d2 ^ (-(k.dim : ℝ) / 2 - k.s)) else none
  else none

/-- The boundary kernels of fractional kernels (kernelsCy.pyx:117-156, 216-240): `pow(d2, -s)`, `pow(d2, -0.5-s)`,
`pow(d2, -1.0-s)`. The tempered ones (243-270) evaluate `gammaincc` at the negative number `-2*s`, outside its domain,
which scipy answers by NaN; the model has no value for them. -/
noncomputable def fractionalBoundaryFun (k : Kernel) : Option (Point → Point → ℝ) :=
  if k.dim = 1 ∨ k.dim = 2 ∨ k.dim = 3 then
    if k.tempered = 0 then
      match k.horizon with
      | none => some fun x y => k.scaling * dist2 k.dim x y ^ ((1 - (k.dim : ℝ)) / 2 - k.s)
      | some _ => some (within k.interaction fun d2 => k.scaling * d2 ^ ((1 - (k.dim : ℝ)) / 2 - k.s))
    else none
  else none

/-- The integrable kernels selected by `Kernel.__init__` (kernelsCy.pyx:723-758): `indicatorKernel1D/2D` (273-294),
`peridynamicKernel1D/2D/3D` (321-360), `gaussianKernel1D/2D` (388-415), `exponentialKernel` (448-461),
`polynomialKernel1D` (480-492), `logInverseDistance2D` (510-516), `monomial3D` (540-547). For the other combinations
`NotImplementedError` is raised or the function pointer stays unset. -/
noncomputable def integrableFun (k : Kernel) : Option (Point → Point → ℝ) :=
  match k.kind, k.dim with
  | .indicator, 1 | .indicator, 2 => some (within k.interaction fun _ => k.scaling)
  | .peridynamic, 1 | .peridynamic, 2 | .peridynamic, 3 => some (within k.interaction fun d2 => k.scaling / √d2)
  | .gaussian, 1 | .gaussian, 2 => some (within k.interaction fun d2 => k.scaling * Real.exp (-d2 * k.exponent))
  | .exponential, 1 | .exponential, 2 | .exponential, 3 =>
    some (within k.interaction fun d2 => k.scaling * Real.exp (-k.exponent * √d2))
  | .polynomial, 1 =>
    some (within k.interaction fun d2 => k.scaling * (k.exponent ^ 3 * d2) / (k.exponent ^ 2 + d2) ^ 2)
  | .logInverseDistance, 2 => some fun x y => -(1 / 2) * k.scaling * Real.log (dist2 2 x y)
  | .monomial, 3 => some fun x y => k.scaling * dist2 3 x y ^ ((1 / 2) * k.power)
  | _, _ => none

/-- The boundary kernels selected by `Kernel.__init__` (kernelsCy.pyx:760-791): `indicatorKernel1Dboundary`,
`indicatorKernel2Dboundary` (which compute the distance from the coordinates, 297-318),
`peridynamicKernel1Dboundary/2Dboundary` (363-386), `gaussianKernel1Dboundary/2Dboundary` (418-445),
`exponentialKernelBoundary` (464-477), `polynomialKernel1Dboundary` (495-507). -/
noncomputable def integrableBoundaryFun (k : Kernel) : Option (Point → Point → ℝ) :=
  match k.kind, k.dim with
  | .indicator, 1 => some fun x y => within k.interaction (fun _ => -k.scaling * 2 * √(dist2 1 x y)) x y
  | .indicator, 2 => some fun x y => within k.interaction (fun _ => -k.scaling * √(dist2 2 x y)) x y
  | .peridynamic, 1 => some (within k.interaction fun d2 => -2 * k.scaling * (1 / 2) * Real.log d2)
  | .peridynamic, 2 => some (within k.interaction fun _ => -2 * k.scaling)
  | .gaussian, 1 =>
    some (within k.interaction fun d2 =>
      k.scaling * √(1 / (d2 * k.exponent)) * gammainc (1 / 2) (d2 * k.exponent) * √d2)
  | .gaussian, 2 =>
    some (within k.interaction fun d2 => k.scaling * (1 / (d2 * k.exponent)) * gammainc 1 (d2 * k.exponent) * √d2)
  | .exponential, 1 | .exponential, 2 | .exponential, 3 =>
    some (within k.interaction fun d2 => 2 * k.scaling * Real.exp (-k.exponent * √d2) / k.exponent)
  | .polynomial, 1 =>
    some (within k.interaction fun d2 =>
      k.scaling * (-k.exponent ^ 2 / (2 * √d2) + k.exponent ^ 3 / 2 / (k.exponent ^ 2 + d2)))
  | _, _ => none

/-- Evaluation of a kernel (kernelsCy.pyx:723-846, 1636-1785). -/
noncomputable def kernelFun (k : Kernel) : Option (Point → Point → ℝ) :=
  if k.kind = .fractional then
    if k.boundary then fractionalBoundaryFun k else fractionalFun k
  else
    if k.boundary then integrableBoundaryFun k else integrableFun k

/-- `getBoundaryKernel`: of fractional kernels (kernelsCy.pyx:1982-2032, with `phi = 1/s`, the scaling that already
contains the factor `phi`, no argument `tempered`) and of integrable kernels (1194-1219, with the scaling that already
contains the factor `phi`, and `phi`). Both pass `interaction=None`. -/
noncomputable def Kernel.getBoundaryKernel (k : Kernel) : Kernel :=
  if k.kind = .fractional then
    { k with boundary := true, interaction := defaultInteraction k.dim k.horizon, scalingPrePhi := k.scaling
             phi := some (1 / k.s), tempered := 0 }
  else
    { k with boundary := true, interaction := defaultInteraction k.dim k.horizon, scalingPrePhi := k.scaling }

/-- `singularityValue` of fractional kernels (kernelsCy.pyx:1623-1631, `-dim-2s` and `1-dim-2s`) and of integrable ones
(645-673, both for the kernel and its boundary kernel). -/
noncomputable def Kernel.singularityValue (k : Kernel) : ℝ :=
  match k.kind with
  | .fractional => if k.boundary then 1 - k.dim - 2 * k.s else -k.dim - 2 * k.s
  | .peridynamic => -1
  | .monomial => k.power
  | _ => 0

end PyNucleus.Kernels
