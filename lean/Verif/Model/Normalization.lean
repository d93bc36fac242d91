import Mathlib.Analysis.SpecialFunctions.Exp
import Mathlib.Analysis.SpecialFunctions.Trigonometric.Basic
import Mathlib.MeasureTheory.Integral.IntervalIntegral.Basic
import Verif.Model.Kernels

/-!
Normalisation of integrable kernels (`/repo/nl/PyNucleus_nl/kernelNormalization.pyx`, `/repo/nl/PyNucleus_nl/kernels.py`).

Modelled: constant horizons, real kernels, interaction domains of the list below.
-/

namespace PyNucleus.Normalization

open Kernels

/-- Interaction domains that can be selected by their names (kernels.py:84-106). `ball1` is missing: it is rejected in two
dimensions by the normalisation. -/
inductive Domain
  | fullSpace
  | ball2
  | ballInf
  deriving DecidableEq

/-- The interaction domain of the given name and horizon. -/
noncomputable def Domain.interaction (d : Nat) (horizon : Option ℝ) (dom : Domain) : Interaction :=
  match dom, horizon with
  | .fullSpace, _ => Kernels.fullSpace d
  | _, none => Kernels.fullSpace d
  | .ball2, some h => Kernels.ball2 d h
  | .ballInf, some h => Kernels.ballInf d h

/-- `_getInteraction` (kernels.py:84-106): the argument is ignored when the horizon is infinite, the default is the Euclidean
ball. -/
def getDomain (horizon : Option ℝ) (dom : Option Domain) : Domain :=
  match horizon, dom with
  | none, _ => .fullSpace
  | some _, none => .ball2
  | some _, some dom => dom

/-- The error function of `libc.math` / scipy (kernelNormalization.pyx:275). -/
noncomputable def erf (x : ℝ) : ℝ := 2 / √Real.pi * ∫ t in (0 : ℝ)..x, Real.exp (-t ^ 2)

/-- `constantIntegrableScaling` for a finite horizon (kernelNormalization.pyx:240-297); `none` for the raised errors. -/
noncomputable def finiteScaling (kind : Kind) (dom : Domain) (dim : Nat) (h variance rate : ℝ) : Option ℝ :=
  match kind with
  | .indicator =>
    if dim = 1 then some (3 / h ^ 3 / 2)
    else if dim = 2 then
      match dom with
      | .ball2 => some (8 / Real.pi / h ^ 4 / 2)
      | .ballInf => some (3 / 4 / h ^ 4 / 2)
      | .fullSpace => none
    else none
  | .peridynamic =>
    if dim = 1 then some (2 / h ^ 2 / 2)
    else if dim = 2 then
      match dom with
      | .ball2 => some (6 / Real.pi / h ^ 3 / 2)
      | _ => none
    else none
  | .gaussian =>
    if dim = 1 then some (4 / √Real.pi / (erf 3 - 6 * Real.exp (-9) / √Real.pi) / (h / 3) ^ 3 / 2)
    else if dim = 2 then
      match dom with
      | .ball2 => some (4 / Real.pi / (1 - 10 * Real.exp (-9)) / (h / 3) ^ 4 / 2)
      | .fullSpace => some (1 / (2 * Real.pi * variance) / 2)
      | .ballInf => none
    else none
  | .exponential =>
    if dim = 1 then some (rate ^ 3 / (2 - Real.exp (-rate * h) * (2 + 2 * rate * h + (rate * h) ^ 2)) / 2)
    else none
  | .polynomial => some (1 / 2)
  | _ => none

/-- `constantIntegrableScaling` for an infinite horizon (kernelNormalization.pyx:240-297), where the interaction domain is
the full space; the powers of `1/horizon` of the indicator and the peridynamic kernel vanish. -/
noncomputable def infiniteScaling (kind : Kind) (dim : Nat) (variance rate : ℝ) : Option ℝ :=
  match kind with
  | .indicator => if dim = 1 then some 0 else none
  | .peridynamic => if dim = 1 then some 0 else none
  | .gaussian =>
    if dim = 1 then some (1 / √(2 * Real.pi * variance) / 2)
    else if dim = 2 then some (1 / (2 * Real.pi * variance) / 2)
    else none
  | .exponential => if dim = 1 then some (rate ^ 3 / 2 / 2) else none
  | .polynomial => some (1 / 2)
  | _ => none

open Classical in
/-- `constantIntegrableScaling` (kernelNormalization.pyx:232-300); `none` for NaN and for the raised errors. A horizon `none`
is `inf`. -/
noncomputable def integrableScaling (kind : Kind) (dom : Domain) (dim : Nat) (horizon : Option ℝ) (variance rate : ℝ) :
    Option ℝ :=
  match horizon with
  | some h => if h ≤ 0 then none else finiteScaling kind dom dim h variance rate
  | none => infiniteScaling kind dim variance rate

/-- The parameter `fEXPONENTINVERSE` (kernelsCy.pyx:690-702). -/
noncomputable def exponentInverse (kind : Kind) (dim : Nat) (horizon : Option ℝ) (variance rate a : ℝ) : ℝ :=
  match kind with
  | .gaussian =>
    match horizon with
    | some h => 1 / (h / 3) ^ 2
    | none => (1 / 2) / variance ^ dim
  | .exponential => rate
  | .polynomial => a
  | _ => 0

/-- `getIntegrableKernel` with `normalized=True`, `phi=None` (kernels.py:172-202). -/
noncomputable def getIntegrableKernel (dim : Nat) (kind : Kind) (horizon : Option ℝ) (dom : Option Domain)
    (variance rate a : ℝ) : Option Kernel :=
  (integrableScaling kind (getDomain horizon dom) dim horizon variance rate).map fun scaling =>
    { kind := kind, dim := dim, boundary := false, horizon := horizon
      interaction := (getDomain horizon dom).interaction dim horizon, s := 0, scalingPrePhi := scaling, phi := none
      tempered := 0, exponent := exponentInverse kind dim horizon variance rate a, power := 0 }

end PyNucleus.Normalization
