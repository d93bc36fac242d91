import Mathlib.Analysis.SpecialFunctions.Gamma.Basic
import Mathlib.Analysis.SpecialFunctions.Pow.Real

/-! # Weights of the L1 scheme -/

namespace PyNucleus.TimeStepping

/-- `L1Scheme.b`, base/PyNucleus_base/timestepping.py 215. -/
noncomputable def l1b (alpha : ℝ) (j : Nat) : ℝ := (((j + 1 : Nat) : ℝ) ^ (1 - alpha) - ((j : Nat) : ℝ) ^ (1 - alpha)) / Real.Gamma (2 - alpha)

end PyNucleus.TimeStepping
