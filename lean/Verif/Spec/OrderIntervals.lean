import Verif.Model.OrderIntervals

/-! # Chains of intervals, the factor of contraction -/

namespace PyNucleus.OrderIntervals

/-- The bound for the error of interpolation with order `M` on the interval `[s, t]`. -/
noncomputable def contraction (δ r s t : ℝ) (M : Nat) : ℝ :=
  Cdelta δ r s * ((t - s) / 2 / epsHat r s t) ^ (M + 1)

/-- The intervals follow each other, from `s` on, none is empty, and all end in `(s, sRight]`. -/
def Chain (sRight : ℝ) : ℝ → List Piece → Prop
  | _, [] => True
  | s, p :: l => p.1 = s ∧ s < p.2.1 ∧ p.2.1 ≤ sRight ∧ Chain sRight p.2.1 l

/-- The end of the last interval. -/
def endOf : ℝ → List Piece → ℝ
  | s, [] => s
  | _, p :: l => endOf p.2.1 l

end PyNucleus.OrderIntervals
