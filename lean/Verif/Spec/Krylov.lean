import Verif.Model.Krylov
import Verif.Spec.Vec

/-! # Assumptions on the parts of a Krylov solver -/

namespace PyNucleus.Krylov

open PyNucleus.Spec

variable {K : Type} [Field K] [LinearOrder K]

/-- The initial guess. -/
def Solver.guess (S : Solver K) : Fin S.n → K := match S.x0 with | none => 0 | some x0 => toV S.n x0

/-- Preconditioner that keeps the length. -/
def Solver.PrecOK (S : Solver K) : Prop := ∀ P, S.prec = some P → KeepsLength S.n P

/-- `sqrt` is a square root. -/
def SqrtOK (sqrt : K → Option K) : Prop := ∀ a, 0 ≤ a → ∃ s, sqrt a = some s ∧ 0 ≤ s ∧ s * s = a

/-- The preconditioner applies `N`; without preconditioner `N` is the identity. -/
def Solver.PrecIs (S : Solver K) (N : Matrix (Fin S.n) (Fin S.n) K) : Prop :=
  match S.prec with
  | none => N = 1
  | some P => Applies S.n P N

end PyNucleus.Krylov
