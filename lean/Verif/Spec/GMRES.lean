import Verif.Model.GMRES
import Verif.Spec.Krylov

/-! # What GMRES computes -/

namespace PyNucleus.Krylov

open PyNucleus.Spec

variable {K : Type} [Field K] [LinearOrder K]

/-- Results of `sqrt` are square roots. -/
def SqrtSound (sqrt : K → Option K) : Prop := ∀ a s, sqrt a = some s → 0 ≤ s ∧ s * s = a

/-- Preconditioned operator. -/
def Gmres.opT (S : Gmres K) (M N : Matrix (Fin S.n) (Fin S.n) K) : Matrix (Fin S.n) (Fin S.n) K := if S.left then N * M else M * N

/-- Map from corrections in the Krylov space to corrections of the solution. -/
def Gmres.opU (S : Gmres K) (N : Matrix (Fin S.n) (Fin S.n) K) : Matrix (Fin S.n) (Fin S.n) K := if S.left then 1 else N

/-- Residual, preconditioned from the left if asked for. -/
def Gmres.effRes (S : Gmres K) (M N : Matrix (Fin S.n) (Fin S.n) K) (b x : Fin S.n → K) : Fin S.n → K :=
  if S.left then N.mulVec (b - M.mulVec x) else b - M.mulVec x

/-- Settings for which the flexible variant is meaningful. -/
def Gmres.FlexOK (S : Gmres K) : Prop := S.flexible = true → S.left = false ∧ S.prec.isSome = true

/-- All arrays have `n` entries. -/
structure GM.Sized (n : Nat) (g : GM K) : Prop where
  x : g.x.length = n
  r : g.r.length = n
  Ar : g.Ar.length = n
  Q : ∀ j, (g.Q j).length = n
  Z : ∀ j, (g.Z j).length = n

end PyNucleus.Krylov
