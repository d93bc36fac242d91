import Verif.Model.TimeStepping
import Mathlib.Algebra.BigOperators.Group.Finset.Basic
import Mathlib.Algebra.BigOperators.Group.Finset.Sigma

/-! # Time discretisations -/

namespace PyNucleus.TimeStepping

variable {K V : Type} [Field K] [AddCommGroup V] [Module K V]

/-- The solver built for `(t, alpha, beta)` solves `alpha A(t, u) + beta B(t, u) = rhs`. -/
def Prob.SolvesAt (P : Prob K V) (t alpha beta : K) : Prop :=
  ∀ rhs u, ∃ u', P.solver t alpha beta rhs u = some u' ∧ alpha • P.A t u' + beta • P.B t u' = rhs

/-- The operators do not depend on time. -/
def Prob.TimeIndependent (P : Prob K V) : Prop := ∀ t, P.A t = P.A 0 ∧ P.B t = P.B 0

/-- The theta scheme from `(t, u)` to `(t + dt, u')`. -/
def ThetaEq (P : Prob K V) (theta t dt : K) (forcing : Option V) (u u' : V) : Prop :=
  (1 / dt) • P.A (t + dt) u' + theta • P.B (t + dt) u' =
    (1 - theta) • forcing.getD (P.g t) + theta • forcing.getD (P.g (t + dt)) + (1 / dt) • P.A t u - (1 - theta) • P.B t u

/-- Every step of a sequence satisfies the theta scheme. -/
def ThetaSteps (P : Prob K V) (theta : K) : K → V → List (K × Option V) → List (K × V) → Prop
  | _, _, [], states => states = []
  | t, u, (dt, f) :: rest, states => ∃ u' more, states = (t + dt, u') :: more ∧ ThetaEq P theta t dt f u u' ∧
      ThetaSteps P theta (t + dt) u' rest more

/-- The L1 scheme in step `m`: `dt^(-alpha) sum_j b_j (A u^(m-j) - A u^(m-j-1)) + B u^m = g(t_m)`, multiplied by `dt^alpha`. -/
def L1Eq (P : Prob K V) (b : Nat → K) (dta t0 dt : K) (u : Nat → V) (m : Nat) : Prop :=
  ∑ j ∈ Finset.range m, b j • (P.A 0 (u (m - j)) - P.A 0 (u (m - j - 1))) + dta • P.B 0 (u m) = dta • P.g (t0 + m * dt)

/-- The solver built for `(t, alpha, beta)` solves `alpha A(t, u) + beta I(t, u) = rhs`. -/
def ProbIE.SolvesAt (P : ProbIE K V) (t alpha beta : K) : Prop :=
  ∀ rhs u, ∃ u', P.solver t alpha beta rhs u = some u' ∧ alpha • P.A t u' + beta • P.I t u' = rhs

/-- Force in stage `j`. -/
def ProbIE.f (P : ProbIE K V) (forcing : Option (Nat → V)) (tau : Nat → K) (j : Nat) : V := (forcing.map fun F => F j).getD (P.g (tau j))

/-- Stage `k` of the scheme; `tau j` is the time of stage `j`. -/
def StageEq (P : ProbIE K V) (T : Tableau K) (forcing : Option (Nat → V)) (dt : K) (tau : Nat → K) (a : V) (u : V) (U : Nat → V) (k : Nat) : Prop :=
  ((∀ j, j < T.s → T.AExpl k j = 0) → U k = u) ∧
  ((∃ j, j < T.s ∧ T.AExpl k j ≠ 0) →
    P.A (tau k) (U k) + (dt * T.AImpl k k) • P.I (tau k) (U k) =
      a - dt • ∑ j ∈ Finset.range k, T.AImpl k j • P.I (tau j) (U j) - dt • ∑ j ∈ Finset.range k, T.AExpl k j • P.E (tau j) (U j)
        + dt • ∑ j ∈ Finset.range (k + 1), T.AImpl k j • P.f forcing tau j)

/-- Final update of the scheme. -/
def FinalRhs (P : ProbIE K V) (T : Tableau K) (forcing : Option (Nat → V)) (dt : K) (tau : Nat → K) (a : V) (U : Nat → V) : V :=
  a - dt • ∑ j ∈ Finset.range T.s, T.bImpl j • P.I (tau j) (U j) - dt • ∑ j ∈ Finset.range T.s, T.bExpl j • P.E (tau j) (U j)
    + dt • ∑ j ∈ Finset.range T.s, T.bImpl j • P.f forcing tau j

/-- A column that the code regards as unused is zero. -/
def Tableau.ColumnsOK (T : Tableau K) : Prop :=
  ∀ k, k < T.s → (∑ i ∈ Finset.range T.s, T.AExpl i k = 0 → ∀ i, i < T.s → T.AExpl i k = 0 ∨ T.bExpl k ≠ 0) ∧
    (∑ i ∈ Finset.range T.s, T.AImpl i k = 0 → ∀ i, i < T.s → T.AImpl i k = 0 ∨ T.bImpl k ≠ 0)

/-- The cached implicit solver, if any, is one for the step size `dt` and the diagonal entry `gamma`. -/
def CacheOK (gamma dt : K) (impl : Option (K × K × K)) : Prop := impl = none ∨ ∃ t', impl = some (t', 1, gamma * dt)

/-- The solvers of a step: either they are rebuilt each time, or the operators do not depend on time, all implicit stages
have the same diagonal entry `gamma` and the cached solver fits. -/
def IMEX.SolversOK (S : IMEX K V) (gamma t dt : K) : Prop :=
  (S.timeDep = true ∧ (∀ k, k < S.T.s → S.P.SolvesAt (t + S.T.c k * dt) 1 (S.T.AImpl k k * dt)) ∧ S.P.SolvesAt t 1 0) ∨
  (S.timeDep = false ∧ (∀ t', S.P.A t' = S.P.A 0 ∧ S.P.I t' = S.P.I 0) ∧
    (∀ k, k < S.T.s → (∃ j, j < S.T.s ∧ S.T.AExpl k j ≠ 0) → S.T.AImpl k k = gamma) ∧
    (∀ t', S.P.SolvesAt t' 1 (gamma * dt)) ∧ (∀ t', S.P.SolvesAt t' 1 0) ∧ CacheOK gamma dt S.impl)

end PyNucleus.TimeStepping
