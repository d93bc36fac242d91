import Mathlib.Algebra.Field.Defs
import Mathlib.Algebra.BigOperators.Group.Finset.Basic

/-! Simplices given by a list of vertex numbers and the coordinates `X v k` of the vertices. -/

namespace PyNucleus.Refine

variable {K : Type} [Field K]

/-- `p` is a combination of the vertices `l` with weights of sum one that satisfy `P`. -/
def InSimplex (P : K → Prop) (X : Nat → Nat → K) (l : List Nat) (p : Nat → K) : Prop :=
  ∃ w : Nat → K, (∀ i, i < l.length → P (w i)) ∧ (∑ i ∈ Finset.range l.length, w i) = 1 ∧ ∀ k, ∑ i ∈ Finset.range l.length, w i * X (l.getD i 0) k = p k

/-- Vertices in general position. -/
def AffIndep (X : Nat → Nat → K) (l : List Nat) : Prop :=
  ∀ w : Nat → K, (∑ i ∈ Finset.range l.length, w i) = 0 → (∀ k, ∑ i ∈ Finset.range l.length, w i * X (l.getD i 0) k = 0) → ∀ i, i < l.length → w i = 0

end PyNucleus.Refine
