import Verif.Model.Reports
import Mathlib.Data.List.Sort

/-! # What the reports should contain -/

namespace PyNucleus.Reports

/-- A key of the second list that the first one misses comes before a key of both. -/
def NewBeforeCommon {α : Type} (a b : List α) : Prop :=
  ∃ l₁ y l₂, b = l₁ ++ y :: l₂ ∧ y ∉ a ∧ ∃ z ∈ l₂, z ∈ a

section
variable {K : Type} [Field K] [LinearOrder K]

/-- Equal up to the tolerances of the entry. -/
def Close (p : Param K) (x y : K) : Prop := |x - y| ≤ tol p.aTol + tol p.rTol * |y|

/-- The value of the entry matches the reference. -/
def Matches (p : Param K) (d : Value K) : Prop :=
  (∃ x y, p.value = .num x ∧ d = .num y ∧ Close p x y) ∨
  (∃ x l, p.value = .num x ∧ d = .list l ∧ ∀ y ∈ l, Close p x y) ∨
  (∃ l m, p.value = .list l ∧ d = .list m ∧ List.Forall₂ (Close p) l m) ∨
  (∃ s, p.value = .other s ∧ d = .other s)

/-- The values are of kinds that cannot be compared. -/
def Incomparable (p : Param K) (d : Value K) : Prop :=
  (∃ x s, p.value = .num x ∧ d = .other s) ∨ (∃ l, p.value = .list l ∧ ∀ m, d ≠ .list m)

/-- The difference `m` is to be reported for the label `l`. -/
def Differs (entries : List (Param K)) (d : List (Nat × Value K)) (l : Nat) (m : Mismatch K) : Prop :=
  (∃ p ∈ entries, p.tested = true ∧ p.label = l ∧
    ((∃ v, (l, v) ∈ d ∧ ¬ Matches p v ∧ m = (some p.value, some v)) ∨
      ((∀ v, (l, v) ∉ d) ∧ m = (some p.value, none)))) ∨
  ((∀ p ∈ entries, p.tested = true → p.label ≠ l) ∧ ∃ v, (l, v) ∈ d ∧ m = (none, some v))

/-- The labels of the tested entries. -/
def testedLabels (entries : List (Param K)) : List Nat := (entries.filter (·.tested)).map (·.label)

end

/-- A function that behaves as `np.argsort`: a permutation of the positions that sorts. -/
def IsArgsort {K : Type} [LinearOrder K] [Inhabited K] (argsort : List K → List Nat) : Prop :=
  ∀ l : List K, (argsort l).Perm (List.range l.length) ∧
    ((argsort l).map fun i => l[i]!).Pairwise (· ≤ ·)

end PyNucleus.Reports
