import Verif.Spec.CSR

/-!
# Specification of a Cuthill-McKee ordering

`nbr i` lists the neighbours of node `i`, `deg i` is its degree, `o` is the ordering.
-/

namespace PyNucleus.Spec

/-- The neighbours of the members of `P` are members. -/
def ClosedUnder (nbr : Nat → List Nat) (P : List Nat) : Prop := ∀ i ∈ P, ∀ j ∈ nbr i, j ∈ P

/-- Breadth first: every node has an earlier neighbour, or starts a component: the earlier nodes
form a union of components and the node has least degree among the nodes `< n` left over. -/
def BreadthFirst (nbr : Nat → List Nat) (deg : Nat → Nat) (n : Nat) (o : List Nat) : Prop :=
  ∀ p, p < o.length → (∃ q, q < p ∧ o.getD p 0 ∈ nbr (o.getD q 0)) ∨
    (ClosedUnder nbr (o.take p) ∧ ∀ k, k < n → k ∉ o.take p → deg (o.getD p 0) ≤ deg k)

/-- Neighbours of an earlier node come first, and neighbours of the same node come by increasing
degree. -/
def DegreeOrdered (nbr : Nat → List Nat) (deg : Nat → Nat) (o : List Nat) : Prop :=
  ∀ p p' q, q < p → p < p' → p' < o.length → o.getD p' 0 ∈ nbr (o.getD q 0) →
    ∃ q', q' ≤ q ∧ o.getD p 0 ∈ nbr (o.getD q' 0) ∧ (q' = q → deg (o.getD p 0) ≤ deg (o.getD p' 0))

/-- `r` is a result of `np.argsort(keys)`. -/
def ArgSort (keys r : List Nat) : Prop :=
  r.Perm (List.range keys.length) ∧
    ∀ a b, a < b → b < keys.length → keys.getD (r.getD a 0) 0 ≤ keys.getD (r.getD b 0) 0

end PyNucleus.Spec
