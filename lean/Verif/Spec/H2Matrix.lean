import Verif.Model.H2Matrix

/-! # Reference: entries of a hierarchical matrix -/

namespace PyNucleus.H2

variable {K : Type} [CommSemiring K]

mutual

/-- Coefficient `p` of dof `d` in a cluster: the value in the leaf, transported to ancestors by the transfer matrices. -/
def basis (comp : Nat) : Node K → Nat → Nat → K
  | .leaf _ _ _ dofs value, d, p => (dofs.zipIdx.map fun e => if e.1 = d then value comp e.2 p else 0).sum
  | .inner _ _ _ cs, d, p => basisList comp cs d p

def basisList (comp : Nat) : List (Node K) → Nat → Nat → K
  | [], _, _ => 0
  | c :: cs, d, p => (∑ q ∈ Finset.range c.T.cols, c.T.entry p q * basis comp c d q) + basisList comp cs d p

end

/-- Contribution of one far-field pair to an entry. -/
def block (comp : Nat) (p : Pair K) (i j : Nat) : K :=
  ∑ a ∈ Finset.range p.S.rows, ∑ b ∈ Finset.range p.S.cols, basis comp p.n1 i a * p.S.entry a b * basis comp p.n2 j b

/-- The matrix that an `H2Matrix` represents. -/
def HMat.entry (H : HMat K) (i j : Nat) : K := H.near i j + ∑ comp ∈ Finset.range H.comps, (H.pairs.map fun p => block comp p i j).sum

/-- The shapes of transfer matrices agree with the lengths of coefficient arrays. -/
inductive Shaped : Node K → Prop
  | leaf (id size : Nat) (T : Mat K) (dofs : List Nat) (value : Nat → Nat → Nat → K) : Shaped (.leaf id size T dofs value)
  | inner (id size : Nat) (T : Mat K) (cs : List (Node K)) : (∀ c ∈ cs, c.T.rows = size ∧ c.T.cols = c.size) → (∀ c ∈ cs, Shaped c) → Shaped (.inner id size T cs)

mutual

/-- Dofs of a node. -/
def dofsOf : Node K → List Nat
  | .leaf _ _ _ dofs _ => dofs
  | .inner _ _ _ cs => dofsOfList cs

def dofsOfList : List (Node K) → List Nat
  | [] => []
  | c :: cs => dofsOf c ++ dofsOfList cs

end

/-- A hierarchical matrix whose parts fit together. -/
structure HMat.Fits (H : HMat K) : Prop where
  shaped : Shaped H.tree
  ids : (H.tree.nodes.map Node.id).Nodup
  dofs : ∀ d ∈ dofsOf H.tree, d < H.n
  pairs : ∀ p ∈ H.pairs, p.n1 ∈ H.tree.nodes ∧ p.n2 ∈ H.tree.nodes ∧ p.S.rows = p.n1.size ∧ p.S.cols = p.n2.size
  near : H.nnz = 0 → ∀ i j, H.near i j = 0

end PyNucleus.H2
