import Mathlib.Init

/-! # Layers of cells -/

namespace PyNucleus.Spec

/-- Cells that are reached from `S` in less than `k` steps; a step goes to a cell of `keys` with a common vertex. -/
def Near (keys : Nat → Prop) (cells : Nat → List Nat) (S : Nat → Prop) : Nat → Nat → Prop
  | 0, _ => False
  | k + 1, c => S c ∨ ∃ c', Near keys cells S k c' ∧ keys c ∧ ∃ v ∈ cells c', v ∈ cells c

end PyNucleus.Spec
