import Verif.Spec.Overlap
import Verif.Spec.Matrix

/-! # Global matrix -/

namespace PyNucleus.Distributed

open PyNucleus.Overlap

/-- The matrix that is assembled from the matrices of all ranks: entry of the global dofs `g`, `g'`. -/
def assembled {K : Type} [AddCommMonoid K] (P : Nat) (ov : Nat → Manager) (gid : Nat → Nat → Nat) (a : Nat → Nat → Nat → K) (g g' : Nat) : K :=
  ∑ s ∈ Finset.range P, ∑ i ∈ Finset.range (ov s).n, ∑ j ∈ Finset.range (ov s).n, if gid s i = g ∧ gid s j = g' then a s i j else 0

end PyNucleus.Distributed
