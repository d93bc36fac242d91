import Verif.Spec.Overlap

/-! # Global vectors and what local vectors say about them -/

namespace PyNucleus.InnerProducts

open PyNucleus.Overlap

/-- The global dofs. -/
def dofs (P : Nat) (ov : Nat → Manager) (gid : Nat → Nat → Nat) : Finset Nat :=
  (Finset.range P).biUnion fun r => (Finset.range (ov r).n).image (gid r)

/-- The local vectors `x` stand for the global vector `G`: accumulated, every rank has the entries of `G`; otherwise, the entries of the ranks add up to `G`. -/
def Stands {K : Type} [AddCommMonoid K] (P : Nat) (ov : Nat → Manager) (gid : Nat → Nat → Nat) (acc : Bool) (x : Nat → List K) (G : Nat → K) : Prop :=
  (∀ r < P, (x r).length = (ov r).n) ∧
    if acc then ∀ r < P, ∀ i < (ov r).n, (x r).getD i 0 = G (gid r i)
    else ∀ d ∈ dofs P ov gid, total P ov gid x d = G d

/-- `y` is what the ranks have when all have returned from one call of `accumulate`, in some execution. -/
def Accumulated {K : Type} [AddCommMonoid K] (P : Nat) (ov : Nat → Manager) (x y : Nat → List K) : Prop :=
  ∃ (buf : Nat → Nat → List K) (n : Nat) (σ : State K Unit), Steps P ov [.accumulate] (fun _ _ z => z) (initial (fun r => ((), x r)) buf) n σ ∧
    ∀ r < P, (σ.loc r).inCall = false ∧ (σ.loc r).call = 1 ∧ y r = (σ.loc r).vec

end PyNucleus.InnerProducts
