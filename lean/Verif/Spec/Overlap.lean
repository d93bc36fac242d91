import Verif.Model.Overlap
import Mathlib.Algebra.BigOperators.Group.Finset.Basic

/-!
# Consistent overlaps

What the overlaps of all ranks mean: every dof of every rank has a global number.
-/

namespace PyNucleus.Overlap

/-- The overlaps describe exactly which dofs have the same global number: each pair of ranks that share dofs lists them in the same order. -/
structure Consistent (P : Nat) (ov : Nat → Manager) (gid : Nat → Nat → Nat) : Prop where
  keys_nodup : ∀ r, r < P → (ov r).keys.Nodup
  keys_lt : ∀ r, r < P → ∀ s ∈ (ov r).keys, s < P ∧ s ≠ r
  symm : ∀ r, r < P → ∀ s ∈ (ov r).keys, r ∈ (ov s).keys
  shared_lt : ∀ r, r < P → ∀ s, ∀ i ∈ (ov r).shared s, i < (ov r).n
  inj : ∀ r, r < P → ∀ i j, i < (ov r).n → j < (ov r).n → gid r i = gid r j → i = j
  nodup : ∀ r, r < P → ∀ s, ((ov r).shared s).Nodup
  same : ∀ r s, r < P → s < P → ((ov r).shared s).map (gid r) = ((ov s).shared r).map (gid s)
  complete : ∀ r s i j, r < P → s < P → r ≠ s → i < (ov r).n → j < (ov s).n → gid r i = gid s j → s ∈ (ov r).keys ∧ i ∈ (ov r).shared s

/-- Sum over all ranks that have a dof. -/
def total {K : Type} [AddCommMonoid K] (P : Nat) (ov : Nat → Manager) (gid : Nat → Nat → Nat) (x : Nat → List K) (g : Nat) : K :=
  ∑ s ∈ Finset.range P, ∑ j ∈ Finset.range (ov s).n, if gid s j = g then (x s).getD j 0 else 0

/-- Number of ranks that have a dof. -/
def sharing (P : Nat) (ov : Nat → Manager) (gid : Nat → Nat → Nat) (g : Nat) : Nat :=
  ((Finset.range P).filter fun s => ∃ j, j < (ov s).n ∧ gid s j = g).card

/-- Result of a call on all ranks, stated per dof: the sum over all ranks, or the value of the highest rank that has the dof. -/
def Result {K : Type} [AddCommMonoid K] (P : Nat) (ov : Nat → Manager) (gid : Nat → Nat → Nat) (k : Kind) (x y : Nat → List K) : Prop :=
  ∀ r, r < P → (y r).length = (ov r).n ∧ ∀ i, i < (ov r).n →
    match k with
    | .accumulate => (y r).getD i 0 = total P ov gid x (gid r i)
    | .unique => ∀ s j, s < P → j < (ov s).n → gid s j = gid r i →
        (∀ s' j', s' < P → j' < (ov s').n → gid s' j' = gid r i → s' ≤ s) → (y r).getD i 0 = (x s).getD j 0

/-- The sequence of memories and vectors: `Z c` before call `c`, `Y c` the results of call `c`. -/
structure Follows {K M : Type} [AddCommMonoid K] (P : Nat) (ov : Nat → Manager) (gid : Nat → Nat → Nat) (prog : List Kind)
    (f : Nat → Nat → M × List K → M × List K) (x : Nat → M × List K) (Z : Nat → Nat → M × List K) (Y : Nat → Nat → List K) : Prop where
  start : ∀ r, r < P → Z 0 r = x r
  result : ∀ c k, prog[c]? = some k → Result P ov gid k (fun r => (Z c r).2) (Y c)
  next : ∀ c, c < prog.length → ∀ r, r < P → Z (c + 1) r = f r c ((Z c r).1, Y c r)

/-- No `unique` directly after an `accumulate`. -/
def Safe (prog : List Kind) : Prop := ∀ c, prog[c]? = some .accumulate → prog[c + 1]? ≠ some .unique

end PyNucleus.Overlap
