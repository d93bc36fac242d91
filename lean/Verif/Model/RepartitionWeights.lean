import Verif.Model.Overlap
import Mathlib.Order.Defs.LinearOrder

/-!
# Vectors between two partitions

Models `prepareDistributeRepartitionSend`, `prepareDistributeRepartition` (fem/PyNucleus_fem/algebraicOverlaps.pyx:581-609), `send` (1068-1112)
and `receive` (1157-1223) of the overlaps between the subdomains of two partitions, for one receiving rank.

Simplifications: two-sided messages and real vectors; every message that is sent arrives, in any order, which is the order of the list.
-/

namespace PyNucleus.RepartitionWeights

open PyNucleus.Overlap

/-- A sender: `shared_dofs` of the receiver and of the sender, and the number of degrees of freedom of the sender. -/
structure Link where
  mine : List Nat
  other : List Nat
  n : Nat

variable {K : Type}

/-- `receive` (1199-1206) into a vector of zeros: messages from all senders, with their vectors. -/
def receive [Zero K] [Add K] (n : Nat) (msgs : List (Link × List K)) : List K :=
  msgs.foldl (fun v m => accumulateProcess m.1.mine (gather m.2 m.1.other) v) (List.replicate n 0)

variable [Field K] [LinearOrder K]

/-- `prepareDistributeRepartition` (587-609): `Didx` and `Dval`; `none` is the failed assertion. -/
def prepare (n : Nat) (links : List Link) : Option (List (Nat × K)) :=
  let y := receive n (links.map fun l => (l, List.replicate l.n (1 : K)))
  if (List.range n).all fun i => decide (1 ≤ y.getD i 0) then
    some (((List.range n).filter fun i => decide (1 / 100000000 < max (y.getD i 0 - 1) (-(y.getD i 0 - 1)))).map fun i => (i, 1 / y.getD i 0))
  else none

/-- `receive` and `distribute` (connectors.py:246-248). -/
def transfer (n : Nat) (D : List (Nat × K)) (msgs : List (Link × List K)) : List K := distribute D (receive n msgs)

end PyNucleus.RepartitionWeights
