import Mathlib.Data.Rat.Floor

/-!
# Numbers of the new partitions in a repartitioning

Models fem/PyNucleus_fem/repartitioner.pyx: the distribution of partitions to subdomains in `Repartitioner.getCellPartition`
(242-262, 290-292) and `reorderPartitioning` (297-351).

Simplifications: numbers are rational; the partitioner and the solution of the linear program are parameters; the
communication is left out (all values are at hand); `set.pop` takes the smallest element; `none` stands for an exception.
-/

namespace PyNucleus.PartitionNumbers

/-- `np.around`: halves are rounded to the even number (247). -/
def around (x : ℚ) : ℤ :=
  let f := ⌊x⌋
  if x - f < 1 / 2 then f
  else if 1 / 2 < x - f then f + 1
  else if f % 2 = 0 then f else f + 1

/-- `numPartitions*(cellsPerSubdomain/cellsPerSubdomain.sum())` (246). -/
def shares (n : Nat) (cells : List Nat) : List ℚ := cells.map fun c : Nat => (n : ℚ) * ((c : ℚ) / (cells.sum : ℚ))

/-- `numPartitionsPerSubdomain-numPartitionsPerSubdomainInt`. -/
def diffs (xs : List ℚ) (rs : List ℤ) : List ℚ := List.zipWith (fun (x : ℚ) (r : ℤ) => x - (r : ℚ)) xs rs

/-- `argmax`: the first index of the largest entry. -/
def argmax (l : List ℚ) : Nat := l.idxOf (l.foldr max (l.headD 0))

/-- `argmin`: the first index of the smallest entry. -/
def argmin (l : List ℚ) : Nat := l.idxOf (l.foldr min (l.headD 0))

/-- The loop 250-251 with `k` turns: each adds one to the sum. -/
def up (xs : List ℚ) : Nat → List ℤ → List ℤ
  | 0, rs => rs
  | k + 1, rs => up xs k (rs.modify (argmax (diffs xs rs)) (· + 1))

/-- The loop 253-254 with `k` turns. -/
def down (xs : List ℚ) : Nat → List ℤ → List ℤ
  | 0, rs => rs
  | k + 1, rs => down xs k (rs.modify (argmin (diffs xs rs)) (· - 1))

/-- `numPartitionsPerSubdomainInt` (246-254). -/
def counts (n : Nat) (cells : List Nat) : List ℤ :=
  let xs := shares n cells
  let rs := xs.map around
  if rs.sum < n then up xs ((n : ℤ) - rs.sum).toNat rs
  else if (n : ℤ) < rs.sum then down xs (rs.sum - n).toNat rs
  else rs

/-- `partitionOffsetPerSubdomain` (256). -/
def offsets (rs : List ℤ) : List ℤ := (List.range rs.length).map fun p => (rs.take p).sum

/-- `part[i] += partitionOffset` (290-291) for a partition of subdomain `p`. -/
def globalPart (rs : List ℤ) (p : Nat) (part : List Nat) : List ℤ := part.map fun q : Nat => (q : ℤ) + (offsets rs).getD p 0

/-- `mapping` (335-341): the partitions that the linear program gives to the subdomains, then the others. `leftOverParts.remove` raises
an exception if a partition occurs twice. -/
def mapping (Q : Nat) (best : List Nat) : Option (List Nat) :=
  if best.Nodup ∧ ∀ q ∈ best, q < Q then some (best ++ (List.range Q).filter fun q => !best.contains q) else none

/-- `inv_mapping` (346-347). -/
def invMapping (m : List Nat) : List Nat := (List.range m.length).map fun q => m.idxOf q

/-- The new partition of the cells (349-350). -/
def reorder (Q : Nat) (best : List Nat) (part : List Nat) : Option (List Nat) :=
  (mapping Q best).map fun m => part.map fun q => (invMapping m).getD q 0

end PyNucleus.PartitionNumbers
