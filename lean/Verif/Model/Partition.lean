import Verif.Model.Loops
import Verif.Model.Transpose
import Mathlib.Algebra.Order.Floor.Defs
import Mathlib.Algebra.Order.Floor.Ring
import Mathlib.Algebra.Order.Field.Basic
import Mathlib.Order.WithBot
import Mathlib.Data.List.Sort

/-!
# Model of the partitioners

/repo/fem/PyNucleus_fem/meshPartitioning.pyx: `partition2sparseGraph` (25-46), `regularVertexPartitioner` (128-281), and the METIS partitioners
(330-425) with METIS as a parameter.  Coordinates are elements of an ordered field.
-/

namespace PyNucleus.Partition

open PyNucleus.Loops

/-- `partition2sparseGraph`, 25-46.  `indices` is the content of the uninitialised array. -/
def partition2sparseGraph (partition : List Nat) (numPartitions : Nat) (indices : List Nat) : CSR.Graph :=
  -- 35-36
  let indptr := forRange 0 partition.length (List.replicate (numPartitions + 1) 0) fun p i => p.modify (partition.getD i 0 + 1) (· + 1)
  -- 37-38
  let indptr := cumsum numPartitions indptr
  -- 39-42
  let s := forRange 0 partition.length (indptr, indices) fun s i =>
    (s.1.modify (partition.getD i 0) (· + 1), s.2.set (s.1.getD (partition.getD i 0) 0) i)
  -- 43-46
  { indptr := shiftBack numPartitions s.1, indices := s.2, numRows := numPartitions, numCols := partition.length }

/-! ## Factors -/

/-- `primes`, 159-169, from `d + 2` on. -/
def primesFrom (d n : Nat) (primfac : List Nat) : List Nat :=
  if h : (d + 2) * (d + 2) ≤ n then
    if n % (d + 2) = 0 then primesFrom d (n / (d + 2)) (primfac ++ [d + 2]) else primesFrom (d + 1) n primfac
  else if n > 1 then primfac ++ [n] else primfac
termination_by (n, n - d)
decreasing_by
  · apply Prod.Lex.left
    exact Nat.div_lt_self (by have := Nat.mul_le_mul (show 2 ≤ d + 2 by omega) (show 2 ≤ d + 2 by omega); omega) (by omega)
  · apply Prod.Lex.right
    have := Nat.mul_le_mul (show 2 ≤ d + 2 by omega) (Nat.le_refl (d + 2))
    omega

/-- `primes`, 159-169. -/
def primes (n : Nat) : List Nat := primesFrom 0 n []

section
variable {K : Type} [Field K] [LinearOrder K]

/-- `np.argmin`: position of the first smallest element. -/
def argminFrom (best : WithTop K) (pos : Nat) : Nat → List (WithTop K) → Nat
  | _, [] => pos
  | i, a :: l => if a < best then argminFrom a i (i + 1) l else argminFrom best pos (i + 1) l

/-- `np.argmin` of a list that is not empty. -/
def argmin : List (WithTop K) → Nat
  | [] => 0
  | a :: l => argminFrom a 0 1 l

/-- 177: an integer divided by the extent; dividing a positive number by zero gives infinity. -/
def ratio (n : Nat) (extend : K) : WithTop K := if extend = 0 then ⊤ else some ((n : K) / extend)

/-- `balancePartitions`, 171-179, with the extents of the bounding box. -/
def balancePartitions (extend : List K) (partitionedDimensions numPartitions : Nat) : List Nat :=
  ((primes numPartitions).insertionSort fun a b => b ≤ a).foldl
    (fun num p => num.modify (argmin ((List.zipWith ratio num extend).take partitionedDimensions)) (· * p))
    (List.replicate extend.length 1)

/-- `getBoundingBox`, 138-146, one coordinate, for at least one vertex. -/
def mins (x : List K) : K := x.foldl min (x.headD 0)

/-- `getBoundingBox`, the largest coordinate. -/
def maxs (x : List K) : K := x.foldl max (x.headD 0)
end

section
variable {K : Type} [Field K] [LinearOrder K] [FloorRing K]

/-- 205-208: `z[j]` for one vertex; `lo`, `hi` are `mins`, `maxs` (enlarged). -/
def cellNo (n : List Nat) (lo hi x : Nat → K) (j : Nat) : Int :=
  forRange 0 j ⌊(x j - lo j) / (hi j - lo j) * (n.getD j 0 : K)⌋ fun z k => z * (n.getD k 0 : Int)

/-- 204-210: the number of the partition. -/
def partNo (dim : Nat) (n : List Nat) (lo hi x : Nat → K) : Int := forRange 0 dim 0 fun w j => w + cellNo n lo hi x j

/-- `partitionVertices`, 181-216.  `vertices i j` is coordinate `j` of vertex `i`, `delta` the enlargement of the box.  Returns the partition of each vertex and the number of partitions; raises
if there are empty partitions. -/
def partitionVertices (delta : K) (dim numVertices : Nat) (n : List Nat) (vertices : Nat → Nat → K) : Option (List Int × Nat) :=
  let lo := fun j => mins ((List.range numVertices).map fun i => vertices i j)
  let hi := fun j => maxs ((List.range numVertices).map fun i => vertices i j) + delta
  let part := (List.range numVertices).map fun i => partNo dim n lo hi (vertices i)
  -- 213-214
  if (List.range n.prod).all fun q => decide ((q : Int) ∈ part) then some (part, part.dedup.length) else none
end

/-! ## Irregular partitions -/

section
variable {K : Type} [LinearOrder K] [Zero K]

/-- 236-242, 248-254: the first `j` below `n - 1` with `x < boundaries[j]`, else `n - 1`. -/
def slot (boundaries : List K) (n : Nat) (x : K) : Nat :=
  ((List.range (n - 1)).find? fun j => decide (x < boundaries.getD j 0)).getD (n - 1)

/-- `partitionDim`, 218-266: dimensions `d`, `d + 1`, … have the numbers of partitions in the list.  `quantile` is `np.quantile` (231).  Returns `part` and the number of
partitions. -/
def partitionDim (quantile : List K → Nat → List K) (coord : Nat → Nat → K) : List Nat → Nat → List Nat → Nat → List Nat → List Nat × Nat
  | [], _, _, _, part => (part, 0)
  | [n], d, idx, offset, part =>
    -- 233-243
    let boundaries := quantile (idx.map fun k => coord k d) n
    (idx.foldl (fun part k => part.set k (offset + slot boundaries n (coord k d))) part, n)
  | n :: rest, d, idx, offset, part =>
    let boundaries := quantile (idx.map fun k => coord k d) n
    -- 245-254
    let lists := fun j => idx.filter fun k => decide (slot boundaries n (coord k d) = j)
    -- 255-261
    let s := (List.range n).foldl (fun s j =>
      let r := partitionDim quantile coord rest (d + 1) (lists j) s.2.1 s.1
      (r.1, s.2.1 + r.2, s.2.2 + r.2)) (part, offset, 0)
    (s.1, s.2.2)

/-- `partitionVerticesIrregular`, 268-281, for given numbers of partitions per dimension. -/
def partitionVerticesIrregular (quantile : List K → Nat → List K) (numVertices : Nat) (n : List Nat) (coord : Nat → Nat → K) (part : List Nat) : List Nat × Nat :=
  partitionDim quantile coord n 0 (List.range numVertices) 0 part
end

/-! ## METIS -/

/-- `metisDofPartitioner.inversePartitionDofs` and `metisMeshPartitioner.inversePartitionCells`, 346-347 with 84-90: `partNos` is what METIS returns; the
number of partitions is the number of different values. -/
def metisInverse (partNos indices : List Nat) : CSR.Graph := partition2sparseGraph partNos partNos.dedup.length indices

end PyNucleus.Partition
