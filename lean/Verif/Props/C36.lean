import Verif.Proof.Partition
import Mathlib.Algebra.Field.Rat
import Mathlib.Algebra.Order.Ring.Rat
import Mathlib.Data.Rat.Floor
import Mathlib.Algebra.Order.Archimedean.Basic

/-!
# C36: regular partitions

Full statement: `balancePartitions` returns one factor per dimension with product equal to the requested number; the regular partitioner gives every vertex a number
in [0, numPartitions), the same number exactly to vertices in the same box of the grid, and leaves no partition empty (otherwise it raises).
-/

namespace PyNucleus.Props.C36

open PyNucleus.Partition

/-- The factors are the prime factors. -/
theorem primes_factor (n : Nat) (hn : 1 ≤ n) : (primes n).prod = n ∧ ∀ p ∈ primes n, p.Prime := by
  obtain ⟨h1, h2⟩ := primesFrom_spec 0 n [] hn (fun q hq _ => hq.two_le) (by simp)
  exact ⟨by unfold primes; rw [h1]; simp, h2⟩

/-- One factor per dimension, with the requested product; dimensions that are not to be divided keep 1. -/
theorem balance_product {K : Type} [Field K] [LinearOrder K] (extend : List K) (partitionedDimensions numPartitions : Nat) (hd : 0 < extend.length)
    (hpd : 0 < partitionedDimensions) (hN : 1 ≤ numPartitions) :
    (balancePartitions extend partitionedDimensions numPartitions).length = extend.length ∧
    (balancePartitions extend partitionedDimensions numPartitions).prod = numPartitions ∧
    ∀ j, partitionedDimensions ≤ j → j < extend.length → (balancePartitions extend partitionedDimensions numPartitions).getD j 0 = 1 :=
  balance_spec extend _ _ hd hpd hN

variable {K : Type} [Field K] [LinearOrder K] [FloorRing K] [IsStrictOrderedRing K]

/-- Smallest coordinate `j`. -/
def lower (numVertices : Nat) (vertices : Nat → Nat → K) (j : Nat) : K := mins ((List.range numVertices).map fun i => vertices i j)

/-- Largest coordinate `j`. -/
def upper (numVertices : Nat) (vertices : Nat → Nat → K) (j : Nat) : K := maxs ((List.range numVertices).map fun i => vertices i j)

private theorem lower_le (numVertices : Nat) (vertices : Nat → Nat → K) (i j : Nat) (hi : i < numVertices) :
    lower numVertices vertices j ≤ vertices i j ∧ vertices i j ≤ upper numVertices vertices j :=
  ⟨(foldl_min_le _ _).2 _ (List.mem_map.2 ⟨i, List.mem_range.2 hi, rfl⟩), (foldl_max_ge _ _).2 _ (List.mem_map.2 ⟨i, List.mem_range.2 hi, rfl⟩)⟩

/-- The numbers are below the product of the numbers per dimension. -/
theorem part_in_range {delta : K} (hdelta : 0 < delta) (dim numVertices : Nat) (n : List Nat) (hn : n.length = dim) (hpos : ∀ m ∈ n, 1 ≤ m)
    (vertices : Nat → Nat → K) (part : List Int) (m : Nat) (h : partitionVertices delta dim numVertices n vertices = some (part, m)) :
    part.length = numVertices ∧ m = n.prod ∧ (∀ p ∈ part, 0 ≤ p ∧ p < n.prod) ∧ ∀ q, q < n.prod → (q : Int) ∈ part := by
  unfold partitionVertices at h
  dsimp only at h
  split at h
  · rename_i hall
    rw [Option.some.injEq, Prod.mk.injEq] at h
    obtain ⟨rfl, rfl⟩ := h
    have hrange : ∀ p ∈ ((List.range numVertices).map fun i => partNo dim n (lower numVertices vertices)
        (fun j => upper numVertices vertices j + delta) (vertices i)), 0 ≤ p ∧ p < (n.prod : Int) := by
      intro p hp
      obtain ⟨i, hi, rfl⟩ := List.mem_map.1 hp
      have hi := List.mem_range.1 hi
      rw [partNo_eq, ← prod_getD, hn]
      refine radix_bound _ _ dim fun j hj => box_bound n _ _ _ j ?_ (lower_le _ _ i j hi).1 ?_
      · rw [List.getD_eq_getElem _ _ (by omega)]
        exact hpos _ (List.getElem_mem _)
      · have := (lower_le numVertices vertices i j hi).2
        linarith
    have hmem : ∀ q, q < n.prod → (q : Int) ∈ ((List.range numVertices).map fun i => partNo dim n (lower numVertices vertices)
        (fun j => upper numVertices vertices j + delta) (vertices i)) := by
      intro q hq
      exact of_decide_eq_true (List.all_eq_true.1 hall q (List.mem_range.2 hq))
    refine ⟨by simp, ?_, hrange, hmem⟩
    change ((List.range numVertices).map fun i => partNo dim n (lower numVertices vertices)
        (fun j => upper numVertices vertices j + delta) (vertices i)).dedup.length = _
    rw [← List.card_toFinset]
    generalize ((List.range numVertices).map fun i => partNo dim n (lower numVertices vertices)
        (fun j => upper numVertices vertices j + delta) (vertices i)) = l at *
    have : l.toFinset = (Finset.range n.prod).image (fun q : Nat => (q : Int)) := by
      ext p
      rw [List.mem_toFinset, Finset.mem_image]
      constructor
      · intro hp
        obtain ⟨h1, h2⟩ := hrange p hp
        exact ⟨p.toNat, Finset.mem_range.2 (by omega), by omega⟩
      · rintro ⟨q, hq, rfl⟩
        exact hmem q (Finset.mem_range.1 hq)
    rw [this, Finset.card_image_of_injective _ Nat.cast_injective, Finset.card_range]
  · cases h

/-- Two vertices are in the same partition exactly if no grid plane lies between them. -/
theorem same_part_iff_same_box {delta : K} (hdelta : 0 < delta) (dim numVertices : Nat) (n : List Nat) (hn : n.length = dim) (hpos : ∀ m ∈ n, 1 ≤ m)
    (vertices : Nat → Nat → K) (part : List Int) (m : Nat) (h : partitionVertices delta dim numVertices n vertices = some (part, m))
    (i i' : Nat) (hi : i < numVertices) (hi' : i' < numVertices) :
    part.getD i 0 = part.getD i' 0 ↔ ∀ j, j < dim → ∀ b : Int,
      lower numVertices vertices j + (b : K) * ((upper numVertices vertices j + delta - lower numVertices vertices j) / (n.getD j 0 : K)) ≤ vertices i j ↔
      lower numVertices vertices j + (b : K) * ((upper numVertices vertices j + delta - lower numVertices vertices j) / (n.getD j 0 : K)) ≤ vertices i' j := by
  unfold partitionVertices at h
  dsimp only at h
  split at h
  · rw [Option.some.injEq, Prod.mk.injEq] at h
    obtain ⟨rfl, rfl⟩ := h
    have hget : ∀ i, i < numVertices → ((List.range numVertices).map fun i => partNo dim n (lower numVertices vertices)
        (fun j => upper numVertices vertices j + delta) (vertices i)).getD i 0 =
        partNo dim n (lower numVertices vertices) (fun j => upper numVertices vertices j + delta) (vertices i) := by
      intro i hi
      rw [List.getD_eq_getElem _ _ (by simpa using hi), List.getElem_map, List.getElem_range]
    have hnj : ∀ j, j < dim → 0 < n.getD j 0 := by
      intro j hj
      rw [List.getD_eq_getElem _ _ (by omega)]
      exact hpos _ (List.getElem_mem _)
    have hbnd : ∀ i, i < numVertices → ∀ j, j < dim → 0 ≤ box n (lower numVertices vertices) (fun j => upper numVertices vertices j + delta) (vertices i) j ∧
        box n (lower numVertices vertices) (fun j => upper numVertices vertices j + delta) (vertices i) j < n.getD j 0 := by
      intro i hi j hj
      refine box_bound n _ _ _ j (hnj j hj) (lower_le _ _ i j hi).1 ?_
      have := (lower_le numVertices vertices i j hi).2
      linarith
    have hlt : ∀ j, lower numVertices vertices j < upper numVertices vertices j + delta := by
      intro j
      have h1 := (lower_le numVertices vertices i j hi).1
      have h2 := (lower_le numVertices vertices i j hi).2
      linarith
    change ((List.range numVertices).map fun i => partNo dim n (lower numVertices vertices)
        (fun j => upper numVertices vertices j + delta) (vertices i)).getD i 0 = ((List.range numVertices).map fun i => partNo dim n (lower numVertices vertices)
        (fun j => upper numVertices vertices j + delta) (vertices i)).getD i' 0 ↔ _
    rw [hget i hi, hget i' hi', partNo_eq, partNo_eq, radix_inj _ _ _ dim (hbnd i hi) (hbnd i' hi')]
    refine forall_congr' fun j => forall_congr' fun hj => ?_
    constructor
    · intro e b
      rw [← box_le n (lower numVertices vertices) (fun j => upper numVertices vertices j + delta) (vertices i) j (hnj j hj) (hlt j),
        ← box_le n (lower numVertices vertices) (fun j => upper numVertices vertices j + delta) (vertices i') j (hnj j hj) (hlt j), e]
    · intro e
      refine le_antisymm ?_ ?_
      · rw [box_le n _ _ _ j (hnj j hj) (hlt j)]
        exact (e _).1 ((box_le n (lower numVertices vertices) (fun j => upper numVertices vertices j + delta) (vertices i) j (hnj j hj) (hlt j) _).1 (le_refl _))
      · rw [box_le n _ _ _ j (hnj j hj) (hlt j)]
        exact (e _).2 ((box_le n (lower numVertices vertices) (fun j => upper numVertices vertices j + delta) (vertices i') j (hnj j hj) (hlt j) _).1 (le_refl _))
  · cases h

omit [IsStrictOrderedRing K] in
/-- It raises only if a partition would be empty. -/
theorem raises_only_if_empty (delta : K) (dim numVertices : Nat) (n : List Nat) (vertices : Nat → Nat → K)
    (h : partitionVertices delta dim numVertices n vertices = none) :
    ∃ q, q < n.prod ∧ ∀ i, i < numVertices → partNo dim n (lower numVertices vertices) (fun j => upper numVertices vertices j + delta) (vertices i) ≠ (q : Int) := by
  unfold partitionVertices at h
  dsimp only at h
  split at h
  · cases h
  · rename_i hall
    rw [Bool.not_eq_true, ← Bool.not_eq_true, List.all_eq_true] at hall
    push Not at hall
    obtain ⟨q, hq, hn⟩ := hall
    refine ⟨q, List.mem_range.1 hq, fun i hi e => hn ?_⟩
    exact decide_eq_true (List.mem_map.2 ⟨i, List.mem_range.2 hi, e⟩)

/-- The irregular partitioner, for any quantiles: the number of partitions is the product, and every vertex gets a number below it. -/
theorem irregular_in_range {L : Type} [LinearOrder L] [Zero L] (quantile : List L → Nat → List L) (numVertices : Nat) (n : List Nat) (hn : n ≠ [])
    (hpos : ∀ m ∈ n, 1 ≤ m) (coord : Nat → Nat → L) (part : List Nat) (hp : part.length = numVertices) :
    (partitionVerticesIrregular quantile numVertices n coord part).2 = n.prod ∧
    (partitionVerticesIrregular quantile numVertices n coord part).1.length = numVertices ∧
    ∀ k, k < numVertices → (partitionVerticesIrregular quantile numVertices n coord part).1.getD k 0 < n.prod := by
  obtain ⟨h1, h2, h3, _⟩ := partitionDim_spec quantile coord n hn hpos 0 (List.range numVertices) 0 part
  refine ⟨h1, h2.trans hp, fun k hk => ?_⟩
  have := (h3 k (List.mem_range.2 hk) (by omega)).2
  rw [Nat.zero_add] at this
  exact this

/-- Example: 12 partitions of a 2 by 1 rectangle. -/
example : primes 12 = [2, 2, 3] ∧ balancePartitions [(2 : ℚ), 1] 2 12 = [6, 2] := by
  have h : primes 12 = [2, 2, 3] := by simp [primes, primesFrom]
  refine ⟨h, ?_⟩
  unfold balancePartitions
  rw [h]
  decide +kernel

/-- Example: four points of the unit square in 2 × 2 boxes. -/
example : partitionVertices (1/100000 : ℚ) 2 4 [2, 2] (fun i j => if j = 0 then (i % 2 : ℕ) else (i / 2 : ℕ)) = some ([0, 1, 2, 3], 4) := by decide +kernel

/-- Example: an empty box raises. -/
example : partitionVertices (1/100000 : ℚ) 1 2 [3] (fun i _ => (i : ℚ)) = none := by decide +kernel

end PyNucleus.Props.C36
