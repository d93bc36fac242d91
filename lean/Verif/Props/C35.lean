import Verif.Proof.Partition

/-!
# C35: inverse of a partition

Full statement: `partition2sparseGraph(part, n)` lists for every `p` exactly the cells with `part[cell] = p`, in increasing order, each cell exactly once.
-/

namespace PyNucleus.Props.C35

open PyNucleus.Partition PyNucleus.Spec

/-- Row `p` of the graph lists the cells of part `p` in increasing order; empty parts are allowed. -/
theorem rows_are_the_parts (part : List Nat) (n : Nat) (hp : ∀ p ∈ part, p < n) (indices : List Nat) (hi : indices.length = part.length) :
    ValidIndptr (partition2sparseGraph part n indices).indptr n part.length ∧ (partition2sparseGraph part n indices).numRows = n ∧
    (partition2sparseGraph part n indices).numCols = part.length ∧
    ∀ p, p < n →
      (csrRow (partition2sparseGraph part n indices).indptr (partition2sparseGraph part n indices).indices p).Pairwise (· < ·) ∧
      ∀ i, i ∈ csrRow (partition2sparseGraph part n indices).indptr (partition2sparseGraph part n indices).indices p ↔ part[i]? = some p := by
  obtain ⟨h1, _, h3⟩ := inverse_rows part n hp indices hi
  refine ⟨h1, rfl, rfl, fun p hpn => ?_⟩
  rw [h3 p hpn]
  refine ⟨(List.pairwise_lt_range).filter _, fun i => ?_⟩
  rw [List.mem_filter, List.mem_range, decide_eq_true_iff]
  constructor
  · rintro ⟨hlt, e⟩
    rw [List.getElem?_eq_getElem hlt, ← e, List.getD_eq_getElem _ _ hlt]
  · intro e
    obtain ⟨hlt, e⟩ := List.getElem?_eq_some_iff.1 e
    exact ⟨hlt, by rw [List.getD_eq_getElem _ _ hlt]; exact e⟩

/-- Every cell is listed exactly once. -/
theorem every_cell_once (part : List Nat) (n : Nat) (hp : ∀ p ∈ part, p < n) (indices : List Nat) (hi : indices.length = part.length) :
    List.Perm (partition2sparseGraph part n indices).indices (List.range part.length) := by
  obtain ⟨h1, h2, h3⟩ := inverse_rows part n hp indices hi
  have hflat := CSR.flatMap_csrRow (partition2sparseGraph part n indices).indptr (partition2sparseGraph part n indices).indices n (by rw [h2]; exact h1)
  have hsurj : ∀ i ∈ List.range part.length, i ∈ (partition2sparseGraph part n indices).indices := by
    intro i hi
    have hlt := List.mem_range.1 hi
    have hpi : part.getD i 0 < n := by
      rw [List.getD_eq_getElem _ _ hlt]; exact hp _ (List.getElem_mem hlt)
    rw [← hflat, List.mem_flatMap]
    exact ⟨part.getD i 0, List.mem_range.2 hpi, by rw [h3 _ hpi]; exact List.mem_filter.2 ⟨hi, by simp⟩⟩
  have hsub : List.Subperm (List.range part.length) (partition2sparseGraph part n indices).indices := List.subperm_of_subset List.nodup_range hsurj
  exact (hsub.perm_of_length_le (by rw [h2, List.length_range])).symm

/-- Example with an empty part. -/
example : (partition2sparseGraph [2, 0, 2, 3, 0] 4 [9, 9, 9, 9, 9]).indptr = [0, 2, 2, 4, 5] ∧
    (partition2sparseGraph [2, 0, 2, 3, 0] 4 [9, 9, 9, 9, 9]).indices = [1, 4, 0, 2, 3] := by decide

end PyNucleus.Props.C35
