import Verif.Props.C35

/-!
# C53: inverse of a METIS partition

Full statement: for every partition that METIS returns for `n` parts (any numbers below `n`, parts may be empty), the inverse table of the METIS partitioners lists for each part its
dofs, and each dof once.

It fails: the number of parts is taken as the number of different values, so if a part that is not the last one is empty, the largest number is not below the number
of parts, and `partition2sparseGraph` writes past the end of `indptr`.
-/

namespace PyNucleus.Props.C53

open PyNucleus.Partition PyNucleus.Spec

/-- If the numbers used by METIS have no gaps, the table is right.  Missing for the full statement: partitions with empty parts. -/
theorem metis_inverse_partial (partNos : List Nat) (hgap : ∀ p ∈ partNos, ∀ q, q ≤ p → q ∈ partNos) (indices : List Nat) (hi : indices.length = partNos.length) :
    List.Perm (metisInverse partNos indices).indices (List.range partNos.length) ∧
    ∀ p i, p < (metisInverse partNos indices).numRows →
      (i ∈ csrRow (metisInverse partNos indices).indptr (metisInverse partNos indices).indices p ↔ partNos[i]? = some p) := by
  have hlt : ∀ p ∈ partNos, p < partNos.dedup.length := by
    intro p hp
    have h1 : (List.range (p + 1)).Subperm partNos.dedup := List.subperm_of_subset List.nodup_range fun q hq =>
      List.mem_dedup.2 (hgap p hp q (by have := List.mem_range.1 hq; omega))
    have := h1.length_le
    rw [List.length_range] at this
    omega
  exact ⟨C35.every_cell_once partNos _ hlt indices hi, fun p i hp => ((C35.rows_are_the_parts partNos _ hlt indices hi).2.2.2 p hp).2 i⟩

/-- Three parts were asked for, part 1 is empty: the table has two rows, and the count of dof 1 is written to `indptr[3]`, past the end; no row lists dof 1. -/
theorem metis_inverse_fails : ∃ partNos indices : List Nat, (∀ p ∈ partNos, p < 3) ∧ indices.length = partNos.length ∧
    (metisInverse partNos indices).numRows = 2 ∧ (metisInverse partNos indices).indptr.length = 3 ∧
    (∃ p ∈ partNos, ¬ p + 1 < (metisInverse partNos indices).indptr.length) ∧
    ∀ p, p < 2 → 1 ∉ csrRow (metisInverse partNos indices).indptr (metisInverse partNos indices).indices p :=
  ⟨[0, 2], [7, 7], by decide, by decide, by decide, by decide, by decide, by decide⟩

example : (metisInverse [1, 0, 1] [7, 7, 7]).indices = [1, 0, 2] := by decide

end PyNucleus.Props.C53
