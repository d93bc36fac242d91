import Verif.Proof.SortIndices
import Verif.Props.C08

/-!
# C10 Sorting column indices preserves the matrix
-/

namespace PyNucleus.Props.C10

open PyNucleus.CSR PyNucleus.Spec PyNucleus.Loops

variable {K : Type}

/-- Rows of the sorted matrix, in terms of the sort loop. -/
private theorem rows_spec [Zero K] (A : CSR K) (hA : A.Valid) :
    (sortMatrix A).indices.length = A.indices.length ∧
    (sortMatrix A).data.length = A.indices.length ∧
    (∀ i, i < A.numRows → ((sortMatrix A).row i).Perm (A.row i) ∧
      ((sortMatrix A).row i).Pairwise fun a b => a.1 ≤ b.1) ∧
    ((sortIndices A.indptr A.indices A.data).wasSorted = true ↔
      ∀ i, i < A.numRows → (A.row i).Pairwise fun a b => a.1 ≤ b.1) := by
  have hn : A.indptr.length - 1 = A.numRows := by rw [hA.indptr.length]; rfl
  obtain ⟨h1, h2, h3⟩ := sortIndices_view A.indptr A.indices A.data hA.data.symm
  have g := gsort_rows Prod.fst (0, 0) A.indptr A.numRows (A.indices.zip A.data)
    (by rw [zip_length A hA]; exact hA.indptr)
  rw [hn] at h1
  simp only at g
  rw [← h1] at g
  exact ⟨h2, h3, g.2.1, g.2.2⟩

/-- `sort_indices` permutes the stored entries within each row so that the columns of each row
are non-decreasing; the arrays stay valid. -/
theorem sort_rows [Zero K] (A : CSR K) (hA : A.Valid) :
    (sortMatrix A).indptr = A.indptr ∧ (sortMatrix A).Valid ∧ ∀ i, i < A.numRows →
      ((sortMatrix A).row i).Perm (A.row i) ∧
      ((sortMatrix A).row i).Pairwise fun a b => a.1 ≤ b.1 := by
  obtain ⟨h1, h2, h3, _⟩ := rows_spec A hA
  refine ⟨rfl, ⟨?_, by rw [h1, h2], ?_⟩, h3⟩
  · rw [h1]; exact hA.indptr
  · intro j hj
    have hz : ((sortMatrix A).indices.zip (sortMatrix A).data).length = (sortMatrix A).indices.length := by
      rw [List.length_zip, h1, h2]; omega
    have hf := flatMap_csrRow (sortMatrix A).indptr
      ((sortMatrix A).indices.zip (sortMatrix A).data) A.numRows (by rw [hz, h1]; exact hA.indptr)
    have hfst : ((sortMatrix A).indices.zip (sortMatrix A).data).map Prod.fst =
        (sortMatrix A).indices := List.map_fst_zip (by omega)
    rw [← hfst, ← hf] at hj
    obtain ⟨e, he, rfl⟩ := List.mem_map.1 hj
    obtain ⟨i, hi, he⟩ := List.mem_flatMap.1 he
    exact row_cols A hA i e (((h3 i (List.mem_range.1 hi)).1.mem_iff).1 he)

/-- Every matrix entry is unchanged. -/
theorem sort_entry [AddCommMonoid K] (A : CSR K) (hA : A.Valid) (i j : Nat) (hi : i < A.numRows) :
    (sortMatrix A).entry i j = A.entry i j := by
  obtain ⟨_, _, h⟩ := sort_rows A hA
  unfold CSR.entry
  exact (((h i hi).1.filter _).map _).sum_eq

/-- The product with the sorted matrix is the product with the original. -/
theorem sort_matvec [CommSemiring K] (c : Bool) (A : CSR K) (hA : A.Valid) (x y : List K)
    (hy : y.length = A.numRows) :
    ∀ i, i < A.numRows → (matvec c (sortMatrix A) x y).getD i 0 = (matvec c A x y).getD i 0 := by
  intro i hi
  rw [(C08.matvec_correct c _ (sort_rows A hA).2.1 x y hy).2 i hi,
    (C08.matvec_correct c A hA x y hy).2 i hi]
  exact Finset.sum_congr rfl fun j _ => by rw [sort_entry A hA i j hi]

/-- The flag returned by `sort_indices` says whether the rows were already non-decreasing. -/
theorem wasSorted_iff [Zero K] (A : CSR K) (hA : A.Valid) :
    (sortIndices A.indptr A.indices A.data).wasSorted = true ↔
      ∀ i, i < A.numRows → (A.row i).Pairwise fun a b => a.1 ≤ b.1 :=
  (rows_spec A hA).2.2.2

/-- `isSorted` answers True exactly if every row is strictly increasing. -/
theorem isSorted_correct (A : CSR K) (hA : A.Valid) :
    isSorted A.indptr A.indices = true ↔ A.Sorted := by
  rw [isSorted_iff A.indptr A.indices A.numRows hA.indptr]
  unfold CSR.Sorted
  simp only [row_fst A hA]

/-- After `sort_indices`, `isSorted` answers True exactly if no row repeats a column. -/
theorem isSorted_after_sort [Zero K] (A : CSR K) (hA : A.Valid) :
    isSorted (sortMatrix A).indptr (sortMatrix A).indices = true ↔
      ∀ i, i < A.numRows → ((A.row i).map Prod.fst).Nodup := by
  obtain ⟨_, hv, h⟩ := sort_rows A hA
  rw [isSorted_correct _ hv]
  constructor
  · intro hs i hi
    have h1 : (((sortMatrix A).row i).map Prod.fst).Nodup :=
      List.nodup_iff_pairwise_ne.2 ((hs i hi).imp fun h => by omega)
    exact (((h i hi).1.map Prod.fst).nodup_iff).1 h1
  · intro hn i hi
    have h1 := (((h i hi).1.map Prod.fst).nodup_iff).2 (hn i hi)
    have h2 : (((sortMatrix A).row i).map Prod.fst).Pairwise (· ≤ ·) :=
      List.pairwise_map.2 (h i hi).2
    exact (List.pairwise_and_iff.2 ⟨h2, List.nodup_iff_pairwise_ne.1 h1⟩).imp fun h => by omega

/-- Without values (`data` of a different length, e.g. a pattern) the indices of each row are
sorted and the values are not touched. -/
theorem sort_pattern [Zero K] (p idx : List Nat) (data : List K) (n : Nat)
    (hp : ValidIndptr p n idx.length) (hd : idx.length ≠ data.length) :
    let s := sortIndices p idx data
    s.data = data ∧ s.indices.length = idx.length ∧
      (∀ i, i < n → (csrRow p s.indices i).Perm (csrRow p idx i) ∧
        (csrRow p s.indices i).Pairwise (· ≤ ·)) ∧
      (s.wasSorted = true ↔ ∀ i, i < n → (csrRow p idx i).Pairwise (· ≤ ·)) := by
  have hn : p.length - 1 = n := by rw [hp.length]; rfl
  have g := gsort_rows id 0 p n idx hp
  unfold sortIndices
  simp only [if_neg hd, hn, sinkIdx_eq]
  exact ⟨trivial, g.1, g.2.1, g.2.2⟩

/-! ### Concrete cases -/

/-- `[[5, 0, 2], [0, 3, 0]]` with an unsorted first row and no repeated column. -/
def unsorted : CSR ℤ where
  indptr := [0, 2, 3]
  indices := [2, 0, 1]
  data := [2, 5, 3]
  numRows := 2
  numCols := 3

example : unsorted.Valid := ⟨⟨by decide, by decide, by decide, by decide⟩, by decide, by decide⟩
example : (sortMatrix unsorted).indices = [0, 2, 1] ∧ (sortMatrix unsorted).data = [5, 2, 3] ∧
    (sortIndices unsorted.indptr unsorted.indices unsorted.data).wasSorted = false ∧
    isSorted unsorted.indptr unsorted.indices = false ∧
    isSorted (sortMatrix unsorted).indptr (sortMatrix unsorted).indices = true := by
  decide +kernel

/-- The sample of C08 repeats a column: sorting does not make `isSorted` true. -/
example : isSorted (sortMatrix C08.sample).indptr (sortMatrix C08.sample).indices = false := by
  decide +kernel

end PyNucleus.Props.C10
