import Verif.Proof.Transpose
import Verif.Props.C08

/-!
# C09 CSR transpose

`u`, `v` are the contents of the uninitialised output arrays; nothing of them survives.
-/

namespace PyNucleus.Props.C09

open PyNucleus.CSR PyNucleus.Spec PyNucleus.Loops

variable {K : Type}

/-- `A.transpose()` has the swapped shape, valid arrays, as many stored entries as `A`, and
entry `(j, i)` equal to entry `(i, j)` of `A`. -/
theorem transpose_correct [AddCommMonoid K] (A : CSR K) (hA : A.Valid) (u : List Nat) (v : List K)
    (hu : u.length = A.indices.length) (hv : v.length = A.indices.length) :
    let T := transpose A u v
    T.numRows = A.numCols ∧ T.numCols = A.numRows ∧ T.Valid ∧
      T.indices.length = A.indices.length ∧
      ∀ i j, i < A.numRows → j < A.numCols → T.entry j i = A.entry i j := by
  obtain ⟨h1, h2⟩ := transpose_spec A hA u v hu hv
  refine ⟨rfl, rfl, h1, ?_, fun i j hi hj => ?_⟩
  · have e := forEntries_eq A hA
      (cumsum A.numCols (countKeys A.numCols ((items A).map Prod.fst)), u, v)
      (fun s i c d => (s.1.modify c (· + 1), s.2.1.set (s.1.getD c 0) i, s.2.2.set (s.1.getD c 0) d))
    have hl := items_length A hA
    have h := fill_halves A.numCols (items A) (items_cols A hA) u v (by omega) (by omega)
      (rotate A.numCols) (rotate_getD A.numCols)
    unfold transpose
    simp only [countKeys_items A hA, e]
    rw [← hl]
    exact h.2.1
  · unfold CSR.entry
    rw [h2 j hj, items_filter]
    have := filter_flatMap_key (fun i => ((A.row i).filter fun e => e.1 = j).map Prod.snd)
      A.numRows i hi
    simp only [List.map_map, Function.comp_def] at this
    rw [this]

/-- The rows of the transpose are sorted by column: non-decreasing always, strictly increasing
if `A` has no repeated column within a row. -/
theorem transpose_rows_sorted [AddCommMonoid K] (A : CSR K) (hA : A.Valid) (u : List Nat)
    (v : List K) (hu : u.length = A.indices.length) (hv : v.length = A.indices.length) :
    (∀ c, c < A.numCols → (((transpose A u v).row c).map Prod.fst).Pairwise (· ≤ ·)) ∧
      ((∀ i, i < A.numRows → ((A.row i).map Prod.fst).Nodup) → (transpose A u v).Sorted) := by
  obtain ⟨_, h2⟩ := transpose_spec A hA u v hu hv
  have mono : ∀ c, c < A.numCols →
      (((transpose A u v).row c).map Prod.fst).Pairwise (· ≤ ·) := by
    intro c hc
    rw [h2 c hc, items_filter]
    have := pairwise_flatMap_key (fun i => ((A.row i).filter fun e => e.1 = c).map Prod.snd) A.numRows
    simp only [List.map_map, Function.comp_def] at this
    exact this
  refine ⟨mono, fun hnd c hc => ?_⟩
  have hnodup : (((transpose A u v).row c).map Prod.fst).Nodup := by
    rw [h2 c hc, items_filter, List.map_flatMap]
    rw [List.nodup_iff_pairwise_ne, List.pairwise_flatMap]
    refine ⟨fun i hi => ?_, ?_⟩
    · rw [List.map_map]
      have hlen : ((A.row i).filter fun e => e.1 = c).length ≤ 1 := by
        have hn := hnd i (List.mem_range.1 hi)
        have hc1 := List.nodup_iff_count.1 hn c
        rw [← List.countP_eq_length_filter]
        rw [List.count, List.countP_map] at hc1
        refine Nat.le_trans (Nat.le_of_eq ?_) hc1
        congr 1
      generalize (A.row i).filter (fun e => decide (e.1 = c)) = l at hlen
      match l, hlen with
      | [], _ => simp
      | [a], _ => simp
    · refine List.Pairwise.imp (R := fun a b => a < b) ?_ (List.pairwise_lt_range)
      intro a b hab x hx y hy
      obtain ⟨e, he, rfl⟩ := List.mem_map.1 hx
      obtain ⟨_, _, rfl⟩ := List.mem_map.1 he
      obtain ⟨e', he', rfl⟩ := List.mem_map.1 hy
      obtain ⟨_, _, rfl⟩ := List.mem_map.1 he'
      simp only; omega
  have := List.pairwise_and_iff.2 ⟨mono c hc, List.nodup_iff_pairwise_ne.1 hnodup⟩
  exact this.imp fun h => by omega

/-- Transposing twice gives the entries of `A`. -/
theorem transpose_transpose [AddCommMonoid K] (A : CSR K) (hA : A.Valid) (u u' : List Nat)
    (v v' : List K) (hu : u.length = A.indices.length) (hv : v.length = A.indices.length)
    (hu' : u'.length = A.indices.length) (hv' : v'.length = A.indices.length) :
    let T := transpose (transpose A u v) u' v'
    T.numRows = A.numRows ∧ T.numCols = A.numCols ∧ T.Valid ∧
      ∀ i j, i < A.numRows → j < A.numCols → T.entry i j = A.entry i j := by
  obtain ⟨h1, h2, h3, h4, h5⟩ := transpose_correct A hA u v hu hv
  obtain ⟨_, _, g3, _, g5⟩ := transpose_correct (transpose A u v) h3 u' v' (by omega) (by omega)
  refine ⟨rfl, rfl, g3, fun i j hi hj => ?_⟩
  rw [← h5 i j hi hj]
  exact g5 j i hj hi

/-- The product with the transpose is the transposed product of the original (real scalars). -/
theorem transpose_matvec [CommSemiring K] (A : CSR K) (hA : A.Valid) (u : List Nat) (v : List K)
    (hu : u.length = A.indices.length) (hv : v.length = A.indices.length) (x y z : List K)
    (hy : y.length = A.numCols) (hz : z.length = A.numCols) :
    ∀ j, j < A.numCols →
      (matvec false (transpose A u v) x y).getD j 0 = (matvecTrans false A x z).getD j 0 := by
  obtain ⟨_, _, h3, _, h5⟩ := transpose_correct A hA u v hu hv
  intro j hj
  rw [(C08.matvec_correct false _ h3 x y hy).2 j hj,
    (C08.matvecTrans_correct_partial A hA x z hz).2 j hj]
  exact Finset.sum_congr rfl fun i hi => by
    rw [h5 i j (Finset.mem_range.1 hi) hj]

/-- `sparseGraph.transpose`: row `c` of the result lists, in increasing order, the rows in which
`c` occurs (as often as it occurs). -/
theorem graph_transpose_correct (G : Graph) (hp : ValidIndptr G.indptr G.numRows G.indices.length)
    (hc : ∀ j ∈ G.indices, j < G.numCols) (u : List Nat) (hu : u.length = G.indices.length) :
    let T := G.transpose u
    T.numRows = G.numCols ∧ T.numCols = G.numRows ∧
      ValidIndptr T.indptr T.numRows T.indices.length ∧ (∀ j ∈ T.indices, j < T.numCols) ∧
      ∀ c, c < G.numCols → csrRow T.indptr T.indices c =
        (List.range G.numRows).flatMap fun i =>
          List.replicate ((csrRow G.indptr G.indices i).count c) i := by
  have hA : G.toCSR.Valid := ⟨hp, by simp [Graph.toCSR], hc⟩
  have ht := Graph.transpose_eq G u u
  obtain ⟨h1, h2⟩ := transpose_spec G.toCSR hA u u hu hu
  simp only
  rw [ht]
  refine ⟨rfl, rfl, h1.indptr, h1.cols, fun c hcc => ?_⟩
  have := h2 c hcc
  have hz : ∀ (A : CSR Nat), A.Valid → ∀ i, (A.row i).map Prod.fst = csrRow A.indptr A.indices i := by
    intro A hA i
    unfold CSR.row csrRow
    rw [List.map_take, List.map_drop, List.map_fst_zip (by rw [hA.data])]
  rw [← hz _ h1 c, this, items_filter, List.map_flatMap]
  congr 1
  funext i
  rw [show csrRow G.indptr G.indices i = _ from (hz _ hA i).symm, List.map_map]
  generalize (G.toCSR.row i) = l
  induction l with
  | nil => rfl
  | cons a t ih =>
    by_cases h : a.1 = c
    · simp [h, List.replicate_succ] ; simpa using ih
    · simp [h]; simpa using ih

/-! ### Concrete case: the sample of C08 (unsorted row, repeated column) -/

example : C08.sample.Valid := C08.sample_valid
example : (transpose C08.sample [9, 9, 9, 9] [8, 8, 8, 8]).indptr = [0, 2, 3, 4] ∧
    (transpose C08.sample [9, 9, 9, 9] [8, 8, 8, 8]).indices = [0, 0, 1, 0] ∧
    (transpose C08.sample [9, 9, 9, 9] [8, 8, 8, 8]).data = [1, 4, 3, 2] := by decide

end PyNucleus.Props.C09
