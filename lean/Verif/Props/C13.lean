import Verif.Proof.Drop
import Mathlib.Algebra.Ring.Int.Defs

/-!
# C13 Dropping entries in place

`kept R n` (the numbers below `n` outside `R`, in order) names the retained rows or columns; the
number of retained columns in front of column `j` is the new number of `j`.

Full property: the three routines keep exactly the retained entries, also for sparse graphs.
False for `dropColsInPlace` on a sparse graph (`drop_columns_graph_invalid`).
-/

namespace PyNucleus.Props.C13

open PyNucleus.Spec PyNucleus.CSR PyNucleus.Drop

variable {K : Type}

/-- `eliminate_zeros` keeps every matrix entry and stores exactly the non-zero stored entries,
in the old order. -/
theorem eliminate_zeros_correct [AddCommMonoid K] [DecidableEq K] (A : CSR K) (hA : A.Valid)
    (u : List Nat) (v : List K) (hu : u.length = numNonzeros A) (hv : v.length = numNonzeros A) :
    (eliminateZeros A u v).Valid ∧ (eliminateZeros A u v).numRows = A.numRows ∧
      (eliminateZeros A u v).numCols = A.numCols ∧
      (∀ i, i < A.numRows → (eliminateZeros A u v).row i = (A.row i).filter fun e => e.2 ≠ 0) ∧
      (∀ i j, i < A.numRows → (eliminateZeros A u v).entry i j = A.entry i j) := by
  obtain ⟨h1, h2, h3, h4⟩ := eliminateZeros_spec A hA u v hu hv
  refine ⟨h1, h2, h3, h4, fun i j hi => ?_⟩
  unfold CSR.entry
  rw [h4 i hi, nzRow]
  induction A.row i with
  | nil => rfl
  | cons a l ih =>
    by_cases ha : a.2 = 0
    · rw [List.filter_cons_of_neg (by simpa using ha), ih]
      by_cases hj : a.1 = j
      · rw [List.filter_cons_of_pos (by simpa using hj), List.map_cons, List.sum_cons, ha, zero_add]
      · rw [List.filter_cons_of_neg (by simpa using hj)]
    · rw [List.filter_cons_of_pos (by simpa using ha)]
      by_cases hj : a.1 = j
      · rw [List.filter_cons_of_pos (by simpa using hj), List.filter_cons_of_pos (by simpa using hj),
          List.map_cons, List.map_cons, List.sum_cons, List.sum_cons, ih]
      · rw [List.filter_cons_of_neg (by simpa using hj), List.filter_cons_of_neg (by simpa using hj), ih]

/-- `dropRowsInPlace` with increasing row numbers leaves exactly the other rows, in order.
`K = Unit` is the sparse graph. -/
theorem drop_rows_correct [Zero K] (A : CSR K) (hA : A.Valid) (R : List Nat)
    (hR : R.Pairwise (· < ·)) (hlt : ∀ r ∈ R, r < A.numRows) :
    (dropRows A R).Valid ∧ (dropRows A R).numCols = A.numCols ∧
      (List.range (dropRows A R).numRows).map (dropRows A R).row =
        ((List.range A.numRows).filter fun r => r ∉ R).map A.row := by
  obtain ⟨h1, h2, h3, h4⟩ := dropRows_spec A hA R hR hlt
  refine ⟨h1, h3, ?_⟩
  rw [h2]
  show _ = (kept R A.numRows).map A.row
  apply List.ext_getElem?
  intro i
  rw [List.getElem?_map, List.getElem?_map]
  rcases Nat.lt_or_ge i (kept R A.numRows).length with hi | hi
  · rw [List.getElem?_range hi, List.getElem?_eq_getElem hi]
    simp only [Option.map_some]
    rw [h4 i hi, List.getD_eq_getElem?_getD, List.getElem?_eq_getElem hi]
    rfl
  · rw [List.getElem?_eq_none (by simpa using hi), List.getElem?_eq_none hi]
    rfl

/-- `dropColsInPlace` for matrices with sorted rows and increasing column numbers: the column
`j` of the result that comes from the retained column `c` has the entries of column `c`, and
nothing else is stored. -/
theorem drop_columns_correct_partial [AddCommMonoid K] (A : CSR K) (hA : A.Valid) (cols : List Nat)
    (hc : cols.Pairwise (· < ·)) (hne : cols ≠ []) (hlt : ∀ c ∈ cols, c < A.numCols)
    (hs : ∀ i, i < A.numRows → ((A.row i).map Prod.fst).Pairwise (· ≤ ·)) :
    (dropCols A cols).Valid ∧ (dropCols A cols).numRows = A.numRows ∧
      (dropCols A cols).numCols = ((List.range A.numCols).filter fun c => c ∉ cols).length ∧
      (∀ i, i < A.numRows → ((dropCols A cols).row i).map Prod.snd =
        ((A.row i).filter fun e => e.1 ∉ cols).map Prod.snd) ∧
      ∀ i c, i < A.numRows → c ∉ cols →
        (dropCols A cols).entry i ((List.range c).filter fun c => c ∉ cols).length = A.entry i c := by
  obtain ⟨h1, h2, h3, h4⟩ := dropCols_spec A hA cols hc (List.length_pos_of_ne_nil hne) hlt hs
  refine ⟨h1, h2, h3, fun i hi => ?_, fun i c hi hcm => ?_⟩
  · rw [h4 i hi]
    induction A.row i with
    | nil => rfl
    | cons a l ih =>
      rw [List.filterMap_cons]
      by_cases ha : a.1 ∈ cols
      · rw [List.filter_cons_of_neg (by simpa using ha), ← ih]
        simp [colKeep, ha]
      · rw [List.filter_cons_of_pos (by simpa using ha), List.map_cons, ← ih]
        simp [colKeep, ha]
  · show (dropCols A cols).entry i (kept cols c).length = _
    unfold CSR.entry
    rw [h4 i hi]
    induction A.row i with
    | nil => rfl
    | cons a l ih =>
      rw [List.filterMap_cons]
      by_cases ha : a.1 ∈ cols
      · have hac : a.1 ≠ c := fun e => hcm (e ▸ ha)
        rw [List.filter_cons_of_neg (a := a) (by simpa using hac), ← ih]
        simp [colKeep, ha]
      · have hk : colKeep cols a = some ((kept cols a.1).length, a.2) := by simp [colKeep, ha]
        rw [hk]
        by_cases hac : a.1 = c
        · rw [List.filter_cons_of_pos (a := a) (by simpa using hac)]
          simp only
          rw [List.filter_cons_of_pos (by simp [hac]), List.map_cons, List.map_cons, List.sum_cons,
            List.sum_cons, ih]
        · rw [List.filter_cons_of_neg (a := a) (by simpa using hac)]
          simp only
          have hne : (kept cols a.1).length ≠ (kept cols c).length := by
            rcases Nat.lt_or_gt_of_ne hac with h | h
            · have := kept_lt cols a.1 c h ha; omega
            · have := kept_lt cols c a.1 h hcm; omega
          rw [List.filter_cons_of_neg (by simpa using hne), ih]

/-! ### Concrete cases -/

/-- `[[1, 0, 2, 3], [0, 0, 4, 0], [5, 6, 0, 7]]` with one explicit zero. -/
def sample : CSR ℤ where
  indptr := [0, 3, 5, 8]
  indices := [0, 2, 3, 1, 2, 0, 1, 3]
  data := [1, 2, 3, 0, 4, 5, 6, 7]
  numRows := 3
  numCols := 4

example : sample.Valid ∧ (∀ i, i < sample.numRows → ((sample.row i).map Prod.fst).Pairwise (· ≤ ·)) ∧
    numNonzeros sample = 7 ∧ [1].Pairwise (· < ·) ∧ [1, 2].Pairwise (· < ·) := by
  refine ⟨⟨⟨by decide, by decide, by decide, by decide⟩, by decide, by decide⟩, ?_, by decide,
    by decide, by decide⟩
  show ∀ i, i < 3 → _
  decide

example : (dropRows sample [1]).indptr = [0, 3, 6] ∧ (dropRows sample [1]).data = [1, 2, 3, 5, 6, 7] := by
  decide

example : (dropCols sample [1, 2]).indptr = [0, 2, 2, 4] ∧ (dropCols sample [1, 2]).indices = [0, 1, 0, 1] ∧
    (dropCols sample [1, 2]).data = [1, 3, 5, 7] := by
  decide +kernel

/-- Two edges `0 -> 0`, `1 -> 1`. -/
def graph : Graph := ⟨[0, 1, 2], [0, 1], 2, 2⟩

/-- The full property is false: dropping a column of a sparse graph in place reads an array
that was never assigned. -/
theorem drop_columns_graph_invalid : ∃ G : Graph, G.toCSR.Valid ∧ G.toCSR.Sorted ∧
    ∃ cols : List Nat, cols.Pairwise (· < ·) ∧ cols ≠ [] ∧ (∀ c ∈ cols, c < G.numCols) ∧
      dropColsGraph G cols = none := by
  refine ⟨graph, ⟨⟨by decide, by decide, by decide, by decide⟩, by decide, by decide⟩, ?_, [0],
    by decide, by decide, by decide, by decide +kernel⟩
  show ∀ i, i < 2 → _
  decide

/-- The hypothesis on sorted rows is needed: with an unsorted row the dropped column may stay. -/
theorem drop_columns_unsorted : ∃ A : CSR ℤ, A.Valid ∧ ∃ cols : List Nat, cols.Pairwise (· < ·) ∧
    cols ≠ [] ∧ (∀ c ∈ cols, c < A.numCols) ∧ (dropCols A cols).data ≠
      ((A.row 0).filter fun e => e.1 ∉ cols).map Prod.snd := by
  refine ⟨⟨[0, 2], [2, 0], [2, 1], 1, 3⟩, ⟨⟨by decide, by decide, by decide, by decide⟩, by decide, by decide⟩,
    [0, 1], by decide, by decide, by decide, by decide +kernel⟩

end PyNucleus.Props.C13
