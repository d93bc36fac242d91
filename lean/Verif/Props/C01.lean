import Verif.Proof.SparsityPattern
import Verif.Proof.CSRLayout
import Mathlib.Data.List.Perm.Subperm

/-!
# C01 Sparsity pattern is the set of added pairs
-/

namespace PyNucleus.Props.C01

open PyNucleus.SparsityPattern PyNucleus.Spec PyNucleus.SortedRow

/-- The calls touch existing rows and no row receives more distinct columns than the
`uint16_t` bookkeeping of the class can record. -/
structure Admissible (n il : Nat) (calls : List (Nat × Int)) : Prop where
  pos : 0 < il
  rows : ∀ c ∈ calls, c.1 < n
  cap : ∀ (i : Nat) (l : List Int), l.Nodup → (∀ J ∈ l, (i, J) ∈ calls) → l.length + il ≤ 65536

/-- Every sequence of `add` calls succeeds (no access outside allocated memory) and
`freeze` returns a valid row pointer and, for every row, the strictly increasing list of
exactly the columns added to that row. -/
theorem pattern_is_sorted_set (n il : Nat) (calls : List (Nat × Int))
    (h : Admissible n il calls) :
    ∃ s, (SP.init n il).addAll calls = some s ∧
      ValidIndptr s.freeze.1 n s.freeze.2.length ∧ s.nnz = s.freeze.2.length ∧
      ∀ i, i < n →
        (csrRow s.freeze.1 s.freeze.2 i).Pairwise (· < ·) ∧
        ∀ J, J ∈ csrRow s.freeze.1 s.freeze.2 i ↔ (i, J) ∈ calls := by
  obtain ⟨s, h1, h2⟩ := addAll_inv n il h.pos calls h.cap h.rows calls [] _ (inv_init n il) rfl
  refine ⟨s, h1, ?_⟩
  have hcount : s.rows.map Row.count = (s.rows.map Row.keys).map List.length := by
    rw [List.map_map]
    apply List.map_congr_left
    intro r hr
    obtain ⟨i, hi, rfl⟩ := List.mem_iff_getElem.1 hr
    simp [Row.keys, (h2.wf i hi).live_length]
  have hf : s.freeze = (indptrFrom 0 ((s.rows.map Row.keys).map List.length),
      (s.rows.map Row.keys).flatten) := by
    unfold SP.freeze
    rw [hcount]
    rfl
  rw [hf]
  have hv := validIndptr_indptrFrom (s.rows.map Row.keys)
  rw [List.length_map, h2.len] at hv
  refine ⟨hv, ?_, fun i hi => ?_⟩
  · rw [h2.nnz, hcount, List.length_flatten]
  · have hi' : i < (s.rows.map Row.keys).length := by rw [List.length_map, h2.len]; exact hi
    have hi'' : i < s.rows.length := by rw [h2.len]; exact hi
    simp only [csrRow_flatten _ _ hi', List.getElem_map]
    refine ⟨?_, h2.mem i hi''⟩
    unfold Row.keys
    rw [List.pairwise_map]
    exact (h2.wf i hi'').live_sorted

/-- A strictly increasing list is determined by its members. -/
theorem sorted_ext : ∀ {l l' : List Int}, l.Pairwise (· < ·) → l'.Pairwise (· < ·) →
    (∀ J, J ∈ l ↔ J ∈ l') → l = l' := by
  intro l
  induction l with
  | nil =>
    intro l' _ _ h
    cases l' with
    | nil => rfl
    | cons a t => exact absurd ((h a).2 (by simp)) (by simp)
  | cons a t ih =>
    intro l' h1 h2 h
    cases l' with
    | nil => exact absurd ((h a).1 (by simp)) (by simp)
    | cons b t' =>
      rw [List.pairwise_cons] at h1 h2
      have hab : a = b := by
        have ha := (h a).1 (by simp)
        have hb := (h b).2 (by simp)
        rcases List.mem_cons.1 ha with e | ha
        · exact e
        · rcases List.mem_cons.1 hb with e | hb
          · exact e.symm
          · have := h2.1 a ha; have := h1.1 b hb; omega
      subst hab
      congr 1
      apply ih h1.2 h2.2
      intro J
      constructor
      · intro hJ
        have := h1.1 J hJ
        rcases List.mem_cons.1 ((h J).1 (List.mem_cons_of_mem _ hJ)) with e | h'
        · omega
        · exact h'
      · intro hJ
        have := h2.1 J hJ
        rcases List.mem_cons.1 ((h J).2 (List.mem_cons_of_mem _ hJ)) with e | h'
        · omega
        · exact h'

/-- Order and repetition of the calls are irrelevant: call sequences with the same set of
pairs give the same rows. -/
theorem pattern_order_independent (n il il' : Nat) (calls calls' : List (Nat × Int))
    (h : Admissible n il calls) (h' : Admissible n il' calls')
    (hset : ∀ c, c ∈ calls ↔ c ∈ calls') :
    ∃ s s', (SP.init n il).addAll calls = some s ∧ (SP.init n il').addAll calls' = some s' ∧
      ∀ i, i < n → csrRow s.freeze.1 s.freeze.2 i = csrRow s'.freeze.1 s'.freeze.2 i := by
  obtain ⟨s, h1, _, _, h2⟩ := pattern_is_sorted_set n il calls h
  obtain ⟨s', h1', _, _, h2'⟩ := pattern_is_sorted_set n il' calls' h'
  refine ⟨s, s', h1, h1', fun i hi => ?_⟩
  apply sorted_ext (h2 i hi).1 (h2' i hi).1
  intro J
  rw [(h2 i hi).2, (h2' i hi).2, hset]

/-- A concrete admissible sequence with repetitions and unsorted insertions. -/
def sampleCalls : List (Nat × Int) := [(1, 5), (0, 3), (1, 2), (1, 5), (2, 0), (1, 9)]

example : Admissible 3 2 sampleCalls where
  pos := by decide
  rows := by decide
  cap := by
    intro i l hn hl
    have : l.length ≤ 5 := by
      have hsub : l ⊆ [5, 3, 2, 0, 9] := by
        intro J hJ
        have := hl J hJ
        simp [sampleCalls] at this
        simp only [List.mem_cons, List.not_mem_nil, or_false]
        omega
      exact (List.subperm_of_subset hn hsub).length_le
    omega

example : ((SP.init 3 2).addAll sampleCalls).map SP.freeze =
    some ([0, 1, 4, 5], [3, 2, 5, 9, 0]) := by decide

end PyNucleus.Props.C01
