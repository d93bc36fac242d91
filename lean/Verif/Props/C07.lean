import Verif.Proof.ProductIterator

/-!
# C07 Product iterator visits every multi-index once
-/

namespace PyNucleus.Props.C07

open PyNucleus.ProductIterator

/-- Strictly smaller in lexicographic order: equal up to some position, smaller there. -/
def LexLT (s t : List Int) : Prop :=
  ∃ p : Nat, ∃ x y : Int, s[p]? = some x ∧ t[p]? = some y ∧ x < y ∧ s.take p = t.take p

theorem lexLT_of_lex : ∀ {s t : List Int}, s.length = t.length → Lex s t → LexLT s t := by
  intro s
  induction s with
  | nil => intro t h1 h2; cases t <;> simp [Lex] at h1 h2
  | cons x s ih =>
    intro t h1 h2
    cases t with
    | nil => simp at h1
    | cons y t =>
      rcases h2 with h | ⟨rfl, h⟩
      · exact ⟨0, x, y, rfl, rfl, h, rfl⟩
      · obtain ⟨p, a, b, e1, e2, e3, e4⟩ := ih (by simpa using h1) h
        exact ⟨p + 1, a, b, by simpa using e1, by simpa using e2, e3, by simp [e4]⟩

/-- For `m ≥ 1` and `dim ≥ 1`, stepping from `reset` until `False` yields `m^dim` arrays,
in strictly increasing lexicographic order (hence each once), and an array is among them
exactly when it has `dim` entries in `[0, m)`. -/
theorem product_iterator_complete (m dim : Nat) (hm : 1 ≤ m) (hd : 1 ≤ dim) :
    ∃ (fuel : Nat) (l : List (List Int)), drain m fuel (reset dim) = some l ∧
      l.length = m ^ dim ∧ l.Pairwise LexLT ∧
      ∀ t, t ∈ l ↔ t.length = dim ∧ ∀ x ∈ t, 0 ≤ x ∧ x < m := by
  obtain ⟨d, rfl⟩ : ∃ d, dim = d + 1 := ⟨dim - 1, by omega⟩
  obtain ⟨rest, h1, h2⟩ := yields_all m hm d
  have hy : Yields m (reset (d + 1)) (allTuples m (d + 1)) (List.replicate (d + 1) 0) := by
    rw [h1]; exact Yields.next (step_reset m hm d) h2
  refine ⟨_, allTuples m (d + 1), drain_of_yields hy, allTuples_length m _, ?_,
    allTuples_mem m (d + 1)⟩
  refine (allTuples_sorted m (d + 1)).imp_of_mem ?_
  intro a b ha hb hab
  exact lexLT_of_lex (by rw [((allTuples_mem m _ a).1 ha).1, ((allTuples_mem m _ b).1 hb).1]) hab

/-- `m ≥ 1` is needed: for `m = 0` and two dimensions the first step reports success with an
index outside the range, although there is no tuple at all. -/
theorem empty_range_yields : step 0 (reset 2) = ([1, 0], true) := by decide

example : drain 2 9 (reset 3) = some [[0, 0, 0], [0, 0, 1], [0, 1, 0], [0, 1, 1], [1, 0, 0],
    [1, 0, 1], [1, 1, 0], [1, 1, 1]] := by decide +kernel

end PyNucleus.Props.C07
