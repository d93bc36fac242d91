import Verif.Proof.IndexSet

/-!
# C05 Index set operations are set operations

An array index set is represented by its strictly increasing array.
-/

namespace PyNucleus.Props.C05

open PyNucleus.IndexSet

/-- `union` succeeds, and its array is strictly increasing with exactly the members of
either operand. -/
theorem union_correct (a b : List Int) (ha : a.Pairwise (· < ·)) (hb : b.Pairwise (· < ·)) :
    ∃ c, union a b = some c ∧ c.Pairwise (· < ·) ∧ ∀ x, x ∈ c ↔ x ∈ a ∨ x ∈ b :=
  ⟨unionFill a b, by simp [union, fillNew, union_length], sorted_unionFill a b ha hb,
    mem_unionFill a b⟩

/-- `inter` succeeds, and its array is strictly increasing with exactly the common
members. -/
theorem inter_correct (a b : List Int) (ha : a.Pairwise (· < ·)) (hb : b.Pairwise (· < ·)) :
    ∃ c, inter a b = some c ∧ c.Pairwise (· < ·) ∧ ∀ x, x ∈ c ↔ x ∈ a ∧ x ∈ b :=
  ⟨interFill a b, by simp [inter, fillNew, inter_length], sorted_interFill a b ha hb,
    mem_interFill a b ha hb⟩

/-- `setminus` succeeds, and its array is strictly increasing with exactly the members of
the first operand that are not in the second. -/
theorem setminus_correct (a b : List Int) (ha : a.Pairwise (· < ·)) (hb : b.Pairwise (· < ·)) :
    ∃ c, setminus a b = some c ∧ c.Pairwise (· < ·) ∧ ∀ x, x ∈ c ↔ x ∈ a ∧ x ∉ b :=
  ⟨minusFill a b, by simp [setminus, fillNew, minus_length], sorted_minusFill a b ha hb,
    mem_minusFill a b ha hb⟩

/-- `inSet` decides membership without leaving the array, for every length. -/
theorem inSet_correct (a : List Int) (ha : a.Pairwise (· < ·)) (i : Int) :
    inSet a i = some (decide (i ∈ a)) := by
  have ha' : a.Pairwise (· ≤ ·) := ha.imp (fun h => Int.le_of_lt h)
  rcases search_spec a i ha' with ⟨k, hk, h1, h2⟩ | ⟨h1, h2⟩
  · have : i ∈ a := by rw [← h2]; exact List.getElem_mem hk
    simp [inSet, h1, this]
  · simp [inSet, h1, h2]

/-- `position` returns the index at which a member is stored, and `-1` for non-members. -/
theorem position_correct (a : List Int) (ha : a.Pairwise (· < ·)) (i : Int) :
    (∀ k : Nat, a[k]? = some i → position a i = some (k : Int)) ∧
    (i ∉ a → position a i = some (-1)) := by
  have ha' : a.Pairwise (· ≤ ·) := ha.imp (fun h => Int.le_of_lt h)
  rcases search_spec a i ha' with ⟨k, hk, h1, h2⟩ | ⟨h1, h2⟩
  · refine ⟨fun j hj => ?_, fun hn => absurd (h2 ▸ List.getElem_mem hk) hn⟩
    obtain ⟨hj', he⟩ := List.getElem?_eq_some_iff.1 hj
    rw [List.pairwise_iff_getElem] at ha
    have : k = j := by
      rcases Nat.lt_trichotomy k j with h | h | h
      · have := ha k j hk hj' h; omega
      · exact h
      · have := ha j k hj' hk h; omega
    subst this
    simp [position, h1]
  · refine ⟨fun j hj => absurd (List.mem_of_getElem? hj) h2, fun _ => by simp [position, h1]⟩

/-- The constructor turns any array of distinct vertex numbers into an index set with the
same members. -/
theorem constructor_correct (a : List Int) (hr : ∀ x ∈ a, 0 ≤ x ∧ x < 2147483648)
    (hn : a.Nodup) : (ofArray a).Pairwise (· < ·) ∧ ∀ x, x ∈ ofArray a ↔ x ∈ a := by
  refine ⟨?_, fun x => (ofArray_perm a).mem_iff⟩
  have h1 := ofArray_sorted a hr
  have h2 : (ofArray a).Nodup := (ofArray_perm a).nodup_iff.2 hn
  exact (h1.and h2).imp (fun ⟨h, h'⟩ => by omega)

/-- `isSorted` is true exactly for strictly increasing sets. -/
theorem isSorted_correct (a : List Int) : isSorted a = true ↔ a.Pairwise (· < ·) :=
  isSorted_iff a

/-- Iterating a range index set with positive increment terminates and lists
`start, start+inc, ...` strictly below the end, in increasing order. -/
theorem range_correct (start stop inc : Int) (hinc : 0 < inc) :
    ∃ fuel l, rangeCollect start stop inc fuel 0 = some l ∧ l.Pairwise (· < ·) ∧
      ∀ x, x ∈ l ↔ ∃ n : Nat, x = start + inc * n ∧ x < stop := by
  obtain ⟨l, h1, h2, h3⟩ := rangeCollect_pos start stop inc hinc (stop - start).toNat 0
    (by simp; omega)
  exact ⟨_, l, h1, h2, fun x => by simp [h3]⟩

/-! Hypotheses are met by non-trivial sets; evaluations as a check. -/

example : ((List.range 30).map fun k : Nat => (3 * k : Int)).Pairwise (· < ·) := by decide
example : union [1, 4, 7] [0, 4, 9, 10] = some [0, 1, 4, 7, 9, 10] := by decide +kernel
example : inter [1, 4, 7] [0, 4, 9, 10] = some [4] := by decide +kernel
example : setminus [1, 4, 7] [0, 4, 9, 10] = some [1, 7] := by decide +kernel
example : position ((List.range 30).map fun k : Nat => (3 * k : Int)) 45 = some 15 := by decide +kernel
example : ofArray [5, 2, 9, 0] = [0, 2, 5, 9] := by decide +kernel

end PyNucleus.Props.C05
