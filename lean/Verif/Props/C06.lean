import Verif.Proof.BitArray

/-!
# C06 Bit array is a set of indices and its iterator is safe

The set part is proved outright.  The iterator part is false of the code: when the largest
stored index is the last bit of the last word, the step after it reads past the array.
-/

namespace PyNucleus.Props.C06

open PyNucleus.BitArray

/-- After any sequence of `set` calls on a new bit array, `inSet` answers membership in the
set of indices that were set. -/
theorem inSet_correct (hint maxElement : Nat) (calls : List Nat) (i : Nat) :
    inSet (calls.foldl set (init hint maxElement)) i = decide (i ∈ calls) := by
  rw [inSet_eq_bit, bit_foldl_set, bit_init, Bool.or_false]

/-- `fromSet` replaces the content of any bit array by the given set. -/
theorem fromSet_correct (a : List Word) (s : List Nat) (i : Nat) :
    inSet (fromSet a s) i = decide (i ∈ s) := by
  rw [inSet_eq_bit, fromSet, bit_foldl_set, bit_empty, Bool.or_false]

/-- `getNumEntries` is the number of distinct members. -/
theorem getNumEntries_correct (a : List Word) :
    ∃ members : List Nat, members.Nodup ∧ (∀ i, i ∈ members ↔ inSet a i = true) ∧
      getNumEntries a = members.length := by
  refine ⟨bits a, (bits_sorted a).imp (fun h => by omega), fun i => ?_, ?_⟩
  · rw [mem_bits, inSet_eq_bit]
  · rw [getNumEntries, getNumEntries_from]; omega

/-- Union and intersection are set union and intersection, also for different lengths. -/
theorem union_correct (a b : List Word) (i : Nat) :
    inSet (union a b) i = (inSet a i || inSet b i) := by
  simp only [inSet_eq_bit, bit_union]

theorem inter_correct (a b : List Word) (i : Nat) :
    inSet (inter a b) i = (inSet a i && inSet b i) := by
  simp only [inSet_eq_bit, bit_inter]

/-- The full iterator claim, stated for reference: for every array iteration stays inside the
array and lists the members in increasing order. -/
def IteratorSafe (a : List Word) : Prop :=
  ∃ (fuel : Nat) (l : List Nat), drain a fuel Iter.reset = some (l.map fun (q : Nat) => (q : Int)) ∧
    l.Pairwise (· < ·) ∧ ∀ i, i ∈ l ↔ inSet a i = true

/-- The iterator claim holds for an array exactly when the last bit of its last word is
clear. -/
theorem iterator_safe_iff (a : List Word) (hne : a ≠ []) :
    IteratorSafe a ↔ inSet a (64 * a.length - 1) = false := by
  have hpos : 0 < a.length := List.length_pos_iff.2 hne
  rw [inSet_eq_bit]
  constructor
  · rintro ⟨fuel, l, h, _⟩
    cases hb : bit a (64 * a.length - 1) with
    | false => rfl
    | true => rw [drain_oob a hb hne fuel _ 0 at_reset (by omega)] at h; cases h
  · intro hb
    refine ⟨64 * a.length + 1, bitsFrom a 0,
      drain_ok a hb hne _ _ 0 at_reset (by omega) (by omega), bitsFrom_sorted a 0, fun i => ?_⟩
    rw [mem_bitsFrom, inSet_eq_bit]
    simp

/-- Iteration is correct whenever the last bit of the last word is not set.
Missing for the full claim: arrays whose last bit is set, where the code reads past the
end. -/
theorem iterator_correct_partial (a : List Word) (hne : a ≠ [])
    (hlast : inSet a (64 * a.length - 1) = false) : IteratorSafe a :=
  (iterator_safe_iff a hne).2 hlast

/-- The claim is false: a default bit array in which index 63 was set. -/
theorem iterator_reads_past_end : ¬ IteratorSafe (set (init 1 0) 63) := by
  rw [iterator_safe_iff _ (by decide)]
  decide

example : IteratorSafe (set (set (init 1 0) 5) 70) :=
  iterator_correct_partial _ (by decide) (by decide)
example : drain (set (set (init 1 0) 5) 70) 4 Iter.reset = some [5, 70] := by decide +kernel
example : getNumEntries (set (set (set (init 1 0) 5) 70) 5) = 2 := by decide +kernel

end PyNucleus.Props.C06
