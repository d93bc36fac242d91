import Verif.Model.Segments
import Mathlib.Data.List.GetD
import Mathlib.Logic.Relation
import Mathlib.Tactic.Linarith
import Mathlib.Tactic.Ring

/-! Lemmas for C90. -/

namespace PyNucleus.Segments

theorem assign_snoc (pairs : List (Nat × Nat)) (p : Nat × Nat) (i : Nat) : assign (pairs ++ [p]) i = if i = max p.1 p.2 then some (min p.1 p.2) else assign pairs i := by
  unfold assign
  rw [List.foldl_append]
  rfl

theorem assign_spec (pairs : List (Nat × Nat)) (i : Nat) : (assign pairs i = none ↔ ∀ p ∈ pairs, max p.1 p.2 ≠ i) ∧
    ∀ j, assign pairs i = some j → ∃ p ∈ pairs, max p.1 p.2 = i ∧ min p.1 p.2 = j := by
  induction pairs using List.reverseRecOn with
  | nil => exact ⟨by simp [assign], by simp [assign]⟩
  | append_singleton pairs p ih =>
    rw [assign_snoc]
    split
    · rename_i h
      refine ⟨?_, fun j hj => ⟨p, by simp, h.symm, by injection hj⟩⟩
      constructor
      · intro h; exact absurd h (by simp)
      · intro h'; exact absurd h.symm (h' p (by simp))
    · rename_i h
      constructor
      · rw [ih.1]
        constructor
        · intro h' q hq
          rcases List.mem_append.1 hq with hq | hq
          · exact h' q hq
          · rw [List.mem_singleton.1 hq]; exact Ne.symm h
        · intro h' q hq; exact h' q (by simp [hq])
      · intro j hj
        obtain ⟨q, hq, h1⟩ := ih.2 j hj
        exact ⟨q, by simp [hq], h1⟩

theorem number_succ (a : Nat → Option Nat) (n : Nat) : number a (n + 1) = match a n with
    | none => ((number a n).1 ++ [(number a n).2.length], (number a n).2 ++ [n])
    | some j => ((number a n).1 ++ [(number a n).1.getD j 0], (number a n).2) := by
  unfold number
  rw [List.range_succ, List.foldl_append]
  rfl

theorem getD_snoc {α : Type} (l : List α) (x d : α) : (l ++ [x]).getD l.length d = x := by
  rw [List.getD_append_right _ _ _ _ (le_refl _), Nat.sub_self]; rfl

theorem number_spec (a : Nat → Option Nat) (ha : ∀ i j, a i = some j → j < i) (n : Nat) : (number a n).1.length = n ∧ (number a n).2.Pairwise (· < ·) ∧
    (∀ i, i ∈ (number a n).2 ↔ i < n ∧ a i = none) ∧
    ∀ i, i < n → (number a n).1.getD i 0 < (number a n).2.length ∧ (a i = none → (number a n).2.getD ((number a n).1.getD i 0) 0 = i) ∧
      ∀ j, a i = some j → (number a n).1.getD i 0 = (number a n).1.getD j 0 := by
  induction n with
  | zero => unfold number; simp
  | succ n ih =>
    obtain ⟨h1, h2, h3, h4⟩ := ih
    rw [number_succ]
    cases han : a n with
    | none =>
      dsimp only
      refine ⟨by rw [List.length_append, h1]; rfl, ?_, ?_, ?_⟩
      · rw [List.pairwise_append]
        refine ⟨h2, by simp, fun i hi j hj => ?_⟩
        rw [List.mem_singleton.1 hj]
        exact ((h3 i).1 hi).1
      · intro i
        rw [List.mem_append, h3, List.mem_singleton]
        constructor
        · rintro (h | rfl)
          · exact ⟨by omega, h.2⟩
          · exact ⟨by omega, han⟩
        · rintro ⟨hi, hn⟩
          rcases Nat.lt_or_ge i n with h | h
          · exact Or.inl ⟨h, hn⟩
          · exact Or.inr (by omega)
      · intro i hi
        rw [List.length_append, List.length_singleton]
        rcases Nat.lt_or_ge i n with h | h
        · obtain ⟨g1, g2, g3⟩ := h4 i h
          rw [List.getD_append _ _ _ _ (by omega)]
          refine ⟨by omega, fun hn => by rw [List.getD_append _ _ _ _ g1]; exact g2 hn, fun j hj => ?_⟩
          have := ha i j hj
          rw [List.getD_append _ _ _ _ (by omega)]
          exact g3 j hj
        · obtain rfl : i = n := by omega
          have e : ((number a i).1 ++ [(number a i).2.length]).getD i 0 = (number a i).2.length := by
            conv_lhs => rw [show i = (number a i).1.length from h1.symm]
            rw [h1]
            conv_lhs => rw [show ∀ l x, (List.getD (l ++ [x]) i 0) = List.getD (l ++ [x]) i 0 from fun _ _ => rfl]
            rw [List.getD_append_right _ _ _ _ (by omega), h1, Nat.sub_self]
            rfl
          rw [e]
          refine ⟨by omega, fun _ => getD_snoc _ _ _, fun j hj => ?_⟩
          rw [han] at hj
          exact absurd hj (by simp)
    | some k =>
      dsimp only
      have hk := ha n k han
      refine ⟨by rw [List.length_append, h1]; rfl, h2, ?_, ?_⟩
      · intro i
        rw [h3]
        constructor
        · rintro ⟨h, hn⟩; exact ⟨by omega, hn⟩
        · rintro ⟨h, hn⟩
          refine ⟨?_, hn⟩
          rcases Nat.lt_or_ge i n with h' | h'
          · exact h'
          · obtain rfl : i = n := by omega
            rw [han] at hn
            exact absurd hn (by simp)
      · intro i hi
        rcases Nat.lt_or_ge i n with h | h
        · obtain ⟨g1, g2, g3⟩ := h4 i h
          rw [List.getD_append _ _ _ _ (by omega)]
          refine ⟨g1, g2, fun j hj => ?_⟩
          have := ha i j hj
          rw [List.getD_append _ _ _ _ (by omega)]
          exact g3 j hj
        · obtain rfl : i = n := by omega
          have e : ∀ x, ((number a i).1 ++ [x]).getD i 0 = x := fun x => by
            rw [List.getD_append_right _ _ _ _ (by omega), h1, Nat.sub_self]; rfl
          rw [e]
          refine ⟨(h4 k hk).1, fun hn => ?_, fun j hj => ?_⟩
          · rw [han] at hn; exact absurd hn (by simp)
          · rw [han] at hj
            injection hj with hj
            subst hj
            rw [List.getD_append _ _ _ _ (by omega)]

/-- The kept index to which an index is mapped. -/
def root (a : Nat → Option Nat) (n i : Nat) : Nat := (number a n).2.getD ((number a n).1.getD i 0) 0

theorem root_chain (a : Nat → Option Nat) (ha : ∀ i j, a i = some j → j < i) (n : Nat) : ∀ i, i < n →
    root a n i < n ∧ a (root a n i) = none ∧ Relation.ReflTransGen (fun i j => a i = some j) i (root a n i) := by
  obtain ⟨_, _, h3, h4⟩ := number_spec a ha n
  intro i
  induction i using Nat.strong_induction_on with
  | _ i ih =>
    intro hi
    have hg := h4 i hi
    have hm := (h3 (root a n i)).1 (by unfold root; rw [List.getD_eq_getElem _ _ hg.1]; exact List.getElem_mem _)
    refine ⟨hm.1, hm.2, ?_⟩
    cases hai : a i with
    | none => unfold root; rw [hg.2.1 hai]
    | some j =>
      have hj := ha i j hai
      have he : root a n i = root a n j := by unfold root; rw [hg.2.2 j hai]
      rw [he]
      exact Relation.ReflTransGen.head hai (ih j hj (by omega)).2.2

theorem len_nonneg (p : Point) : 0 ≤ len p := Real.sqrt_nonneg _

theorem len_sq (p : Point) : len p ^ 2 = p.1 ^ 2 + p.2 ^ 2 := Real.sq_sqrt (by positivity)

theorem len_neg (p q : Point) : len (p - q) = len (q - p) := by
  unfold len
  congr 1
  simp only [Prod.fst_sub, Prod.snd_sub]
  ring

theorem len_zero (p : Point) : len p = 0 ↔ p = 0 := by
  constructor
  · intro h
    have := len_sq p
    rw [h] at this
    have h1 : p.1 ^ 2 = 0 := by nlinarith [sq_nonneg p.1, sq_nonneg p.2]
    have h2 : p.2 ^ 2 = 0 := by nlinarith [sq_nonneg p.1, sq_nonneg p.2]
    exact Prod.ext (by simpa using h1) (by simpa using h2)
  · rintro rfl; unfold len; simp

end PyNucleus.Segments
