import Verif.Model.PartitionNumbers
import Mathlib.Tactic.Linarith
import Mathlib.Data.List.GetD
import Mathlib.Data.List.Perm.Subperm
import Mathlib.Algebra.BigOperators.Group.List.Lemmas
import Mathlib.Tactic.NormNum
import Mathlib.Tactic.FieldSimp
import Mathlib.Tactic.Ring

/-!
# Lemmas on the numbers of partitions
-/

namespace PyNucleus.PartitionNumbers

theorem around_spec (x : ℚ) : x - around x ≤ 1 / 2 ∧ -(1 / 2) ≤ x - around x := by
  have h1 := Int.floor_le x
  have h2 := Int.lt_floor_add_one x
  unfold around
  dsimp only
  split
  · constructor <;> linarith
  · split
    · push_cast; constructor <;> linarith
    · split
      · constructor <;> linarith
      · push_cast; constructor <;> linarith

theorem foldr_max_mem : ∀ (l : List ℚ) (a : ℚ), l.foldr max a = a ∨ l.foldr max a ∈ l
  | [], _ => Or.inl rfl
  | x :: xs, a => by
    simp only [List.foldr_cons]
    rcases max_choice x (xs.foldr max a) with h | h
    · rw [h]; exact Or.inr List.mem_cons_self
    · rw [h]
      rcases foldr_max_mem xs a with h' | h'
      · exact Or.inl h'
      · exact Or.inr (List.mem_cons_of_mem _ h')

theorem le_foldr_max : ∀ (l : List ℚ) (a x : ℚ), x ∈ l → x ≤ l.foldr max a
  | y :: ys, a, x, h => by
    simp only [List.foldr_cons]
    rcases List.mem_cons.1 h with rfl | h
    · exact le_max_left _ _
    · exact (le_foldr_max ys a x h).trans (le_max_right _ _)

theorem foldr_min_mem : ∀ (l : List ℚ) (a : ℚ), l.foldr min a = a ∨ l.foldr min a ∈ l
  | [], _ => Or.inl rfl
  | x :: xs, a => by
    simp only [List.foldr_cons]
    rcases min_choice x (xs.foldr min a) with h | h
    · rw [h]; exact Or.inr List.mem_cons_self
    · rw [h]
      rcases foldr_min_mem xs a with h' | h'
      · exact Or.inl h'
      · exact Or.inr (List.mem_cons_of_mem _ h')

theorem foldr_min_le : ∀ (l : List ℚ) (a x : ℚ), x ∈ l → l.foldr min a ≤ x
  | y :: ys, a, x, h => by
    simp only [List.foldr_cons]
    rcases List.mem_cons.1 h with rfl | h
    · exact min_le_left _ _
    · exact (min_le_right _ _).trans (foldr_min_le ys a x h)

theorem argmax_spec (l : List ℚ) (h : l ≠ []) : ∃ hi : argmax l < l.length, ∀ x ∈ l, x ≤ l[argmax l] := by
  have hm : l.foldr max (l.headD 0) ∈ l := by
    match l, h with
    | x :: xs, _ =>
      rcases foldr_max_mem (x :: xs) x with h | h
      · rw [List.headD_cons, h]; exact List.mem_cons_self
      · exact h
  have hi : argmax l < l.length := List.idxOf_lt_length_iff.2 hm
  refine ⟨hi, fun x hx => ?_⟩
  have := List.getElem_idxOf hi
  unfold argmax at *
  rw [this]
  exact le_foldr_max _ _ _ hx

theorem argmin_spec (l : List ℚ) (h : l ≠ []) : ∃ hi : argmin l < l.length, ∀ x ∈ l, l[argmin l] ≤ x := by
  have hm : l.foldr min (l.headD 0) ∈ l := by
    match l, h with
    | x :: xs, _ =>
      rcases foldr_min_mem (x :: xs) x with h | h
      · rw [List.headD_cons, h]; exact List.mem_cons_self
      · exact h
  have hi : argmin l < l.length := List.idxOf_lt_length_iff.2 hm
  refine ⟨hi, fun x hx => ?_⟩
  have := List.getElem_idxOf hi
  unfold argmin at *
  rw [this]
  exact foldr_min_le _ _ _ hx

/-- All differences are below one in absolute value. -/
def Close (xs : List ℚ) (rs : List ℤ) : Prop :=
  rs.length = xs.length ∧ ∀ i (h : i < xs.length) (h' : i < rs.length), -1 < xs[i] - rs[i] ∧ xs[i] - rs[i] < 1

theorem sum_diffs : ∀ (xs : List ℚ) (rs : List ℤ), rs.length = xs.length → (diffs xs rs).sum = xs.sum - rs.sum
  | [], [], _ => by simp [diffs]
  | x :: xs, r :: rs, h => by
    have ih := sum_diffs xs rs (by simpa using h)
    unfold diffs at ih
    simp only [diffs, List.zipWith_cons_cons, List.sum_cons, ih]
    push_cast
    ring

theorem sum_modify : ∀ (rs : List ℤ) (i : Nat) (d : ℤ), i < rs.length → (rs.modify i (· + d)).sum = rs.sum + d
  | r :: rs, 0, d, _ => by simp; ring
  | r :: rs, i + 1, d, h => by
    rw [List.modify_succ_cons, List.sum_cons, List.sum_cons, sum_modify rs i d (by simpa using h)]
    ring

theorem exists_pos_of_sum_pos : ∀ (l : List ℚ), 0 < l.sum → ∃ x ∈ l, 0 < x
  | [], h => by simp at h
  | x :: xs, h => by
    by_cases hx : 0 < x
    · exact ⟨x, List.mem_cons_self, hx⟩
    · rw [List.sum_cons] at h
      obtain ⟨y, h1, h2⟩ := exists_pos_of_sum_pos xs (by linarith)
      exact ⟨y, List.mem_cons_of_mem _ h1, h2⟩

theorem exists_neg_of_sum_neg : ∀ (l : List ℚ), l.sum < 0 → ∃ x ∈ l, x < 0
  | [], h => by simp at h
  | x :: xs, h => by
    by_cases hx : x < 0
    · exact ⟨x, List.mem_cons_self, hx⟩
    · rw [List.sum_cons] at h
      obtain ⟨y, h1, h2⟩ := exists_neg_of_sum_neg xs (by linarith)
      exact ⟨y, List.mem_cons_of_mem _ h1, h2⟩

theorem up_spec (xs : List ℚ) : ∀ (k : Nat) (rs : List ℤ), Close xs rs → (rs.sum : ℚ) + k = xs.sum →
    Close xs (up xs k rs) ∧ ((up xs k rs).sum : ℚ) = xs.sum := by
  intro k
  induction k with
  | zero => intro rs hc hs; exact ⟨hc, by simpa [up] using hs⟩
  | succ k ih =>
    intro rs hc hs
    have hlen : (diffs xs rs).length = xs.length := by simp [diffs, hc.1]
    have hsum : 0 < (diffs xs rs).sum := by
      rw [sum_diffs xs rs hc.1, ← hs]; push_cast; linarith [(Nat.cast_nonneg k : (0 : ℚ) ≤ k)]
    obtain ⟨y, hy, hpos⟩ := exists_pos_of_sum_pos _ hsum
    obtain ⟨hi, hmax⟩ := argmax_spec (diffs xs rs) (List.ne_nil_of_mem hy)
    have hix : argmax (diffs xs rs) < xs.length := hlen ▸ hi
    have hir : argmax (diffs xs rs) < rs.length := by rw [hc.1]; exact hix
    have hval : 0 < xs[argmax (diffs xs rs)] - rs[argmax (diffs xs rs)] := by
      have h1 : (diffs xs rs)[argmax (diffs xs rs)] = xs[argmax (diffs xs rs)] - rs[argmax (diffs xs rs)] := by
        simp [diffs]
      rw [← h1]
      exact hpos.trans_le (hmax y hy)
    rw [up]
    refine ih _ ⟨by simp [hc.1], fun i h h' => ?_⟩ ?_
    · rw [List.getElem_modify]
      have hold := hc.2 i h (by rw [hc.1]; exact h)
      split
      · rename_i he
        subst he
        push_cast
        constructor <;> linarith [hold.2]
      · exact hold
    · rw [sum_modify _ _ _ hir]
      push_cast at hs ⊢
      linarith

theorem down_spec (xs : List ℚ) : ∀ (k : Nat) (rs : List ℤ), Close xs rs → (rs.sum : ℚ) = xs.sum + k →
    Close xs (down xs k rs) ∧ ((down xs k rs).sum : ℚ) = xs.sum := by
  intro k
  induction k with
  | zero => intro rs hc hs; exact ⟨hc, by simpa [down] using hs⟩
  | succ k ih =>
    intro rs hc hs
    have hlen : (diffs xs rs).length = xs.length := by simp [diffs, hc.1]
    have hsum : (diffs xs rs).sum < 0 := by
      rw [sum_diffs xs rs hc.1, hs]; push_cast; linarith [(Nat.cast_nonneg k : (0 : ℚ) ≤ k)]
    obtain ⟨y, hy, hneg⟩ := exists_neg_of_sum_neg _ hsum
    obtain ⟨hi, hmin⟩ := argmin_spec (diffs xs rs) (List.ne_nil_of_mem hy)
    have hix : argmin (diffs xs rs) < xs.length := hlen ▸ hi
    have hir : argmin (diffs xs rs) < rs.length := by rw [hc.1]; exact hix
    have hval : xs[argmin (diffs xs rs)] - rs[argmin (diffs xs rs)] < 0 := by
      have h1 : (diffs xs rs)[argmin (diffs xs rs)] = xs[argmin (diffs xs rs)] - rs[argmin (diffs xs rs)] := by
        simp [diffs]
      rw [← h1]
      exact (hmin y hy).trans_lt hneg
    rw [down]
    refine ih _ ⟨by simp [hc.1], fun i h h' => ?_⟩ ?_
    · rw [List.getElem_modify]
      have hold := hc.2 i h (by rw [hc.1]; exact h)
      split
      · rename_i he
        subst he
        push_cast
        constructor <;> linarith [hold.1]
      · exact hold
    · have := sum_modify rs _ (-1) hir
      have he : (fun x : ℤ => x - 1) = (· + -1) := by funext x; ring
      rw [he, this]
      push_cast at hs ⊢
      linarith

theorem sum_shares (n : Nat) (cells : List Nat) (h : 0 < cells.sum) : (shares n cells).sum = n := by
  have key : ∀ (l : List Nat) (t : ℚ), (l.map fun c : Nat => (n : ℚ) * ((c : ℚ) / t)).sum = n * ((l.sum : ℚ) / t) := by
    intro l t
    induction l with
    | nil => simp
    | cons a l ih => rw [List.map_cons, List.sum_cons, List.sum_cons, ih]; push_cast; ring
  unfold shares
  rw [key]
  have : (cells.sum : ℚ) ≠ 0 := by exact_mod_cast h.ne'
  field_simp

theorem counts_spec (n : Nat) (cells : List Nat) (h : 0 < cells.sum) :
    Close (shares n cells) (counts n cells) ∧ (counts n cells).sum = n := by
  have hs := sum_shares n cells h
  have hc : Close (shares n cells) ((shares n cells).map around) := by
    refine ⟨by simp, fun i hi hi' => ?_⟩
    rw [List.getElem_map]
    have := around_spec (shares n cells)[i]
    constructor <;> linarith [this.1, this.2]
  unfold counts
  dsimp only
  split
  · rename_i hlt
    obtain ⟨h1, h2⟩ := up_spec (shares n cells) ((n : ℤ) - ((shares n cells).map around).sum).toNat _ hc (by
      rw [hs]
      have : ((((n : ℤ) - ((shares n cells).map around).sum).toNat : ℤ) : ℚ) = ((n : ℤ) - ((shares n cells).map around).sum : ℤ) := by
        rw [Int.toNat_of_nonneg (by omega)]
      push_cast at this
      rw [this]; ring)
    refine ⟨h1, ?_⟩
    rw [hs] at h2
    exact_mod_cast h2
  · split
    · rename_i hlt
      obtain ⟨h1, h2⟩ := down_spec (shares n cells) (((shares n cells).map around).sum - n).toNat _ hc (by
        rw [hs]
        have : (((((shares n cells).map around).sum - n).toNat : ℤ) : ℚ) = (((shares n cells).map around).sum - n : ℤ) := by
          rw [Int.toNat_of_nonneg (by omega)]
        push_cast at this
        rw [this]; ring)
      refine ⟨h1, ?_⟩
      rw [hs] at h2
      exact_mod_cast h2
    · exact ⟨hc, by omega⟩

theorem mapping_perm (Q : Nat) (best m : List Nat) (h : mapping Q best = some m) : m.Perm (List.range Q) := by
  unfold mapping at h
  split at h
  · rename_i hc
    simp only [Option.some.injEq] at h
    subst h
    have hn : (best ++ (List.range Q).filter fun q => !best.contains q).Nodup := by
      rw [List.nodup_append]
      refine ⟨hc.1, List.nodup_range.filter _, fun a ha b hb => ?_⟩
      rintro rfl
      have := (List.mem_filter.1 hb).2
      simp [ha] at this
    refine (List.perm_ext_iff_of_nodup hn List.nodup_range).2 fun q => ?_
    simp only [List.mem_append, List.mem_filter, List.mem_range]
    constructor
    · rintro (hq | hq)
      · exact hc.2 q hq
      · exact hq.1
    · intro hq
      by_cases hb : q ∈ best
      · exact Or.inl hb
      · exact Or.inr ⟨hq, by simp [hb]⟩
  · cases h

end PyNucleus.PartitionNumbers
