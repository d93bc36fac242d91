import Verif.Proof.Assembly
import Verif.Proof.LocalMatrices2
import Verif.Proof.Entries
import Mathlib.Tactic.Abel
import Mathlib.Data.List.GetD

/-! Matrix-free products and full local matrices. -/

namespace PyNucleus.Assembly

open PyNucleus.Loops PyNucleus.Spec PyNucleus.Galerkin PyNucleus.SSS
open PyNucleus.Simplex (upper)

variable {K : Type}

theorem modify_fold [Ring K] (N : Nat) (x : List K) : ∀ (l : List (Nat × Nat × K)) (y : List K), (∀ e ∈ l, e.1 < y.length ∧ e.2.1 < N) →
    (l.foldl (fun y e => y.modify e.1 (· + e.2.2 * x.getD e.2.1 0)) y).length = y.length ∧
      ∀ I, (l.foldl (fun y e => y.modify e.1 (· + e.2.2 * x.getD e.2.1 0)) y).getD I 0 = y.getD I 0 + ∑ J ∈ Finset.range N, contrib l I J * x.getD J 0 := by
  intro l
  induction l with
  | nil => intro y _; exact ⟨rfl, fun I => by simp [contrib]⟩
  | cons e t ih =>
    intro y h
    obtain ⟨h1, h2⟩ := ih (y.modify e.1 (· + e.2.2 * x.getD e.2.1 0)) (fun a ha => by rw [List.length_modify]; exact h a (List.mem_cons_of_mem _ ha))
    rw [List.foldl_cons]
    have he := h e List.mem_cons_self
    refine ⟨by rw [h1, List.length_modify], fun I => ?_⟩
    rw [h2, getD_modify]
    have hc : ∀ J, contrib (e :: t) I J = (if e.1 = I ∧ e.2.1 = J then e.2.2 else 0) + contrib t I J := fun J => rfl
    simp only [hc, add_mul, Finset.sum_add_distrib]
    have hS : ∑ J ∈ Finset.range N, (if e.1 = I ∧ e.2.1 = J then e.2.2 else 0) * x.getD J 0 = if e.1 = I then e.2.2 * x.getD e.2.1 0 else 0 := by
      by_cases hI : e.1 = I
      · rw [if_pos hI, Finset.sum_eq_single e.2.1 (fun J _ hJ => by rw [if_neg (fun hh => hJ hh.2.symm), zero_mul])
          (fun hn => absurd (Finset.mem_range.2 he.2) hn), if_pos ⟨hI, rfl⟩]
      · rw [if_neg hI]
        exact Finset.sum_eq_zero (fun J _ => by rw [if_neg (fun hh => hI hh.1), zero_mul])
    rw [hS]
    by_cases hI : e.1 = I
    · rw [if_pos ⟨hI, by omega⟩, if_pos hI, add_assoc]
    · rw [if_neg (fun hh => hI hh.1), if_neg hI, zero_add]

theorem diag_fold [Ring K] : ∀ (l : List (Nat × Nat × K)) (y : List K), (∀ e ∈ l, e.1 < y.length) →
    (l.foldl (fun (y : List K) e => if e.1 = e.2.1 then y.modify e.1 (· + e.2.2) else y) y).length = y.length ∧
      ∀ I, (l.foldl (fun (y : List K) e => if e.1 = e.2.1 then y.modify e.1 (· + e.2.2) else y) y).getD I 0 = y.getD I 0 + contrib l I I := by
  intro l
  induction l with
  | nil => intro y _; exact ⟨rfl, fun I => by simp [contrib]⟩
  | cons e t ih =>
    intro y h
    have hl : (if e.1 = e.2.1 then y.modify e.1 (· + e.2.2) else y).length = y.length := by
      split
      · rw [List.length_modify]
      · rfl
    obtain ⟨h1, h2⟩ := ih (if e.1 = e.2.1 then y.modify e.1 (· + e.2.2) else y) (fun a ha => by rw [hl]; exact h a (List.mem_cons_of_mem _ ha))
    rw [List.foldl_cons]
    have he := h e List.mem_cons_self
    refine ⟨by rw [h1, hl], fun I => ?_⟩
    have hc : contrib (e :: t) I I = (if e.1 = I ∧ e.2.1 = I then e.2.2 else 0) + contrib t I I := rfl
    rw [h2, hc, ← add_assoc]
    congr 1
    by_cases h3 : e.1 = e.2.1
    · rw [if_pos h3, getD_modify]
      by_cases hI : e.1 = I
      · rw [if_pos ⟨hI, by omega⟩, if_pos ⟨hI, by omega⟩]
      · rw [if_neg (fun hh => hI hh.1), if_neg (fun hh => hI hh.1), add_zero]
    · rw [if_neg h3, if_neg (fun hh => h3 (hh.1.trans hh.2.symm)), add_zero]

theorem matrixFree_eq [Ring K] (n : Nat) (dofs : List (List Int)) (M : Nat → Nat → Nat → K) (loc : Nat → List K)
    (hl : ∀ i, loc i = (upper n).map fun q => M i q.1 q.2) (numCells : Nat) (x y : List K) : matrixFree n dofs loc numCells x y =
      ((List.range numCells).flatMap fun i => cellItems symPairs n (dofs.getD i []) (M i)).foldl (fun y e => y.modify e.1 (· + e.2.2 * x.getD e.2.1 0)) y := by
  unfold matrixFree
  rw [forRange_zero, foldl_flatMap']
  congr 1
  funext s i
  rw [hl i, symCell_eq]

theorem diagonal_eq [Ring K] (n : Nat) (dofs : List (List Int)) (M : Nat → Nat → Nat → K) (loc : Nat → List K)
    (hl : ∀ i, loc i = (upper n).map fun q => M i q.1 q.2) (numCells numDofs : Nat) : matrixFreeDiagonal n dofs loc numCells numDofs =
      ((List.range numCells).flatMap fun i => cellItems symPairs n (dofs.getD i []) (M i)).foldl
        (fun y e => if e.1 = e.2.1 then y.modify e.1 (· + e.2.2) else y) (List.replicate numDofs 0) := by
  unfold matrixFreeDiagonal
  rw [forRange_zero, foldl_flatMap']
  congr 1
  funext s i
  rw [hl i, symCell_eq]

/-- Setting to zero. -/
theorem clear [Zero K] (N : Nat) (y : List K) (h : y.length = N) : (forRange 0 N y fun y i => y.set i 0) = List.replicate N 0 := by
  have key : ∀ m, m ≤ N → (forRange 0 m y fun y i => y.set i 0) = List.replicate m 0 ++ y.drop m := by
    intro m
    induction m with
    | zero => intro _; rfl
    | succ m ih =>
      intro hm
      rw [forRange_succ, ih (by omega), List.set_append_right _ _ (by simp), List.length_replicate, Nat.sub_self,
        List.drop_eq_getElem_cons (show m < y.length by omega), List.set_cons_zero, List.replicate_succ', List.append_assoc]
      rfl
  rw [key N (le_refl _), List.drop_of_length_le (by omega), List.append_nil]

/-- Row-major position. -/
theorem pos_inj {n a b c d : Nat} (hb : b < n) (hd : d < n) : a * n + b = c * n + d ↔ a = c ∧ b = d := by
  constructor
  · intro h
    have h1 : (a * n + b) / n = a := by rw [Nat.add_comm, Nat.add_mul_div_right _ _ (by omega), Nat.div_eq_of_lt hb, Nat.zero_add]
    have h2 : (c * n + d) / n = c := by rw [Nat.add_comm, Nat.add_mul_div_right _ _ (by omega), Nat.div_eq_of_lt hd, Nat.zero_add]
    have : a = c := by rw [← h1, ← h2, h]
    subst this
    omega
  · rintro ⟨rfl, rfl⟩; rfl

theorem pos_lt {n a b : Nat} (ha : a < n) (hb : b < n) : a * n + b < n * n := by
  have := Nat.mul_le_mul_right n (show a + 1 ≤ n by omega)
  rw [Nat.add_mul] at this
  omega

theorem sym_sets [Zero K] (n : Nat) (M : Nat → Nat → K) (hs : ∀ j k, M j k = M k j) : ∀ (l : List (Nat × Nat)) (A : List K), A.length = n * n → (∀ q ∈ l, q.1 < n ∧ q.2 < n) →
    (l.foldl (fun (A : List K) q => (A.set (q.1 * n + q.2) (M q.1 q.2)).set (q.2 * n + q.1) (M q.1 q.2)) A).length = n * n ∧
      ∀ a b, a < n → b < n → (l.foldl (fun (A : List K) q => (A.set (q.1 * n + q.2) (M q.1 q.2)).set (q.2 * n + q.1) (M q.1 q.2)) A).getD (a * n + b) 0 =
        if (a, b) ∈ l ∨ (b, a) ∈ l then M a b else A.getD (a * n + b) 0 := by
  intro l
  induction l with
  | nil => intro A h _; exact ⟨h, fun a b _ _ => by simp⟩
  | cons q t ih =>
    intro A h hq
    have hq1 := hq q List.mem_cons_self
    obtain ⟨h1, h2⟩ := ih ((A.set (q.1 * n + q.2) (M q.1 q.2)).set (q.2 * n + q.1) (M q.1 q.2)) (by rw [List.length_set, List.length_set, h])
      (fun p hp => hq p (List.mem_cons_of_mem _ hp))
    rw [List.foldl_cons]
    refine ⟨h1, fun a b ha hb => ?_⟩
    have hp := pos_lt ha hb
    rw [h2 a b ha hb, getD_set, getD_set, List.length_set, h]
    simp only [pos_inj hq1.1 hb, pos_inj hq1.2 hb]
    by_cases h3 : (a, b) ∈ t ∨ (b, a) ∈ t
    · rw [if_pos h3, if_pos (by simp only [List.mem_cons]; tauto)]
    · rw [if_neg h3]
      by_cases h4 : q.2 = a ∧ q.1 = b
      · rw [if_pos ⟨h4, hp⟩, if_pos (Or.inr (by rw [← h4.1, ← h4.2]; exact List.mem_cons_self)), hs, h4.1, h4.2]
      · rw [if_neg (fun hh => h4 hh.1)]
        by_cases h5 : q.1 = a ∧ q.2 = b
        · rw [if_pos ⟨h5, hp⟩, if_pos (Or.inl (by rw [← h5.1, ← h5.2]; exact List.mem_cons_self)), h5.1, h5.2]
        · rw [if_neg (fun hh => h5 hh.1), if_neg]
          simp only [List.mem_cons, not_or]
          refine ⟨⟨fun e => h5 ?_, fun hh => h3 (Or.inl hh)⟩, fun e => h4 ?_, fun hh => h3 (Or.inr hh)⟩
          · rw [← e]; exact ⟨rfl, rfl⟩
          · rw [← e]; exact ⟨rfl, rfl⟩

theorem rowMajor_getD [Zero K] (n : Nat) (M : Nat → Nat → K) : ((List.range n).flatMap fun j => (List.range n).map fun k => M j k).length = n * n ∧
    ∀ a b, a < n → b < n → ((List.range n).flatMap fun j => (List.range n).map fun k => M j k).getD (a * n + b) 0 = M a b := by
  have key : ∀ m, ((List.range m).flatMap fun j => (List.range n).map fun k => M j k).length = m * n ∧
    ∀ a b, a < m → b < n → ((List.range m).flatMap fun j => (List.range n).map fun k => M j k).getD (a * n + b) 0 = M a b := by
    intro m
    induction m with
    | zero => exact ⟨by simp, fun a b h => absurd h (by omega)⟩
    | succ m ih =>
      rw [List.range_succ, List.flatMap_append]
      refine ⟨by rw [List.length_append, ih.1]; simp [Nat.add_mul], fun a b ha hb => ?_⟩
      rcases Nat.lt_or_ge a m with h | h
      · have : a * n + b < m * n := by
          have := Nat.mul_le_mul_right n (show a + 1 ≤ m by omega)
          rw [Nat.add_mul] at this
          omega
        rw [List.getD_append _ _ _ _ (by rw [ih.1]; exact this)]
        exact ih.2 a b h hb
      · have : a = m := by omega
        subst this
        rw [List.getD_append_right _ _ _ _ (by rw [ih.1]; omega), ih.1, Nat.add_sub_cancel_left]
        simp [hb]
  exact key n

/-- The array from the upper triangle. -/
theorem fullLocal_eq [Zero K] (n : Nat) (M : Nat → Nat → K) (hs : ∀ j k, M j k = M k j) (contrib : List K) (h : contrib.length = n * n) :
    fullLocal n n ((upper n).map fun q => M q.1 q.2) contrib = (List.range n).flatMap fun j => (List.range n).map fun k => M j k := by
  have e : fullLocal n n ((upper n).map fun q => M q.1 q.2) contrib =
      (upper n).foldl (fun (A : List K) q => (A.set (q.1 * n + q.2) (M q.1 q.2)).set (q.2 * n + q.1) (M q.1 q.2)) contrib :=
    upper_loop n M (fun (A : List K) j k v => (A.set (j * n + k) v).set (k * n + j) v) contrib
  have hm : ∀ q ∈ upper n, q.1 < n ∧ q.2 < n := fun q hq => by have := (PyNucleus.Simplex.mem_upper n q).1 hq; omega
  obtain ⟨h1, h2⟩ := sym_sets n M hs (upper n) contrib h hm
  obtain ⟨g1, g2⟩ := rowMajor_getD n M
  rw [e]
  refine List.ext_getElem (by rw [h1, g1]) fun p hp _ => ?_
  rw [h1] at hp
  have hn : 0 < n := by
    rcases Nat.eq_zero_or_pos n with h0 | h0
    · subst h0; omega
    · exact h0
  have ha : p / n < n := Nat.div_lt_of_lt_mul hp
  have hb : p % n < n := Nat.mod_lt _ hn
  have hpe : p / n * n + p % n = p := Nat.div_add_mod' p n
  have k1 := h2 _ _ ha hb
  have k2 := g2 _ _ ha hb
  rw [if_pos] at k1
  · rw [hpe] at k1 k2
    rw [List.getD_eq_getElem _ _ (by omega)] at k1 k2
    rw [k1, k2]
  · rcases Nat.le_total (p / n) (p % n) with h | h
    · exact Or.inl ((PyNucleus.Simplex.mem_upper n _).2 ⟨h, hb⟩)
    · exact Or.inr ((PyNucleus.Simplex.mem_upper n _).2 ⟨h, ha⟩)

end PyNucleus.Assembly
