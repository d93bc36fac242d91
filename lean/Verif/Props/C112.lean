import Verif.Proof.PartitionNumbers
import Mathlib.Algebra.Order.Group.Abs
import Mathlib.Algebra.Order.Ring.Rat

/-!
# C112: numbers of partitions in a repartitioning
-/

namespace PyNucleus.Props.C112

open PyNucleus.PartitionNumbers

/-- The new partitions are distributed to the subdomains completely, and each subdomain gets its share up to less than one
partition. -/
theorem fair (n : Nat) (cells : List Nat) (h : 0 < cells.sum) :
    (counts n cells).length = cells.length ∧ (counts n cells).sum = n ∧
    ∀ p (hp : p < cells.length) (hp' : p < (counts n cells).length), 0 ≤ (counts n cells)[p] ∧
      |((counts n cells)[p] : ℚ) - n * (cells[p] / cells.sum)| < 1 := by
  obtain ⟨⟨hl, hc⟩, hs⟩ := counts_spec n cells h
  have hlen : (shares n cells).length = cells.length := by simp [shares]
  refine ⟨hl.trans hlen, hs, fun p hp hp' => ?_⟩
  have := hc p (by rw [hlen]; exact hp) hp'
  have he : (shares n cells)[p]'(by rw [hlen]; exact hp) = n * ((cells[p] : ℚ) / (cells.sum : ℚ)) := by
    simp only [shares, List.getElem_map]
  rw [he] at this
  refine ⟨?_, by rw [abs_lt]; constructor <;> linarith [this.1, this.2]⟩
  have h0 : (0 : ℚ) ≤ n * ((cells[p] : ℚ) / (cells.sum : ℚ)) := by positivity
  have : (-1 : ℚ) < ((counts n cells)[p] : ℚ) := by linarith [this.2]
  have : (-1 : ℤ) < (counts n cells)[p] := by exact_mod_cast this
  omega

/-- Each of the new partitions belongs to exactly one subdomain. -/
theorem disjoint (rs : List ℤ) (n : Nat) (h0 : ∀ r ∈ rs, 0 ≤ r) (hs : rs.sum = n) (q : Nat) (hq : q < n) :
    ∃! p, p < rs.length ∧ (offsets rs).getD p 0 ≤ q ∧ (q : ℤ) < (offsets rs).getD p 0 + rs.getD p 0 := by
  have hoff : ∀ p, p < rs.length → (offsets rs).getD p 0 = (rs.take p).sum := by
    intro p hp
    rw [List.getD_eq_getElem _ _ (by simpa [offsets] using hp)]
    simp [offsets]
  have hstep : ∀ p, p < rs.length → (rs.take (p + 1)).sum = (rs.take p).sum + rs.getD p 0 := by
    intro p hp
    rw [List.take_succ_eq_append_getElem hp, List.sum_append, List.getD_eq_getElem _ _ hp]
    simp
  have hnn : ∀ p, p < rs.length → 0 ≤ rs.getD p 0 := by
    intro p hp
    rw [List.getD_eq_getElem _ _ hp]
    exact h0 _ (List.getElem_mem hp)
  have hmono : ∀ p d, p + d ≤ rs.length → (rs.take p).sum ≤ (rs.take (p + d)).sum := by
    intro p d
    induction d with
    | zero => intro _; exact le_rfl
    | succ d ih =>
      intro hd
      have := ih (by omega)
      have h1 := hstep (p + d) (by omega)
      have h2 := hnn (p + d) (by omega)
      rw [show p + (d + 1) = p + d + 1 by omega, h1]
      omega
  have hex : ∀ m, m ≤ rs.length → (q : ℤ) < (rs.take m).sum →
      ∃ p, p < m ∧ (rs.take p).sum ≤ q ∧ (q : ℤ) < (rs.take (p + 1)).sum := by
    intro m
    induction m with
    | zero => intro _ h; simp at h; omega
    | succ m ih =>
      intro hm h
      by_cases hc : (q : ℤ) < (rs.take m).sum
      · obtain ⟨p, h1, h2, h3⟩ := ih (by omega) hc
        exact ⟨p, by omega, h2, h3⟩
      · exact ⟨m, by omega, by omega, h⟩
  obtain ⟨p, h1, h2, h3⟩ := hex rs.length le_rfl (by rw [List.take_length, hs]; exact_mod_cast hq)
  refine ⟨p, ⟨h1, by rw [hoff p h1]; exact h2, by rw [hoff p h1, ← hstep p h1]; exact h3⟩, ?_⟩
  rintro p' ⟨k1, k2, k3⟩
  rw [hoff p' k1] at k2 k3
  rw [← hstep p' k1] at k3
  rcases Nat.lt_trichotomy p p' with hlt | rfl | hlt
  · have := hmono (p + 1) (p' - (p + 1)) (by omega)
    rw [show p + 1 + (p' - (p + 1)) = p' by omega] at this
    omega
  · rfl
  · have := hmono (p' + 1) (p - (p' + 1)) (by omega)
    rw [show p' + 1 + (p - (p' + 1)) = p by omega] at this
    omega

/-- A subdomain with few cells gets no partition, so there is none for its cells. -/
theorem each_fails : counts 2 [1, 99] = [0, 2] := by decide +kernel

/-- Reordering renames the partitions by a bijection: the one that the linear program gives to subdomain `p` gets the number `p`;
so the subdomain keeps as many cells as the program says.  It fails exactly if the program gives one partition to two
subdomains, or one that does not exist. -/
theorem reordered (Q : Nat) (best part : List Nat) (hp : ∀ q ∈ part, q < Q) :
    (reorder Q best part = none ↔ ¬ (best.Nodup ∧ ∀ q ∈ best, q < Q)) ∧
    ∀ part', reorder Q best part = some part' → ∃ σ : Nat → Nat, part' = part.map σ ∧
      (∀ q, q < Q → σ q < Q) ∧ (∀ q q', q < Q → q' < Q → σ q = σ q' → q = q') ∧
      ∀ p (h : p < best.length), σ best[p] = p ∧ part'.count p = part.count best[p] := by
  constructor
  · unfold reorder
    rw [Option.map_eq_none_iff]
    unfold mapping
    split <;> rename_i h
    · simp [h.1]; exact h.2
    · simp only [true_iff]; exact h
  · intro part' h
    unfold reorder at h
    rw [Option.map_eq_some_iff] at h
    obtain ⟨m, hm, rfl⟩ := h
    have hperm := mapping_perm Q best m hm
    have hnd : m.Nodup := hperm.nodup_iff.2 List.nodup_range
    have hlen : m.length = Q := by rw [hperm.length_eq]; simp
    have hmem : ∀ q, q < Q → q ∈ m := fun q hq => hperm.mem_iff.2 (List.mem_range.2 hq)
    have hσ : ∀ q, q < Q → (invMapping m).getD q 0 = m.idxOf q := by
      intro q hq
      rw [List.getD_eq_getElem _ _ (by simpa [invMapping, hlen] using hq)]
      simp [invMapping]
    have hbest : ∀ p (h : p < best.length), best[p] < Q ∧ (invMapping m).getD best[p] 0 = p := by
      intro p hpb
      have hm' := hm
      unfold mapping at hm'
      split at hm'
      · rename_i hc
        have hq := hc.2 _ (List.getElem_mem hpb)
        refine ⟨hq, ?_⟩
        rw [hσ _ hq]
        simp only [Option.some.injEq] at hm'
        rw [← hm', List.idxOf_append_of_mem (List.getElem_mem hpb)]
        exact hc.1.idxOf_getElem p hpb
      · cases hm'
    have hinj : ∀ q q', q < Q → q' < Q → (invMapping m).getD q 0 = (invMapping m).getD q' 0 → q = q' := by
      intro q q' hq hq' he
      rw [hσ q hq, hσ q' hq'] at he
      exact (List.idxOf_inj (hmem q hq)).1 he
    refine ⟨fun q => (invMapping m).getD q 0, rfl, ?_, hinj, fun p hpb => ⟨(hbest p hpb).2, ?_⟩⟩
    · intro q hq
      dsimp only
      rw [hσ q hq, ← hlen]
      exact List.idxOf_lt_length_iff.2 (hmem q hq)
    · obtain ⟨hq, he⟩ := hbest p hpb
      induction part with
      | nil => rfl
      | cons a as ih =>
        rw [List.map_cons, List.count_cons, List.count_cons, ih fun q hq => hp q (List.mem_cons_of_mem _ hq)]
        have ha := hp a List.mem_cons_self
        congr 1
        by_cases hab : a = best[p]
        · subst hab; simp only [he, beq_self_eq_true, if_true]
        · have : (invMapping m).getD a 0 ≠ p := fun hc => hab (hinj a _ ha hq (hc.trans he.symm))
          simp only [beq_iff_eq, if_neg this, if_neg hab]

/-- Seven partitions for three subdomains; three partitions for two subdomains. -/
theorem sample_case :
    counts 7 [10, 10, 10] = [3, 2, 2] ∧ offsets [3, 2, 2] = [0, 3, 5] ∧ counts 3 [10, 10] = [1, 2] ∧
    counts 10 [25, 25, 25, 25] = [3, 3, 2, 2] ∧
    reorder 3 [2, 0] [0, 0, 1, 2, 2] = some [1, 1, 2, 0, 0] ∧ reorder 3 [2, 2] [0, 1] = none := by
  decide +kernel

end PyNucleus.Props.C112
