import Verif.Model.MeshBoundary
import Verif.Proof.Refine2
import Mathlib.Algebra.Ring.Parity
import Mathlib.Data.List.Count

/-! Sets that are toggled. -/

namespace PyNucleus.MeshBoundary

open PyNucleus.Refine

variable {α β : Type} [DecidableEq α]

theorem toggleD_spec : ∀ (l : List (α × β)) (d : List (α × β)), (d.map Prod.fst).Nodup →
    ((l.foldl toggleD d).map Prod.fst).Nodup ∧
    (∀ k, k ∈ (l.foldl toggleD d).map Prod.fst ↔ (k ∈ d.map Prod.fst ↔ Even ((l.map Prod.fst).count k))) ∧
    ∀ q ∈ l.foldl toggleD d, (q ∈ d ∧ q.1 ∉ l.map Prod.fst) ∨ ∃ l1 l2, l = l1 ++ q :: l2 ∧ q.1 ∉ l2.map Prod.fst := by
  intro l
  induction l with
  | nil => intro d hd; exact ⟨hd, fun k => by simp, fun q hq => Or.inl ⟨hq, by simp⟩⟩
  | cons p t ih =>
    intro d hd
    rw [List.foldl_cons]
    have hd' : ((toggleD d p).map Prod.fst).Nodup := by
      unfold toggleD
      split
      · exact List.Nodup.sublist (List.filter_sublist.map _) hd
      · rename_i h
        rw [List.map_append, List.nodup_append]
        refine ⟨hd, List.nodup_singleton _, fun a ha b hb => ?_⟩
        rw [List.map_cons, List.map_nil, List.mem_singleton] at hb
        subst hb
        exact fun e => h (e ▸ ha)
    have hk : ∀ k, k ∈ (toggleD d p).map Prod.fst ↔ (if k = p.1 then p.1 ∉ d.map Prod.fst else k ∈ d.map Prod.fst) := by
      intro k
      unfold toggleD
      by_cases h : p.1 ∈ d.map Prod.fst
      · rw [if_pos h]
        by_cases e : k = p.1
        · rw [if_pos e, e]
          refine iff_of_false (fun hm => ?_) (fun hh => hh h)
          obtain ⟨q, hq, hq2⟩ := List.mem_map.1 hm
          exact absurd hq2 (by simpa using (List.mem_filter.1 hq).2)
        · rw [if_neg e, List.mem_map, List.mem_map]
          constructor
          · rintro ⟨q, hq, rfl⟩; exact ⟨q, (List.mem_filter.1 hq).1, rfl⟩
          · rintro ⟨q, hq, rfl⟩; exact ⟨q, List.mem_filter.2 ⟨hq, by simpa using e⟩, rfl⟩
      · rw [if_neg h, List.map_append, List.mem_append]
        by_cases e : k = p.1
        · rw [if_pos e]; exact iff_of_true (Or.inr (by simp [e])) h
        · rw [if_neg e]; simp [e]
    obtain ⟨g1, g2, g3⟩ := ih _ hd'
    refine ⟨g1, fun k => ?_, fun q hq => ?_⟩
    · rw [g2, hk, List.map_cons, List.count_cons]
      by_cases e : k = p.1
      · rw [if_pos e, e]
        simp only [BEq.rfl, if_true, Nat.even_add_one]
        tauto
      · rw [if_neg e, if_neg (by simpa using fun h => e h.symm), Nat.add_zero]
    · rcases g3 q hq with ⟨h1, h2⟩ | ⟨l1, l2, h1, h2⟩
      · by_cases h : p.1 ∈ d.map Prod.fst
        · rw [toggleD, if_pos h] at h1
          have := List.mem_filter.1 h1
          refine Or.inl ⟨this.1, ?_⟩
          rw [List.map_cons, List.mem_cons]
          rintro (e | e)
          · exact absurd e (by simpa using this.2)
          · exact h2 e
        · rw [toggleD, if_neg h] at h1
          rcases List.mem_append.1 h1 with h1 | h1
          · refine Or.inl ⟨h1, ?_⟩
            rw [List.map_cons, List.mem_cons]
            rintro (e | e)
            · exact h (e ▸ List.mem_map_of_mem h1)
            · exact h2 e
          · rw [List.mem_singleton.1 h1] at h2 ⊢
            exact Or.inr ⟨[], t, rfl, h2⟩
      · exact Or.inr ⟨p :: l1, l2, by rw [h1]; rfl, h2⟩

theorem toggle_map (l : List α) : ∀ d : List (α × Unit), (l.foldl toggle (d.map Prod.fst)) = ((l.map fun a => (a, ())).foldl toggleD d).map Prod.fst := by
  induction l with
  | nil => intro d; rfl
  | cons a t ih =>
    intro d
    rw [List.foldl_cons, List.map_cons, List.foldl_cons, ← ih]
    congr 1
    unfold toggle toggleD
    dsimp only
    split
    · rw [List.filter_map]; rfl
    · rw [List.map_append]; rfl

theorem toggle_spec (l : List α) : (l.foldl toggle []).Nodup ∧ ∀ k, k ∈ l.foldl toggle [] ↔ Odd (l.count k) := by
  have e := toggle_map l []
  rw [List.map_nil] at e
  rw [e]
  obtain ⟨h1, h2, -⟩ := toggleD_spec (l.map fun a => (a, ())) [] List.nodup_nil
  refine ⟨h1, fun k => ?_⟩
  rw [h2, List.map_map, show (Prod.fst ∘ fun a : α => (a, ())) = id from rfl, List.map_id]
  simp

theorem insert_spec {α : Type} [BEq α] [LawfulBEq α] (l : List α) : ∀ s : List α, s.Nodup → (l.foldl (fun s x => if x ∈ s then s else s ++ [x]) s).Nodup ∧
    ∀ a, a ∈ l.foldl (fun s x => if x ∈ s then s else s ++ [x]) s ↔ a ∈ s ∨ a ∈ l := by
  induction l with
  | nil => intro s h; exact ⟨h, fun a => by simp⟩
  | cons x t ih =>
    intro s h
    rw [List.foldl_cons]
    by_cases hx : x ∈ s
    · rw [if_pos hx]
      refine ⟨(ih s h).1, fun a => ?_⟩
      rw [(ih s h).2, List.mem_cons]
      constructor
      · rintro (h1 | h1) <;> tauto
      · rintro (h1 | rfl | h1) <;> tauto
    · rw [if_neg hx]
      have h' : (s ++ [x]).Nodup := by
        rw [List.nodup_append]
        exact ⟨h, List.nodup_singleton _, fun a ha b hb => by rw [List.mem_singleton.1 hb]; exact fun e => hx (e ▸ ha)⟩
      refine ⟨(ih _ h').1, fun a => ?_⟩
      rw [(ih _ h').2, List.mem_append, List.mem_singleton, List.mem_cons, or_assoc]

theorem count_zero (l : List α) (k : α) (h : k ∉ l) : l.count k = 0 := List.count_eq_zero_of_not_mem h

/-- Number of cells with a key if each cell has it at most once. -/
theorem count_flatMap {γ : Type} (f : γ → List α) (P : γ → Prop) [DecidablePred P] (k : α) : ∀ l : List γ, (∀ c ∈ l, (f c).Nodup ∧ (k ∈ f c ↔ P c)) →
    (l.flatMap f).count k = l.countP P := by
  intro l
  induction l with
  | nil => intro _; rfl
  | cons c t ih =>
    intro h
    obtain ⟨h1, h2⟩ := h c List.mem_cons_self
    rw [List.flatMap_cons, List.count_append, ih (fun c hc => h c (List.mem_cons_of_mem _ hc)), List.countP_cons]
    by_cases hp : P c
    · rw [List.count_eq_one_of_mem h1 (h2.2 hp)]
      simp [hp, Nat.add_comm]
    · rw [List.count_eq_zero_of_not_mem (fun hk => hp (h2.1 hk))]
      simp [hp]

end PyNucleus.MeshBoundary

namespace PyNucleus.MeshBoundary

open PyNucleus.Refine

theorem sortFace_perm (a b c : Nat) : (sortFace a b c).Perm [a, b, c] := by
  unfold sortFace
  split_ifs
  · exact List.Perm.refl _
  · exact List.Perm.cons _ (List.Perm.swap _ _ _)
  · exact (List.Perm.swap _ _ _).trans (List.Perm.cons _ (List.Perm.swap _ _ _))
  · exact List.Perm.swap _ _ _
  · exact (List.Perm.cons _ (List.Perm.swap _ _ _)).trans (List.Perm.swap _ _ _)
  · exact (List.Perm.cons _ (List.Perm.swap _ _ _)).trans ((List.Perm.swap _ _ _).trans (List.Perm.cons _ (List.Perm.swap _ _ _)))

theorem sortFace_sorted (a b c : Nat) (h : [a, b, c].Nodup) : (sortFace a b c).Pairwise (· < ·) := by
  simp only [List.nodup_cons, List.mem_cons, List.not_mem_nil, or_false, not_or] at h
  unfold sortFace
  split_ifs <;> simp <;> omega

theorem eq_sortFace (f : List Nat) (hf : f.Pairwise (· < ·)) (a b c : Nat) (h : f.Perm [a, b, c]) : f = sortFace a b c := by
  have hn : [a, b, c].Nodup := h.nodup_iff.1 (hf.imp fun h => Nat.ne_of_lt h)
  exact (h.trans (sortFace_perm a b c).symm).eq_of_pairwise (fun x y _ _ h1 h2 => absurd h1 (by omega)) hf (sortFace_sorted a b c hn)

theorem length4 (c : List Nat) (h : c.length = 4) : ∃ v0 v1 v2 v3, c = [v0, v1, v2, v3] := by
  match c, h with
  | [a, b, e, f], _ => exact ⟨a, b, e, f, rfl⟩

theorem cellFaces_spec (c : List Nat) (hl : c.length = 4) (hn : c.Nodup) : (cellFaces c).Nodup ∧
    ∀ f, f ∈ cellFaces c ↔ (f.length = 3 ∧ f.Pairwise (· < ·)) ∧ f ⊆ c := by
  obtain ⟨v0, v1, v2, v3, rfl⟩ := length4 c hl
  have hd := hn
  simp only [List.nodup_cons, List.mem_cons, List.not_mem_nil, or_false, not_or, List.nodup_nil, and_true, not_false_eq_true] at hd
  obtain ⟨⟨d1, d2, d3⟩, ⟨d4, d5⟩, d6⟩ := hd
  have hne : ∀ x a b c a' b' c' : Nat, x ∈ [a, b, c] → x ∉ [a', b', c'] → sortFace a b c ≠ sortFace a' b' c' := fun x a b c a' b' c' h1 h2 e =>
    h2 ((sortFace_perm a' b' c').mem_iff.1 (e ▸ (sortFace_perm a b c).mem_iff.2 h1))
  constructor
  · unfold cellFaces
    simp only [List.getD_cons_zero, List.getD_cons_succ, List.nodup_cons, List.mem_cons, List.not_mem_nil, or_false, not_or, List.nodup_nil, and_true, not_false_eq_true]
    exact ⟨⟨hne v2 _ _ _ _ _ _ (by simp) (by simp; omega), hne v1 _ _ _ _ _ _ (by simp) (by simp; omega), hne v0 _ _ _ _ _ _ (by simp) (by simp; omega)⟩,
      ⟨hne v1 _ _ _ _ _ _ (by simp) (by simp; omega), hne v0 _ _ _ _ _ _ (by simp) (by simp; omega)⟩, hne v0 _ _ _ _ _ _ (by simp) (by simp; omega)⟩
  · intro f
    have key : ∀ a b e : Nat, [a, b, e].Nodup → [a, b, e] ⊆ [v0, v1, v2, v3] → f = sortFace a b e → (f.length = 3 ∧ f.Pairwise (· < ·)) ∧ f ⊆ [v0, v1, v2, v3] := by
      rintro a b e h1 h2 rfl
      exact ⟨⟨(sortFace_perm a b e).length_eq, sortFace_sorted a b e h1⟩, fun x hx => h2 ((sortFace_perm a b e).mem_iff.1 hx)⟩
    constructor
    · intro h
      unfold cellFaces at h
      simp only [List.getD_cons_zero, List.getD_cons_succ, List.mem_cons, List.not_mem_nil, or_false] at h
      rcases h with h | h | h | h
      · exact key _ _ _ (by simp; omega) (by simp) h
      · exact key _ _ _ (by simp; omega) (by simp) h
      · exact key _ _ _ (by simp; omega) (by simp) h
      · exact key _ _ _ (by simp; omega) (by simp) h
    · rintro ⟨⟨h1, h2⟩, h3⟩
      have hfn : f.Nodup := h2.imp fun h => Nat.ne_of_lt h
      obtain ⟨w, hw, hwf⟩ : ∃ w ∈ [v0, v1, v2, v3], w ∉ f := by
        by_contra hcon
        push_neg at hcon
        have := (hn.subperm (fun x hx => hcon x hx)).length_le
        simp at this
        omega
      have hp : f.Perm ([v0, v1, v2, v3].erase w) := by
        refine (hfn.subperm fun x hx => ?_).perm_of_length_le ?_
        · exact (List.mem_erase_of_ne fun e => hwf (by rw [← e]; exact hx)).2 (h3 hx)
        · rw [List.length_erase_of_mem hw, h1]; simp
      unfold cellFaces
      simp only [List.getD_cons_zero, List.getD_cons_succ]
      simp only [List.mem_cons, List.not_mem_nil, or_false] at hw ⊢
      rcases hw with rfl | rfl | rfl | rfl
      · exact Or.inr (Or.inr (Or.inr (eq_sortFace f h2 _ _ _ (by simpa using hp))))
      · exact Or.inr (Or.inr (Or.inl (eq_sortFace f h2 _ _ _ (by rwa [List.erase_cons_tail (by simpa using d1), List.erase_cons_head] at hp))))
      · refine Or.inr (Or.inl (eq_sortFace f h2 _ _ _ ?_))
        rwa [List.erase_cons_tail (by simpa using d2), List.erase_cons_tail (by simpa using d4), List.erase_cons_head] at hp
      · refine Or.inl (eq_sortFace f h2 _ _ _ ?_)
        rwa [List.erase_cons_tail (by simpa using d3), List.erase_cons_tail (by simpa using d5), List.erase_cons_tail (by simpa using d6), List.erase_cons_head] at hp

end PyNucleus.MeshBoundary
