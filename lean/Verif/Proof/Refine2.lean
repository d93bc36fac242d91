import Verif.Proof.Refine
import Mathlib.Tactic.SplitIfs
import Mathlib.Tactic.Tauto

/-! Edges of cells, new cells and the other tables. -/

namespace PyNucleus.Refine

open PyNucleus.Loops PyNucleus.TupleDict PyNucleus.Spec

variable {K : Type}

theorem mapM_some {α β : Type} (f : α → Option β) (g : α → β) : ∀ l : List α, (∀ a ∈ l, f a = some (g a)) → l.mapM f = some (l.map g) := by
  intro l
  induction l with
  | nil => intro _; rfl
  | cons a t ih => intro h; rw [List.mapM_cons, h a (by simp), ih (fun b hb => h b (by simp [hb]))]; rfl

theorem sortEdge_comm (a b : Nat) : sortEdge a b = sortEdge b a := by
  unfold sortEdge
  split <;> split <;> first | rfl | (congr 1 <;> omega) | omega

theorem sortEdge_eq_iff {a b c d : Nat} (h : a ≠ b) : sortEdge a b = sortEdge c d ↔ (a = c ∧ b = d) ∨ (a = d ∧ b = c) := by
  unfold sortEdge
  split <;> split <;> rw [Prod.mk.injEq] <;> omega

/-- Pairs of vertices of a cell. -/
theorem pairs_iff (c : List Nat) (hc : c.Nodup) (e : Nat × Nat) :
    (∃ i j, i < j ∧ j < c.length ∧ e = sortEdge (c.getD i 0) (c.getD j 0)) ↔ e.1 < e.2 ∧ e.1 ∈ c ∧ e.2 ∈ c := by
  constructor
  · rintro ⟨i, j, hij, hj, rfl⟩
    rw [List.getD_eq_getElem _ _ (show i < c.length by omega), List.getD_eq_getElem _ _ hj]
    have hne : c[i] ≠ c[j] := fun h => by have := (List.Nodup.getElem_inj_iff hc).1 h; omega
    unfold sortEdge
    split
    · exact ⟨by assumption, List.getElem_mem _, List.getElem_mem _⟩
    · exact ⟨by dsimp only; omega, List.getElem_mem _, List.getElem_mem _⟩
  · rintro ⟨h1, h2, h3⟩
    obtain ⟨i, hi, e1⟩ := List.mem_iff_getElem.1 h2
    obtain ⟨j, hj, e2⟩ := List.mem_iff_getElem.1 h3
    rcases Nat.lt_trichotomy i j with h | h | h
    · refine ⟨i, j, h, hj, ?_⟩
      rw [List.getD_eq_getElem _ _ hi, List.getD_eq_getElem _ _ hj, e1, e2]
      unfold sortEdge
      rw [if_pos h1]
    · subst h; omega
    · refine ⟨j, i, h, hi, ?_⟩
      rw [List.getD_eq_getElem _ _ hi, List.getD_eq_getElem _ _ hj, e1, e2]
      unfold sortEdge
      rw [if_neg (by omega)]

theorem mem_edges2 (c : List Nat) (hc : c.length = 3) (e : Nat × Nat) : e ∈ edges2 c ↔ ∃ i j, i < j ∧ j < c.length ∧ e = sortEdge (c.getD i 0) (c.getD j 0) := by
  unfold edges2
  simp only [List.mem_cons, List.not_mem_nil, or_false]
  constructor
  · rintro (h | h | h)
    · exact ⟨0, 1, by omega, by omega, h⟩
    · exact ⟨0, 2, by omega, by omega, h⟩
    · exact ⟨1, 2, by omega, by omega, h⟩
  · rintro ⟨i, j, hij, hj, rfl⟩
    have : (i = 0 ∧ j = 1) ∨ (i = 0 ∧ j = 2) ∨ (i = 1 ∧ j = 2) := by omega
    rcases this with ⟨rfl, rfl⟩ | ⟨rfl, rfl⟩ | ⟨rfl, rfl⟩ <;> simp

theorem face_edges (a b c : Nat) (e : Nat × Nat) :
    e ∈ (fun f : List Nat => [(f.getD 0 0, f.getD 1 0), (f.getD 1 0, f.getD 2 0), (f.getD 0 0, f.getD 2 0)]) (sortFace a b c) ↔
      e = sortEdge a b ∨ e = sortEdge b c ∨ e = sortEdge a c := by
  obtain ⟨x, y⟩ := e
  unfold sortFace sortEdge
  dsimp only
  split_ifs <;> simp <;> omega

theorem mem_edges3 (c : List Nat) (hc : c.length = 4) (e : Nat × Nat) : e ∈ edges3 c ↔ ∃ i j, i < j ∧ j < c.length ∧ e = sortEdge (c.getD i 0) (c.getD j 0) := by
  unfold edges3
  rw [List.mem_flatMap]
  simp only [List.mem_cons (a := (_ : List Nat)), List.not_mem_nil, or_false]
  constructor
  · rintro ⟨f, h, he⟩
    rcases h with rfl | rfl | rfl | rfl
    · rcases (face_edges _ _ _ _).1 he with h | h | h
      · exact ⟨0, 1, by omega, by omega, h⟩
      · exact ⟨1, 2, by omega, by omega, h⟩
      · exact ⟨0, 2, by omega, by omega, h⟩
    · rcases (face_edges _ _ _ _).1 he with h | h | h
      · exact ⟨0, 1, by omega, by omega, h⟩
      · exact ⟨1, 3, by omega, by omega, h⟩
      · exact ⟨0, 3, by omega, by omega, h⟩
    · rcases (face_edges _ _ _ _).1 he with h | h | h
      · exact ⟨0, 2, by omega, by omega, h⟩
      · exact ⟨2, 3, by omega, by omega, h⟩
      · exact ⟨0, 3, by omega, by omega, h⟩
    · rcases (face_edges _ _ _ _).1 he with h | h | h
      · exact ⟨1, 2, by omega, by omega, h⟩
      · exact ⟨2, 3, by omega, by omega, h⟩
      · exact ⟨1, 3, by omega, by omega, h⟩
  · rintro ⟨i, j, hij, hj, rfl⟩
    have : (i = 0 ∧ j = 1) ∨ (i = 0 ∧ j = 2) ∨ (i = 0 ∧ j = 3) ∨ (i = 1 ∧ j = 2) ∨ (i = 1 ∧ j = 3) ∨ (i = 2 ∧ j = 3) := by omega
    rcases this with ⟨rfl, rfl⟩ | ⟨rfl, rfl⟩ | ⟨rfl, rfl⟩ | ⟨rfl, rfl⟩ | ⟨rfl, rfl⟩ | ⟨rfl, rfl⟩
    · exact ⟨_, Or.inl rfl, (face_edges _ _ _ _).2 (Or.inl rfl)⟩
    · exact ⟨_, Or.inl rfl, (face_edges _ _ _ _).2 (Or.inr (Or.inr rfl))⟩
    · exact ⟨_, Or.inr (Or.inl rfl), (face_edges _ _ _ _).2 (Or.inr (Or.inr rfl))⟩
    · exact ⟨_, Or.inl rfl, (face_edges _ _ _ _).2 (Or.inr (Or.inl rfl))⟩
    · exact ⟨_, Or.inr (Or.inl rfl), (face_edges _ _ _ _).2 (Or.inr (Or.inl rfl))⟩
    · exact ⟨_, Or.inr (Or.inr (Or.inl rfl)), (face_edges _ _ _ _).2 (Or.inr (Or.inl rfl))⟩

/-! ### tables by sorting and by counting -/

/-- Sorted by first, then by second vertex. -/
def LexLe (a b : Nat × Nat) : Prop := a.1 < b.1 ∨ (a.1 = b.1 ∧ a.2 ≤ b.2)

theorem leEdge_iff (a b : Nat × Nat) : leEdge a b = true ↔ LexLe a b := by
  unfold leEdge LexLe
  rw [decide_eq_true_eq]
  split_ifs <;> omega

theorem sort_fold (n : Nat) : ∀ (l E : List (Nat × Nat)) (old : Nat × Nat), l.Pairwise LexLe → E.Nodup → (∀ a ∈ E, ∀ b ∈ l, LexLe a b) → (∀ a ∈ E, LexLe a old) → (∀ b ∈ l, LexLe old b) →
    (old ∈ E ∨ (E = [] ∧ ∀ b ∈ l, b ≠ old)) →
    ∃ old', l.foldl (fun (s : List ((Nat × Nat) × Nat) × Nat × Nat × Nat) e => if e ≠ s.2.2 then (dset s.1 e s.2.1, s.2.1 + 1, e) else s) (E.zipIdx n, n + E.length, old) =
      ((l.foldl addE E).zipIdx n, n + (l.foldl addE E).length, old') := by
  intro l
  induction l with
  | nil => intro E old _ _ _ _ _ _; exact ⟨old, rfl⟩
  | cons b t ih =>
    intro E old hl hE h1 h2 h3 h4
    rw [List.foldl_cons, List.foldl_cons]
    dsimp only
    rw [List.pairwise_cons] at hl
    by_cases hb : b = old
    · have hm : b ∈ E := by
        rcases h4 with h | h
        · exact hb ▸ h
        · exact absurd hb (h.2 b List.mem_cons_self)
      rw [if_neg (by simpa using hb), show addE E b = E from if_pos hm]
      refine ih E old hl.2 hE (fun a ha c hc => h1 a ha c (List.mem_cons_of_mem _ hc)) h2 (fun c hc => h3 c (List.mem_cons_of_mem _ hc)) ?_
      rcases h4 with h | h
      · exact Or.inl h
      · exact absurd hb (h.2 b List.mem_cons_self)
    · have hm : b ∉ E := fun hm => by
        have g1 := h2 b hm
        have g2 := h3 b List.mem_cons_self
        apply hb
        unfold LexLe at g1 g2
        ext <;> omega
      rw [if_pos (by simpa using hb), show addE E b = E ++ [b] from if_neg hm, dset_zipIdx E b n hm]
      have := ih (E ++ [b]) b hl.2 (by
          have := addE_nodup E b hE
          rwa [show addE E b = E ++ [b] from if_neg hm] at this)
        (fun a ha c hc => by
          rcases List.mem_append.1 ha with ha | ha
          · exact h1 a ha c (List.mem_cons_of_mem _ hc)
          · rw [List.mem_singleton.1 ha]; exact hl.1 c hc)
        (fun a ha => by
          rcases List.mem_append.1 ha with ha | ha
          · exact h1 a ha b List.mem_cons_self
          · rw [List.mem_singleton.1 ha]; exact Or.inr ⟨rfl, le_refl _⟩)
        (fun c hc => hl.1 c hc) (Or.inl (by simp))
      rw [List.length_append, List.length_singleton] at this
      exact this

theorem count_fold (n : Nat) (f : List Nat → Nat × Nat) : ∀ (l : List (List Nat)) (E : List (Nat × Nat)), (E ++ l.map f).Nodup →
    l.foldl (fun (s : List ((Nat × Nat) × Nat) × Nat) c => (dset s.1 (f c) s.2, s.2 + 1)) (E.zipIdx n, n + E.length) =
      ((E ++ l.map f).zipIdx n, n + (E ++ l.map f).length) := by
  intro l
  induction l with
  | nil => intro E _; simp
  | cons c t ih =>
    intro E h
    rw [List.map_cons] at h ⊢
    have hm : f c ∉ E := by
      rw [List.nodup_append] at h
      exact fun hm => h.2.2 _ hm _ List.mem_cons_self rfl
    rw [List.foldl_cons]
    dsimp only
    rw [dset_zipIdx E (f c) n hm]
    have := ih (E ++ [f c]) (by rw [List.append_assoc]; exact h)
    rw [List.length_append, List.length_singleton] at this
    rw [show n + E.length + 1 = n + (E.length + 1) from rfl, this, List.append_assoc]
    rfl

/-! ### new cells -/

theorem cells1_eq (get : Nat × Nat → Option Nat) (num : Nat × Nat → Nat) (cells : List (List Nat)) (hc : ∀ c ∈ cells, c.length = 2)
    (h : ∀ c ∈ cells, ∀ i j, i < j → j < c.length → get (sortEdge (c.getD i 0) (c.getD j 0)) = some (num (sortEdge (c.getD i 0) (c.getD j 0)))) :
    cells1 get cells = some (cells.flatMap fun c => [[c.getD 0 0, num (sortEdge (c.getD 0 0) (c.getD 1 0))], [num (sortEdge (c.getD 0 0) (c.getD 1 0)), c.getD 1 0]]) := by
  unfold cells1
  rw [mapM_some _ (fun c => [[c.getD 0 0, num (sortEdge (c.getD 0 0) (c.getD 1 0))], [num (sortEdge (c.getD 0 0) (c.getD 1 0)), c.getD 1 0]])]
  · rfl
  · intro c hm
    have := hc c hm
    rw [h c hm 0 1 (by omega) (by omega)]
    rfl

theorem cells2_eq (get : Nat × Nat → Option Nat) (num : Nat × Nat → Nat) (cells : List (List Nat)) (hc : ∀ c ∈ cells, c.length = 3)
    (h : ∀ c ∈ cells, ∀ i j, i < j → j < c.length → get (sortEdge (c.getD i 0) (c.getD j 0)) = some (num (sortEdge (c.getD i 0) (c.getD j 0)))) :
    cells2 get cells = some (cells.flatMap fun c => children2 (c.getD 0 0) (c.getD 1 0) (c.getD 2 0) (num (sortEdge (c.getD 0 0) (c.getD 1 0)))
      (num (sortEdge (c.getD 1 0) (c.getD 2 0))) (num (sortEdge (c.getD 0 0) (c.getD 2 0)))) := by
  unfold cells2
  rw [mapM_some _ (fun c => children2 (c.getD 0 0) (c.getD 1 0) (c.getD 2 0) (num (sortEdge (c.getD 0 0) (c.getD 1 0)))
      (num (sortEdge (c.getD 1 0) (c.getD 2 0))) (num (sortEdge (c.getD 0 0) (c.getD 2 0))))]
  · rfl
  · intro c hm
    have := hc c hm
    rw [h c hm 0 1 (by omega) (by omega), h c hm 1 2 (by omega) (by omega), h c hm 0 2 (by omega) (by omega)]
    rfl

theorem cells3_eq [Field K] [LT K] [DecidableLT K] (get : Nat × Nat → Option Nat) (num : Nat × Nat → Nat) (v : List (List K)) (cells : List (List Nat)) (hc : ∀ c ∈ cells, c.length = 4)
    (h : ∀ c ∈ cells, ∀ i j, i < j → j < c.length → get (sortEdge (c.getD i 0) (c.getD j 0)) = some (num (sortEdge (c.getD i 0) (c.getD j 0)))) :
    cells3 get v cells = some (cells.flatMap fun c =>
      let m := fun i j => num (sortEdge (c.getD i 0) (c.getD j 0))
      children3 (diagonal (dist2 (v.getD (m 0 1) []) (v.getD (m 2 3) [])) (dist2 (v.getD (m 0 2) []) (v.getD (m 1 3) [])) (dist2 (v.getD (m 0 3) []) (v.getD (m 1 2) [])))
        (c.getD 0 0) (c.getD 1 0) (c.getD 2 0) (c.getD 3 0) (m 0 1) (m 0 2) (m 0 3) (m 1 2) (m 1 3) (m 2 3)) := by
  unfold cells3
  rw [mapM_some _ (fun c =>
      let m := fun i j => num (sortEdge (c.getD i 0) (c.getD j 0))
      children3 (diagonal (dist2 (v.getD (m 0 1) []) (v.getD (m 2 3) [])) (dist2 (v.getD (m 0 2) []) (v.getD (m 1 3) [])) (dist2 (v.getD (m 0 3) []) (v.getD (m 1 2) [])))
        (c.getD 0 0) (c.getD 1 0) (c.getD 2 0) (c.getD 3 0) (m 0 1) (m 0 2) (m 0 3) (m 1 2) (m 1 3) (m 2 3))]
  · rfl
  · intro c hm
    have := hc c hm
    rw [h c hm 0 1 (by omega) (by omega), h c hm 0 2 (by omega) (by omega), h c hm 0 3 (by omega) (by omega), h c hm 1 2 (by omega) (by omega),
      h c hm 1 3 (by omega) (by omega), h c hm 2 3 (by omega) (by omega)]
    rfl

end PyNucleus.Refine
