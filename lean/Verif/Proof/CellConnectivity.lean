import Verif.Model.CellConnectivity
import Mathlib.Data.Finset.Card
import Mathlib.Data.List.GetD
import Mathlib.Tactic.Tauto

/-! # Lemmas on the connectivity of cells -/

namespace PyNucleus.CellConnectivity

theorem mem_addTo (s : List Nat) (x y : Nat) : y ∈ addTo s x ↔ y ∈ s ∨ y = x := by
  unfold addTo
  split
  · constructor
    · exact Or.inl
    · rintro (h | rfl) <;> assumption
  · simp

theorem nodup_addTo (s : List Nat) (x : Nat) (h : s.Nodup) : (addTo s x).Nodup := by
  unfold addTo
  split
  · exact h
  · rename_i hx
    rw [List.nodup_append]
    refine ⟨h, by simp, ?_⟩
    intro a ha b hb
    rw [List.mem_singleton] at hb
    subst hb
    rintro rfl
    exact hx ha

theorem fold_addAt (c : Nat) : ∀ (l : List Nat) (s : Nat → List Nat), (∀ i, (s i).Nodup) →
    (∀ v x, x ∈ l.foldl (fun s v => addAt s v c) s v ↔ x ∈ s v ∨ (v ∈ l ∧ x = c)) ∧
      ∀ i, (l.foldl (fun s v => addAt s v c) s i).Nodup := by
  intro l
  induction l with
  | nil => intro s hs; simpa using hs
  | cons w l ih =>
    intro s hs
    have hs' : ∀ i, (addAt s w c i).Nodup := by
      intro i
      unfold addAt
      split
      · exact nodup_addTo _ _ (hs w)
      · exact hs i
    obtain ⟨h1, h2⟩ := ih (addAt s w c) hs'
    refine ⟨fun v x => ?_, h2⟩
    rw [List.foldl_cons, h1]
    unfold addAt
    by_cases hv : v = w
    · subst hv
      rw [if_pos rfl, mem_addTo]
      simp only [List.mem_cons, true_or, true_and]
      tauto
    · rw [if_neg hv]
      simp [hv]

theorem v2c_spec (cells : List (List Nat)) :
    (∀ v c, c ∈ v2c cells v ↔ c < cells.length ∧ v ∈ cells.getD c []) ∧ ∀ v, (v2c cells v).Nodup := by
  have key : ∀ (l : List Nat) (s : Nat → List Nat), (∀ i, (s i).Nodup) →
      (∀ v x, x ∈ l.foldl (fun s c => (cells.getD c []).foldl (fun s v => addAt s v c) s) s v ↔
        x ∈ s v ∨ (x ∈ l ∧ v ∈ cells.getD x [])) ∧
      ∀ i, (l.foldl (fun s c => (cells.getD c []).foldl (fun s v => addAt s v c) s) s i).Nodup := by
    intro l
    induction l with
    | nil => intro s hs; simpa using hs
    | cons c l ih =>
      intro s hs
      obtain ⟨h1, h2⟩ := fold_addAt c (cells.getD c []) s hs
      obtain ⟨h3, h4⟩ := ih _ h2
      refine ⟨fun v x => ?_, h4⟩
      rw [List.foldl_cons, h3, h1, List.mem_cons]
      constructor
      · rintro ((h | ⟨h, rfl⟩) | ⟨h, h'⟩)
        · exact Or.inl h
        · exact Or.inr ⟨Or.inl rfl, h⟩
        · exact Or.inr ⟨Or.inr h, h'⟩
      · rintro (h | ⟨rfl | h, h'⟩)
        · exact Or.inl (Or.inl h)
        · exact Or.inl (Or.inr ⟨h', rfl⟩)
        · exact Or.inr ⟨h, h'⟩
  obtain ⟨h1, h2⟩ := key (List.range cells.length) (fun _ => []) (fun _ => List.nodup_nil)
  refine ⟨fun v c => ?_, h2⟩
  unfold v2c
  rw [h1]
  simp

theorem addPair_spec (v : Nat) (t : Nat → Nat → List Nat) (ht : ∀ a b, (t a b).Nodup) (c c' : Nat) :
    (∀ a b x, x ∈ addPair v t c c' a b ↔ x ∈ t a b ∨ (x = v ∧ a = c ∧ b = c' ∧ a ≠ b)) ∧
      ∀ a b, (addPair v t c c' a b).Nodup := by
  unfold addPair
  split
  · rename_i hc
    constructor
    · intro a b x
      dsimp only
      split
      · rename_i h
        obtain ⟨rfl, rfl⟩ := h
        rw [mem_addTo]
        tauto
      · rename_i h
        tauto
    · intro a b
      dsimp only
      split
      · exact nodup_addTo _ _ (ht _ _)
      · exact ht a b
  · rename_i hc
    have hc : c = c' := by simpa using hc
    subst hc
    refine ⟨fun a b x => ?_, ht⟩
    constructor
    · exact Or.inl
    · rintro (h | ⟨-, rfl, rfl, h⟩)
      · exact h
      · exact absurd rfl h

theorem fold_inner (v c : Nat) : ∀ (l : List Nat) (t : Nat → Nat → List Nat), (∀ a b, (t a b).Nodup) →
    (∀ a b x, x ∈ l.foldl (fun t c' => addPair v t c c') t a b ↔
      x ∈ t a b ∨ (x = v ∧ a = c ∧ b ∈ l ∧ a ≠ b)) ∧
      ∀ a b, (l.foldl (fun t c' => addPair v t c c') t a b).Nodup := by
  intro l
  induction l with
  | nil => intro t ht; simpa using ht
  | cons c' l ih =>
    intro t ht
    obtain ⟨h1, h2⟩ := addPair_spec v t ht c c'
    obtain ⟨h3, h4⟩ := ih _ h2
    refine ⟨fun a b x => ?_, h4⟩
    rw [List.foldl_cons, h3, h1, List.mem_cons]
    tauto

theorem fold_outer (v : Nat) (l' : List Nat) : ∀ (l : List Nat) (t : Nat → Nat → List Nat),
    (∀ a b, (t a b).Nodup) →
    (∀ a b x, x ∈ l.foldl (fun t c => l'.foldl (fun t c' => addPair v t c c') t) t a b ↔
      x ∈ t a b ∨ (x = v ∧ a ∈ l ∧ b ∈ l' ∧ a ≠ b)) ∧
      ∀ a b, (l.foldl (fun t c => l'.foldl (fun t c' => addPair v t c c') t) t a b).Nodup := by
  intro l
  induction l with
  | nil => intro t ht; simpa using ht
  | cons c l ih =>
    intro t ht
    obtain ⟨h1, h2⟩ := fold_inner v c l' t ht
    obtain ⟨h3, h4⟩ := ih _ h2
    refine ⟨fun a b x => ?_, h4⟩
    rw [List.foldl_cons, h3, h1, List.mem_cons]
    tauto

theorem c2c_spec (numVertices : Nat) (cells : List (List Nat)) :
    (∀ a b x, x ∈ c2c numVertices cells a b ↔
      x < numVertices ∧ a ≠ b ∧ a < cells.length ∧ b < cells.length ∧ x ∈ cells.getD a [] ∧ x ∈ cells.getD b []) ∧
      ∀ a b, (c2c numVertices cells a b).Nodup := by
  obtain ⟨hv, hvn⟩ := v2c_spec cells
  have key : ∀ (l : List Nat) (t : Nat → Nat → List Nat), (∀ a b, (t a b).Nodup) →
      (∀ a b x, x ∈ l.foldl (fun t v => if (v2c cells v).length > 1 then
          (v2c cells v).foldl (fun t c => (v2c cells v).foldl (fun t c' => addPair v t c c') t) t else t) t a b ↔
        x ∈ t a b ∨ (x ∈ l ∧ a ∈ v2c cells x ∧ b ∈ v2c cells x ∧ a ≠ b)) ∧
      ∀ a b, (l.foldl (fun t v => if (v2c cells v).length > 1 then
          (v2c cells v).foldl (fun t c => (v2c cells v).foldl (fun t c' => addPair v t c c') t) t else t) t a b).Nodup := by
    intro l
    induction l with
    | nil => intro t ht; simpa using ht
    | cons v l ih =>
      intro t ht
      rw [List.foldl_cons]
      by_cases hl : (v2c cells v).length > 1
      · rw [if_pos hl]
        obtain ⟨h1, h2⟩ := fold_outer v (v2c cells v) (v2c cells v) t ht
        obtain ⟨h3, h4⟩ := ih _ h2
        refine ⟨fun a b x => ?_, h4⟩
        rw [h3, h1, List.mem_cons]
        constructor
        · rintro ((h | ⟨rfl, h⟩) | ⟨h, h'⟩)
          · exact Or.inl h
          · exact Or.inr ⟨Or.inl rfl, h⟩
          · exact Or.inr ⟨Or.inr h, h'⟩
        · rintro (h | ⟨rfl | h, h'⟩)
          · exact Or.inl (Or.inl h)
          · exact Or.inl (Or.inr ⟨rfl, h'⟩)
          · exact Or.inr ⟨h, h'⟩
      · rw [if_neg hl]
        obtain ⟨h3, h4⟩ := ih t ht
        refine ⟨fun a b x => ?_, h4⟩
        rw [h3, List.mem_cons]
        constructor
        · rintro (h | ⟨h, h'⟩)
          · exact Or.inl h
          · exact Or.inr ⟨Or.inr h, h'⟩
        · rintro (h | ⟨rfl | h, ha, hb, hab⟩)
          · exact Or.inl h
          · exfalso
            refine hl ?_
            have : ([a, b] : List Nat).length ≤ (v2c cells x).length :=
              (List.subperm_of_subset (l₁ := [a, b]) (by simpa using hab) (by
                intro z hz
                simp only [List.mem_cons, List.not_mem_nil, or_false] at hz
                rcases hz with rfl | rfl <;> assumption)).length_le
            exact this
          · exact Or.inr ⟨h, ha, hb, hab⟩
  obtain ⟨h1, h2⟩ := key (List.range numVertices) (fun _ _ => []) (fun _ _ => List.nodup_nil)
  refine ⟨fun a b x => ?_, h2⟩
  unfold c2c
  rw [h1]
  simp only [List.not_mem_nil, List.mem_range, false_or, hv]
  tauto

theorem c2c_length (numVertices : Nat) (cells : List (List Nat))
    (hc : ∀ c ∈ cells, ∀ v ∈ c, v < numVertices) (a b : Nat) (ha : a < cells.length) (hb : b < cells.length)
    (hab : a ≠ b) : (c2c numVertices cells a b).length =
      ((cells.getD a []).toFinset ∩ (cells.getD b []).toFinset).card := by
  obtain ⟨h1, h2⟩ := c2c_spec numVertices cells
  rw [← List.toFinset_card_of_nodup (h2 a b)]
  congr 1
  ext x
  rw [List.mem_toFinset, h1, Finset.mem_inter, List.mem_toFinset, List.mem_toFinset]
  constructor
  · rintro ⟨-, -, -, -, h⟩; exact h
  · intro h
    refine ⟨?_, hab, ha, hb, h⟩
    rw [List.getD_eq_getElem _ _ ha] at h
    exact hc _ (List.getElem_mem ha) x h.1

theorem fold_select (p : Nat → Prop) [DecidablePred p] : ∀ (l s : List Nat), s.Nodup →
    (∀ x, x ∈ l.foldl (fun s c' => if p c' then addTo s c' else s) s ↔ x ∈ s ∨ (x ∈ l ∧ p x)) ∧
      (l.foldl (fun s c' => if p c' then addTo s c' else s) s).Nodup := by
  intro l
  induction l with
  | nil => intro s hs; simpa using hs
  | cons c l ih =>
    intro s hs
    rw [List.foldl_cons]
    by_cases hp : p c
    · rw [if_pos hp]
      obtain ⟨h1, h2⟩ := ih (addTo s c) (nodup_addTo s c hs)
      refine ⟨fun x => ?_, h2⟩
      rw [h1, mem_addTo, List.mem_cons]
      constructor
      · rintro ((h | rfl) | h)
        · exact Or.inl h
        · exact Or.inr ⟨Or.inl rfl, hp⟩
        · exact Or.inr ⟨Or.inr h.1, h.2⟩
      · rintro (h | ⟨rfl | h, h'⟩)
        · exact Or.inl (Or.inl h)
        · exact Or.inl (Or.inr rfl)
        · exact Or.inr ⟨h, h'⟩
    · rw [if_neg hp]
      obtain ⟨h1, h2⟩ := ih s hs
      refine ⟨fun x => ?_, h2⟩
      rw [h1, List.mem_cons]
      constructor
      · rintro (h | h)
        · exact Or.inl h
        · exact Or.inr ⟨Or.inr h.1, h.2⟩
      · rintro (h | ⟨rfl | h, h'⟩)
        · exact Or.inl h
        · exact absurd h' hp
        · exact Or.inr ⟨h, h'⟩

end PyNucleus.CellConnectivity
