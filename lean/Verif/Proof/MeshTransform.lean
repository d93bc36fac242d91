import Verif.Model.MeshTransform
import Verif.Props.C42

/-! Lemmas for C89. -/

namespace PyNucleus.MeshTransform

open PyNucleus.Refine PyNucleus.Props.C42

theorem moveAll_some (place : List ℝ → List ℝ → List ℝ → Option (List ℝ)) (g : (Nat × Nat) × Nat → List ℝ) (N : Nat) : ∀ (l : List ((Nat × Nat) × Nat)) (V : List (List ℝ)),
    (l.map Prod.snd).Nodup → (∀ p ∈ l, p.1.1 < N ∧ p.1.2 < N ∧ N ≤ p.2 ∧ p.2 < V.length) →
    (∀ p ∈ l, place (V.getD p.1.1 []) (V.getD p.1.2 []) (V.getD p.2 []) = some (g p)) →
    ∃ W, moveAll place V l = some W ∧ W.length = V.length ∧ (∀ p ∈ l, W.getD p.2 [] = g p) ∧ ∀ i, i ∉ l.map Prod.snd → W.getD i [] = V.getD i [] := by
  intro l
  induction l with
  | nil => intro V _ _ _; exact ⟨V, rfl, rfl, by simp, fun _ _ => rfl⟩
  | cons p l ih =>
    intro V hnd hr hp
    rw [List.map_cons, List.nodup_cons] at hnd
    have hset : ∀ i, i ≠ p.2 → (V.set p.2 (g p)).getD i [] = V.getD i [] := fun i hi => by
      rw [List.getD_eq_getElem?_getD, List.getElem?_set_ne (Ne.symm hi), ← List.getD_eq_getElem?_getD]
    have hp2 := hr p (by simp)
    have hne : ∀ q ∈ l, q.1.1 ≠ p.2 ∧ q.1.2 ≠ p.2 ∧ q.2 ≠ p.2 := fun q hq => by
      have := hr q (by simp [hq])
      refine ⟨by omega, by omega, fun e => hnd.1 (by rw [← e]; exact List.mem_map_of_mem hq)⟩
    obtain ⟨W, h1, h2, h3, h4⟩ := ih (V.set p.2 (g p)) hnd.2 (fun q hq => by rw [List.length_set]; exact hr q (by simp [hq])) (fun q hq => by
      obtain ⟨a, b, c⟩ := hne q hq
      rw [hset _ a, hset _ b, hset _ c]
      exact hp q (by simp [hq]))
    refine ⟨W, ?_, by rw [h2, List.length_set], ?_, ?_⟩
    · unfold moveAll at h1 ⊢
      rw [List.foldlM_cons, hp p (by simp)]
      exact h1
    · intro q hq
      rcases List.mem_cons.1 hq with rfl | hq
      · rw [h4 _ hnd.1, List.getD_eq_getElem?_getD, List.getElem?_set_self hp2.2.2.2]
        rfl
      · exact h3 q hq
    · intro i hi
      rw [List.map_cons, List.mem_cons, not_or] at hi
      rw [h4 i hi.2, hset i hi.1]

theorem moveAll_none (place : List ℝ → List ℝ → List ℝ → Option (List ℝ)) (N : Nat) : ∀ (l : List ((Nat × Nat) × Nat)) (V : List (List ℝ)),
    (l.map Prod.snd).Nodup → (∀ p ∈ l, p.1.1 < N ∧ p.1.2 < N ∧ N ≤ p.2 ∧ p.2 < V.length) →
    (∃ p ∈ l, place (V.getD p.1.1 []) (V.getD p.1.2 []) (V.getD p.2 []) = none) → moveAll place V l = none := by
  intro l
  induction l with
  | nil => rintro V _ _ ⟨p, hp, _⟩; simp at hp
  | cons p l ih =>
    rintro V hnd hr ⟨q, hq, he⟩
    rw [List.map_cons, List.nodup_cons] at hnd
    unfold moveAll
    rw [List.foldlM_cons]
    cases hpl : place (V.getD p.1.1 []) (V.getD p.1.2 []) (V.getD p.2 []) with
    | none => rfl
    | some row =>
      show moveAll place (V.set p.2 row) l = none
      have hset : ∀ i, i ≠ p.2 → (V.set p.2 row).getD i [] = V.getD i [] := fun i hi => by
        rw [List.getD_eq_getElem?_getD, List.getElem?_set_ne (Ne.symm hi), ← List.getD_eq_getElem?_getD]
      have hp2 := hr p (by simp)
      rcases List.mem_cons.1 hq with rfl | hq
      · rw [hpl] at he; exact absurd he (by simp)
      · have hq2 := hr q (by simp [hq])
        refine ih _ hnd.2 (fun q hq => by rw [List.length_set]; exact hr q (by simp [hq])) ⟨q, hq, ?_⟩
        rw [hset _ (by omega), hset _ (by omega), hset _ (fun e => hnd.1 (by rw [← e]; exact List.mem_map_of_mem hq))]
        exact he

section
variable {d dim : Nat} {V V' : List (List ℝ)} {cells cells' : List (List Nat)} {m : Nat → Nat → Nat} {lookup : List ((Nat × Nat) × Nat)}

theorem edge_lt (hc : IsMesh d V.length cells) {a b : Nat} (h : IsEdge cells a b) : a < V.length ∧ b < V.length := by
  obtain ⟨-, c, hm, ha, hb⟩ := h
  exact ⟨(hc c hm).2.2 a ha, (hc c hm).2.2 b hb⟩

theorem lookup_snd (hR : Refined d dim V cells m V' cells' lookup) : (lookup.map Prod.snd).Nodup := by
  refine List.Nodup.map_on ?_ (List.Nodup.of_map _ hR.keys)
  rintro ⟨⟨a, b⟩, v⟩ hp ⟨⟨a', b'⟩, v'⟩ hq e
  obtain ⟨h1, h2, rfl⟩ := (hR.table a b v).1 hp
  obtain ⟨h1', h2', rfl⟩ := (hR.table a' b' v').1 hq
  dsimp only at e
  rcases hR.inj a b a' b' h2 h2' e with ⟨rfl, rfl⟩ | ⟨rfl, rfl⟩
  · rfl
  · omega

theorem lookup_range (hR : Refined d dim V cells m V' cells' lookup) (hc : IsMesh d V.length cells) :
    ∀ p ∈ lookup, p.1.1 < V.length ∧ p.1.2 < V.length ∧ V.length ≤ p.2 ∧ p.2 < V'.length := by
  rintro ⟨⟨a, b⟩, v⟩ hp
  obtain ⟨h1, h2, rfl⟩ := (hR.table a b v).1 hp
  exact ⟨(edge_lt hc h2).1, (edge_lt hc h2).2, (hR.range a b h2).1, (hR.range a b h2).2⟩

theorem old_row (hR : Refined d dim V cells m V' cells' lookup) {i : Nat} (hi : i < V.length) : V'.getD i [] = V.getD i [] := by
  conv_rhs => rw [← hR.old]
  rw [List.getD_eq_getElem?_getD, List.getD_eq_getElem?_getD, List.getElem?_take_of_lt hi]

theorem old_le (hR : Refined d dim V cells m V' cells' lookup) : V.length ≤ V'.length := by
  have := congrArg List.length hR.old
  rw [List.length_take] at this
  omega

/-- The result of a transformation: old vertices are kept, the row of the vertex of each edge is given by `place`. -/
structure Moved (V : List (List ℝ)) (cells : List (List Nat)) (m : Nat → Nat → Nat) (V' : List (List ℝ)) (place : List ℝ → List ℝ → List ℝ → Option (List ℝ))
    (W : List (List ℝ)) : Prop where
  length : W.length = V'.length
  old : ∀ i, i < V.length → W.getD i [] = V.getD i []
  new : ∀ a b, IsEdge cells a b → place (V.getD a []) (V.getD b []) (V'.getD (m a b) []) = some (W.getD (m a b) [])

theorem moved_some (hR : Refined d dim V cells m V' cells' lookup) (hc : IsMesh d V.length cells) (place : List ℝ → List ℝ → List ℝ → Option (List ℝ))
    (hs : ∀ a b r, place a b r = place b a r) (hp : ∀ a b, IsEdge cells a b → (place (V.getD a []) (V.getD b []) (V'.getD (m a b) [])).isSome) :
    ∃ W, moveAll place V' lookup = some W ∧ Moved V cells m V' place W := by
  have hr := lookup_range hR hc
  obtain ⟨W, h1, h2, h3, h4⟩ := moveAll_some place (fun p => (place (V.getD p.1.1 []) (V.getD p.1.2 []) (V'.getD p.2 [])).getD []) V.length lookup V' (lookup_snd hR) hr (by
    rintro ⟨⟨a, b⟩, v⟩ hm
    obtain ⟨_, he, rfl⟩ := (hR.table a b v).1 hm
    dsimp only
    rw [old_row hR (edge_lt hc he).1, old_row hR (edge_lt hc he).2]
    obtain ⟨x, hx⟩ := Option.isSome_iff_exists.1 (hp a b he)
    rw [hx]; rfl)
  refine ⟨W, h1, h2, ?_, ?_⟩
  · intro i hi
    rw [h4 i, old_row hR hi]
    intro hm
    obtain ⟨p, hp, rfl⟩ := List.mem_map.1 hm
    have := hr p hp
    omega
  · have key : ∀ a b, a < b → IsEdge cells a b → place (V.getD a []) (V.getD b []) (V'.getD (m a b) []) = some (W.getD (m a b) []) := by
      intro a b hab he
      have := h3 ((a, b), m a b) ((hR.table a b _).2 ⟨hab, he, rfl⟩)
      dsimp only at this
      obtain ⟨x, hx⟩ := Option.isSome_iff_exists.1 (hp a b he)
      rw [this, hx]; rfl
    intro a b he
    rcases Nat.lt_or_ge a b with hab | hab
    · exact key a b hab he
    · have he' : IsEdge cells b a := ⟨he.1.symm, by obtain ⟨c, h1, h2, h3⟩ := he.2; exact ⟨c, h1, h3, h2⟩⟩
      have := key b a (by have := he.1; omega) he'
      rw [hs, hR.symm a b]
      exact this

theorem moved_none (hR : Refined d dim V cells m V' cells' lookup) (hc : IsMesh d V.length cells) (place : List ℝ → List ℝ → List ℝ → Option (List ℝ))
    (hs : ∀ a b r, place a b r = place b a r) {a b : Nat} (he : IsEdge cells a b) (hp : place (V.getD a []) (V.getD b []) (V'.getD (m a b) []) = none) :
    moveAll place V' lookup = none := by
  refine moveAll_none place V.length lookup V' (lookup_snd hR) (lookup_range hR hc) ?_
  rcases Nat.lt_or_ge a b with hab | hab
  · refine ⟨((a, b), m a b), (hR.table a b _).2 ⟨hab, he, rfl⟩, ?_⟩
    dsimp only
    rw [old_row hR (edge_lt hc he).1, old_row hR (edge_lt hc he).2]
    exact hp
  · have he' : IsEdge cells b a := ⟨he.1.symm, by obtain ⟨c, h1, h2, h3⟩ := he.2; exact ⟨c, h1, h3, h2⟩⟩
    refine ⟨((b, a), m b a), (hR.table b a _).2 ⟨by have := he.1; omega, he', rfl⟩, ?_⟩
    dsimp only
    rw [old_row hR (edge_lt hc he).1, old_row hR (edge_lt hc he).2, hs, ← hR.symm a b]
    exact hp

end

theorem size_nonneg (dim : Nat) (row : List ℝ) : 0 ≤ size dim row := Real.sqrt_nonneg _

theorem size_sq (dim : Nat) (row : List ℝ) : size dim row ^ 2 = ∑ i ∈ Finset.range dim, row.getD i 0 ^ 2 := by
  unfold size
  have : ((List.range dim).map fun i => row.getD i 0 ^ 2).sum = ∑ i ∈ Finset.range dim, row.getD i 0 ^ 2 := by
    rw [← List.toFinset_range, List.sum_toFinset _ List.nodup_range]
  rw [this, Real.sq_sqrt (Finset.sum_nonneg fun i _ => sq_nonneg _)]

theorem size_zero (dim : Nat) (row : List ℝ) : size dim row = 0 ↔ ∀ i, i < dim → row.getD i 0 = 0 := by
  rw [← sq_eq_zero_iff, size_sq, Finset.sum_eq_zero_iff_of_nonneg fun i _ => sq_nonneg _]
  simp only [Finset.mem_range, sq_eq_zero_iff]

theorem size_congr (dim : Nat) {row row' : List ℝ} (h : ∀ i, i < dim → row.getD i 0 = row'.getD i 0) : size dim row = size dim row' := by
  unfold size
  congr 2
  apply List.map_congr_left
  intro i hi
  rw [h i (List.mem_range.1 hi)]

theorem size_mul (dim : Nat) {row row' : List ℝ} {t : ℝ} (ht : 0 ≤ t) (h : ∀ i, i < dim → row'.getD i 0 = t * row.getD i 0) : size dim row' = t * size dim row := by
  have h1 : size dim row' ^ 2 = (t * size dim row) ^ 2 := by
    rw [mul_pow, size_sq, size_sq, Finset.mul_sum]
    apply Finset.sum_congr rfl
    intro i hi
    rw [h i (Finset.mem_range.1 hi), mul_pow]
  exact (sq_eq_sq₀ (size_nonneg _ _) (mul_nonneg ht (size_nonneg _ _))).1 h1

theorem getD_scaled (dim : Nat) (f : Nat → ℝ) {i : Nat} (hi : i < dim) : ((List.range dim).map f).getD i 0 = f i := by
  rw [List.getD_eq_getElem _ _ (by simpa using hi)]
  simp

/-- A rescaled row has the wanted size and the old direction. -/
theorem rescale_some {dim : Nat} {row row' : List ℝ} {r : ℝ} (hr : 0 ≤ r) (h : rescale dim row r = some row') :
    size dim row ≠ 0 ∧ row'.length = dim ∧ size dim row' = r ∧ ∀ i, i < dim → row'.getD i 0 = r / size dim row * row.getD i 0 := by
  unfold rescale at h
  split at h
  · exact absurd h (by simp)
  · rename_i h0
    injection h with h
    subst h
    have hk : ∀ i, i < dim → ((List.range dim).map fun i => row.getD i 0 * (r / size dim row)).getD i 0 = r / size dim row * row.getD i 0 := fun i hi => by
      rw [getD_scaled dim _ hi, mul_comm]
    refine ⟨h0, by simp, ?_, hk⟩
    rw [size_mul dim (div_nonneg hr (size_nonneg _ _)) hk, div_mul_cancel₀ _ h0]

end PyNucleus.MeshTransform
