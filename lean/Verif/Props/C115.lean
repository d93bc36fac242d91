import Verif.Model.LevelStorage

/-!
# C115: lists of levels, their storage, and the collapsed prolongation
-/

namespace PyNucleus.Props.C115

open PyNucleus.LevelStorage

/-- Rebuilding a hierarchy from its list of levels keeps the number of levels and all listed attributes of each level; it fails
exactly if there are no levels. -/
theorem restored {α : Type} (h : List (Level α)) :
    (fromList (levelList [h]) = none ↔ h = []) ∧
    ∀ h', fromList (levelList [h]) = some h' → h'.length = h.length ∧
      ∀ i (hi : i < h.length) (hi' : i < h'.length),
        (∀ k ∈ algKeys, (h'[i]).alg k = (h[i]).alg k) ∧ ∀ k ∈ meshKeys, (h'[i]).mesh k = (h[i]).mesh k := by
  have hl : levelList [h] = h.map levelDict := by simp [levelList]
  rw [hl]
  unfold fromList
  constructor
  · by_cases hh : h = []
    · simp [hh]
    · simp [hh]
  · intro h' e
    split at e
    · cases e
    · simp only [Option.some.injEq] at e
      subst e
      refine ⟨by simp, fun i hi hi' => ⟨fun k hk => ?_, fun k hk => ?_⟩⟩
      · have hm : k ∉ meshKeys := by revert k; decide
        have hn : k ≠ "neumannA" := by revert k; decide
        simp [fromDict, levelDict, update, dictOf, algDict, hk, hm, hn]
      · have ha : k ∉ algKeys := by revert k; decide
        have hn : k ≠ "neumannA" := by revert k; decide
        simp [fromDict, levelDict, update, dictOf, algDict, hk, ha, hn]

/-- All other attributes are lost: the matrix with Neumann condition, for which there is an entry, and the surface stiffness matrix, which
is stored under another name. -/
theorem others_fails {α : Type} (l : Level α) :
    (fromDict (levelDict l)).alg "neumannA" = none ∧ (fromDict (levelDict l)).alg "surfaceStiffness" = none ∧
    (l.alg " neumannA" = none → levelDict l "neumannA" = none) := by
  refine ⟨rfl, rfl, fun h => ?_⟩
  simp [levelDict, update, algDict, dictOf, h, meshKeys, algKeys]

/-- In a hierarchy that is built by refinement each algebraic level knows the previous one; in a rebuilt hierarchy none does. -/
theorem linked_fails (i : Nat) (h : 0 < i) : previous true i = some (i - 1) ∧ previous false i = none := by
  have h0 : ¬ i = 0 := by omega
  simp [previous, h0]

/-- The list of a chain of hierarchies: the finest level of each one is replaced by the coarsest of the next one. -/
theorem chain {α : Type} (hs : List (List (Level α))) (h : List (Level α)) (hne : ∀ g ∈ hs ++ [h], g ≠ []) :
    levelList (hs ++ [h]) = (hs.map fun g => g.dropLast.map levelDict).flatten ++ h.map levelDict ∧
    (levelList (hs ++ [h])).length + hs.length = ((hs ++ [h]).map List.length).sum := by
  have key : ∀ hs : List (List (Level α)), (∀ g ∈ hs, g ≠ []) →
      (levelList hs).dropLast = (hs.map fun g => g.dropLast.map levelDict).flatten := by
    intro hs
    induction hs using List.reverseRecOn with
    | nil => intro _; rfl
    | append_singleton hs g ih =>
      intro hn
      have hg : g ≠ [] := hn g (by simp)
      have := ih fun g' h' => hn g' (by simp [h'])
      unfold levelList at this ⊢
      rw [List.foldl_append, List.foldl_cons, List.foldl_nil, List.dropLast_append_of_ne_nil (by simpa using hg), this]
      simp [List.map_dropLast]
  have h1 : levelList (hs ++ [h]) = (hs.map fun g => g.dropLast.map levelDict).flatten ++ h.map levelDict := by
    have := key hs fun g hg => hne g (by simp [hg])
    unfold levelList at this ⊢
    rw [List.foldl_append, List.foldl_cons, List.foldl_nil, this]
  refine ⟨h1, ?_⟩
  rw [h1, List.length_append, List.length_map, List.map_append, List.sum_append]
  have : ∀ hs : List (List (Level α)), (∀ g ∈ hs, g ≠ []) →
      ((hs.map fun g => g.dropLast.map levelDict).flatten).length + hs.length = (hs.map List.length).sum := by
    intro hs
    induction hs with
    | nil => intro _; rfl
    | cons g hs ih =>
      intro hn
      have := ih fun g' h' => hn g' (List.mem_cons_of_mem _ h')
      have hg : 0 < g.length := List.length_pos_iff.2 (hn g List.mem_cons_self)
      simp only [List.map_cons, List.flatten_cons, List.length_append, List.length_map, List.length_dropLast, List.length_cons,
        List.sum_cons] at this ⊢
      omega
  have := this hs fun g hg => hne g (by simp [hg])
  simp only [List.map_cons, List.map_nil, List.sum_cons, List.sum_nil]
  omega

/-- So the prolongation to the finest level of a hierarchy is lost if another hierarchy follows: its coarsest level has no
previous level and hence no prolongation. -/
theorem connection_fails {α : Type} (g h : List (Level α)) (l : Level α) (hg : 1 < g.length) (hP : l.alg "P" = none) :
    ∃ d, (levelList [g, l :: h])[g.length - 1]? = some d ∧ 0 < g.length - 1 ∧ d "P" = none := by
  refine ⟨levelDict l, ?_, by omega, ?_⟩
  · simp only [levelList, List.foldl_cons, List.foldl_nil, List.dropLast_nil, List.nil_append, List.map_cons]
    rw [List.getElem?_append_right (by simp)]
    simp
  · simp [levelDict, update, dictOf, algDict, meshKeys, algKeys, hP]

/-- Writing the levels to a file and reading them gives back the matrices of all levels, if the last level has an entry for the
file; else writing fails. -/
theorem stored {α : Type} (levels : List (Attrs α)) (mesh : α) :
    (write levels mesh = none ↔ ∀ l, levels.getLast? = some l → ∀ k ∈ ["P", "R", "A", "mesh"], l k = none) ∧
    ∀ f, write levels mesh = some f → LevelStorage.read f = levels.map fun l k => if k ∈ ["P", "R", "A"] then l k else none := by
  have hgr : ∀ (i : Nat) (l : Attrs α), groups i l = [] ↔ ∀ k ∈ ["P", "R", "A", "mesh"], l k = none := by
    intro i l
    unfold groups
    rw [List.filterMap_eq_nil_iff]
    simp only [Option.map_eq_none_iff]
  have hmg : ∀ (i : Nat) (l : Attrs α) (g : Nat × String × α),
      g ∈ groups i l ↔ g.1 = i ∧ g.2.1 ∈ ["P", "R", "A", "mesh"] ∧ l g.2.1 = some g.2.2 := by
    rintro i l ⟨j, k, v⟩
    unfold groups
    rw [List.mem_filterMap]
    constructor
    · rintro ⟨k', hk', e⟩
      rw [Option.map_eq_some_iff] at e
      obtain ⟨v', hv', e⟩ := e
      simp only [Prod.mk.injEq] at e
      obtain ⟨rfl, rfl, rfl⟩ := e
      exact ⟨rfl, hk', hv'⟩
    · rintro ⟨h1, hk, hv⟩
      dsimp only at h1 hk hv
      exact ⟨k, hk, by rw [hv, h1]; rfl⟩
  cases hlast : levels.getLast? with
  | none =>
    constructor
    · unfold write; rw [hlast]; simp
    · intro f hf; unfold write at hf; rw [hlast] at hf; cases hf
  | some l =>
    have hne : levels ≠ [] := by rintro rfl; simp at hlast
    have hpos : 0 < levels.length := List.length_pos_iff.2 hne
    have hln : levels[levels.length - 1]? = some l := by rw [← hlast, List.getLast?_eq_getElem?]
    constructor
    · unfold write
      rw [hlast]
      dsimp only
      constructor
      · intro h l' hl'
        simp only [Option.some.injEq] at hl'
        subst hl'
        split at h
        · rename_i hg; exact (hgr _ _).1 hg
        · cases h
      · intro h
        rw [if_pos ((hgr _ _).2 (h l rfl))]
    · intro f hf
      unfold write at hf
      rw [hlast] at hf
      dsimp only at hf
      split at hf
      · cases hf
      · rename_i hg
        simp only [Option.some.injEq] at hf
        -- membership in the file
        have hmem0 : ∀ g, g ∈ (levels.zipIdx.map fun p => groups p.2 p.1).flatten ↔
            ∃ l', levels[g.1]? = some l' ∧ g.2.1 ∈ ["P", "R", "A", "mesh"] ∧ l' g.2.1 = some g.2.2 := by
          intro g
          rw [List.mem_flatten]
          constructor
          · rintro ⟨_, h1, h2⟩
            obtain ⟨⟨l', i⟩, h3, rfl⟩ := List.mem_map.1 h1
            obtain ⟨h4, h5, h6⟩ := (hmg _ _ _).1 h2
            rw [List.mem_zipIdx_iff_getElem?] at h3
            dsimp only at h3 h4 h5 h6
            exact ⟨l', by rw [h4]; exact h3, h5, h6⟩
          · rintro ⟨l', h1, h2, h3⟩
            exact ⟨_, List.mem_map.2 ⟨(l', g.1), List.mem_zipIdx_iff_getElem?.2 h1, rfl⟩, (hmg _ _ _).2 ⟨rfl, h2, h3⟩⟩
        have hmem : ∀ g, g.2.1 ∈ ["P", "R", "A"] → (g ∈ f ↔ ∃ l', levels[g.1]? = some l' ∧ l' g.2.1 = some g.2.2) := by
          intro g hk
          have hk' : g.2.1 ∈ ["P", "R", "A", "mesh"] := by
            simp only [List.mem_cons, List.not_mem_nil, or_false] at hk ⊢
            rcases hk with h | h | h <;> simp [h]
          have hnm : g.2.1 ≠ "mesh" := by
            intro h; rw [h] at hk; revert hk; decide
          rw [← hf]
          split
          · rw [hmem0]
            exact ⟨fun ⟨l', a, _, b⟩ => ⟨l', a, b⟩, fun ⟨l', a, b⟩ => ⟨l', a, hk', b⟩⟩
          · rw [List.mem_append, hmem0, List.mem_singleton]
            constructor
            · rintro (⟨l', a, _, b⟩ | h)
              · exact ⟨l', a, b⟩
              · rw [h] at hnm; exact absurd rfl hnm
            · rintro ⟨l', a, b⟩; exact Or.inl ⟨l', a, hk', b⟩
        have hlt : ∀ g ∈ f, g.1 < levels.length := by
          intro g hgf
          rw [← hf] at hgf
          have h0 : ∀ g, g ∈ (levels.zipIdx.map fun p => groups p.2 p.1).flatten → g.1 < levels.length := by
            intro g hg
            obtain ⟨l', h1, _⟩ := (hmem0 g).1 hg
            exact (List.getElem?_eq_some_iff.1 h1).1
          split at hgf
          · exact h0 g hgf
          · rcases List.mem_append.1 hgf with h | h
            · exact h0 g h
            · rw [List.mem_singleton.1 h]; dsimp only; omega
        have hex : ∃ g ∈ f, g.1 = levels.length - 1 := by
          obtain ⟨g, hgm⟩ := List.exists_mem_of_ne_nil _ hg
          obtain ⟨h1, h2, h3⟩ := (hmg _ _ _).1 hgm
          refine ⟨g, ?_, h1⟩
          have : g ∈ (levels.zipIdx.map fun p => groups p.2 p.1).flatten := (hmem0 g).2 ⟨l, by rw [h1]; exact hln, h2, h3⟩
          rw [← hf]
          split
          · exact this
          · exact List.mem_append_left _ this
        have hmax : maxLevel f = levels.length - 1 := by
          have hle : ∀ f : File α, (∀ g ∈ f, g.1 < levels.length) → maxLevel f ≤ levels.length - 1 := by
            intro f
            induction f with
            | nil => intro _; exact Nat.zero_le _
            | cons g f ih =>
              intro h
              have := h g List.mem_cons_self
              have := ih fun g' hg' => h g' (List.mem_cons_of_mem _ hg')
              unfold maxLevel at this ⊢
              rw [List.foldr_cons]
              exact Nat.max_le.2 ⟨by omega, this⟩
          have hge : ∀ (f : File α) g, g ∈ f → g.1 ≤ maxLevel f := by
            intro f
            induction f with
            | nil => intro g h; cases h
            | cons g f ih =>
              intro g' h
              unfold maxLevel at ih ⊢
              rw [List.foldr_cons]
              rcases List.mem_cons.1 h with rfl | h
              · exact Nat.le_max_left _ _
              · exact Nat.le_trans (ih g' h) (Nat.le_max_right _ _)
          obtain ⟨g, hgf, hg1⟩ := hex
          have := hge f g hgf
          have := hle f hlt
          omega
        unfold LevelStorage.read
        rw [hmax, Nat.sub_add_cancel hpos]
        apply List.ext_getElem
        · simp
        · intro i h1 h2
          have hi : i < levels.length := by simpa using h2
          simp only [List.getElem_map, List.getElem_range]
          funext k
          by_cases hk : k ∈ ["P", "R", "A"]
          · rw [if_pos hk, if_pos hk]
            cases hv : levels[i] k with
            | none =>
              rw [Option.map_eq_none_iff, List.find?_eq_none]
              intro g hgf hc
              simp only [Bool.and_eq_true, beq_iff_eq] at hc
              obtain ⟨l', a, b⟩ := (hmem g (by rw [hc.2]; exact hk)).1 hgf
              rw [hc.1, List.getElem?_eq_getElem hi, Option.some.injEq] at a
              rw [← a, hc.2, hv] at b
              cases b
            | some v =>
              have hin : (i, k, v) ∈ f := (hmem (i, k, v) hk).2 ⟨levels[i], List.getElem?_eq_getElem hi, hv⟩
              have hs : (f.find? fun g => g.1 == i && g.2.1 == k).isSome := by
                rw [List.find?_isSome]
                exact ⟨_, hin, by simp⟩
              obtain ⟨g, hg'⟩ := Option.isSome_iff_exists.1 hs
              have c1 := List.find?_some hg'
              have c2 := List.mem_of_find?_eq_some hg'
              simp only [Bool.and_eq_true, beq_iff_eq] at c1
              obtain ⟨l', a, b⟩ := (hmem g (by rw [c1.2]; exact hk)).1 c2
              rw [c1.1, List.getElem?_eq_getElem hi, Option.some.injEq] at a
              rw [← a, c1.2, hv, Option.some.injEq] at b
              rw [hg', Option.map_some, b]
          · rw [if_neg hk, if_neg hk]

/-- The mesh is written and not read. -/
theorem mesh_fails {α : Type} (levels : List (Attrs α)) (mesh : α) (f : File α) (h : write levels mesh = some f) :
    ∀ l ∈ LevelStorage.read f, l "mesh" = none := by
  intro l hl
  rw [(stored levels mesh).2 f h] at hl
  obtain ⟨l', _, rfl⟩ := List.mem_map.1 hl
  rfl

/-- The collapsed prolongation is the successive prolongation through all levels. -/
theorem collapsed_prolongation {K : Type} [CommSemiring K] (n : Nat → Nat) (P : ∀ i, Matrix (Fin (n (i + 1))) (Fin (n i)) K)
    (x : ∀ i, Fin (n i) → K) (hx : ∀ i, x (i + 1) = (P i).mulVec (x i)) (k : Nat) :
    (collapsed n P k).mulVec (x 0) = x (k + 1) := by
  induction k with
  | zero => exact (hx 0).symm
  | succ k ih => rw [collapsed, ← Matrix.mulVec_mulVec, ih, ← hx]

/-- Its transpose is the successive restriction, from level `k + 1` to level `0`. -/
theorem collapsed_restriction {K : Type} [CommSemiring K] (n : Nat → Nat) (P : ∀ i, Matrix (Fin (n (i + 1))) (Fin (n i)) K)
    (y : ∀ i, Fin (n i) → K) (k : Nat) (hy : ∀ i ≤ k, y i = (P i).transpose.mulVec (y (i + 1))) :
    (collapsed n P k).transpose.mulVec (y (k + 1)) = y 0 := by
  induction k with
  | zero => exact (hy 0 (Nat.le_refl _)).symm
  | succ k ih =>
    rw [collapsed, Matrix.transpose_mul, ← Matrix.mulVec_mulVec, ← hy (k + 1) (Nat.le_refl _)]
    exact ih fun i hi => hy i (by omega)

/-- Two hierarchies with two levels each; a file. -/
theorem sample_case :
    let lvl := fun (p a : Option Nat) => (⟨fun k => if k = "P" then p else if k = "A" then a else none,
      fun k => if k = "mesh" then a else none⟩ : Level Nat)
    ((levelList [[lvl none (some 1), lvl (some 2) (some 3)], [lvl none (some 4), lvl (some 5) (some 6)]]).map
      fun d => (d "P", d "A", d "mesh")) = [(none, some 1, some 1), (none, some 4, some 4), (some 5, some 6, some 6)] ∧
    ((write (levelList [[lvl none (some 1), lvl (some 2) (some 3)]]) 7).map
      fun f => (LevelStorage.read f).map fun d => (d "P", d "A", d "mesh")) = some [(none, some 1, none), (some 2, some 3, none)] ∧
    write [fun _ => none] 7 = none ∧ (write [fun k => if k = "A" then some 1 else none] 7) = some [(0, "A", 1), (0, "mesh", 7)] := by
  decide +kernel

end PyNucleus.Props.C115
