import Verif.Model.MeshVertices
import Verif.Proof.Loops
import Mathlib.Data.List.Nodup
import Mathlib.Data.List.GetD
import Mathlib.Data.Set.Function

/-!
# C46: unused vertices

`removeUnusedVertices` keeps the coordinates of the vertices of each cell, numbers the vertices without gaps and leaves no vertex without a cell.
-/

namespace PyNucleus.Props.C46

open PyNucleus.MeshVertices PyNucleus.Loops

variable {K : Type}

/-- `v` is a vertex of a cell. -/
def Used (cells : List (List Nat)) (v : Nat) : Prop := ∃ c ∈ cells, v ∈ c

/-- State of the numbering: `u` has the vertices in the order of their new numbers. -/
private def Inv (n : Nat) (u : List Nat) (s : List (Option Nat) × Nat) : Prop :=
  s.1.length = n ∧ s.2 = u.length ∧ u.Nodup ∧ (∀ v ∈ u, v < n) ∧ ∀ v, s.1.getD v none = if v ∈ u then some (u.idxOf v) else none

private theorem inv_step (n : Nat) : ∀ (l : List Nat) (u : List Nat) (s : List (Option Nat) × Nat), (∀ v ∈ l, v < n) → Inv n u s →
    ∃ u', Inv n u' (l.foldl (fun s v => if s.1.getD v none = none then (s.1.set v (some s.2), s.2 + 1) else s) s) ∧ ∀ v, v ∈ u' ↔ v ∈ u ∨ v ∈ l := by
  intro l
  induction l with
  | nil => intro u s _ h; exact ⟨u, h, fun v => by simp⟩
  | cons x t ih =>
    intro u s hl h
    rw [List.foldl_cons]
    obtain ⟨h1, h2, h3, h4, h5⟩ := h
    by_cases hx : x ∈ u
    · rw [if_neg (by rw [h5, if_pos hx]; exact fun e => (nomatch e))]
      obtain ⟨u', g1, g2⟩ := ih u s (fun v hv => hl v (List.mem_cons_of_mem _ hv)) ⟨h1, h2, h3, h4, h5⟩
      refine ⟨u', g1, fun v => ?_⟩
      rw [g2, List.mem_cons]
      constructor
      · rintro (h | h)
        · exact Or.inl h
        · exact Or.inr (Or.inr h)
      · rintro (h | rfl | h)
        · exact Or.inl h
        · exact Or.inl hx
        · exact Or.inr h
    · rw [if_pos (by rw [h5, if_neg hx])]
      have hxn : x < n := hl x List.mem_cons_self
      have hI : Inv n (u ++ [x]) (s.1.set x (some s.2), s.2 + 1) := by
        refine ⟨by rw [List.length_set]; exact h1, by rw [List.length_append, h2]; rfl, ?_, ?_, ?_⟩
        · rw [List.nodup_append]
          exact ⟨h3, List.nodup_singleton _, fun a ha b hb => by rw [List.mem_singleton.1 hb]; exact fun e => hx (e ▸ ha)⟩
        · intro v hv
          rcases List.mem_append.1 hv with hv | hv
          · exact h4 v hv
          · rw [List.mem_singleton.1 hv]; exact hxn
        · intro v
          simp only []
          rw [getD_set]
          by_cases hv : v = x
          · subst hv
            rw [if_pos ⟨rfl, by rw [h1]; exact hxn⟩, if_pos (by simp), List.idxOf_append_of_notMem hx, h2]
            simp
          · rw [if_neg (by rintro ⟨h, -⟩; exact hv h.symm), h5]
            by_cases hvu : v ∈ u
            · rw [if_pos hvu, if_pos (List.mem_append_left _ hvu), List.idxOf_append_of_mem hvu]
            · rw [if_neg hvu, if_neg (by simp [hvu, hv])]
      obtain ⟨u', g1, g2⟩ := ih _ _ (fun v hv => hl v (List.mem_cons_of_mem _ hv)) hI
      refine ⟨u', g1, fun v => ?_⟩
      rw [g2, List.mem_append, List.mem_singleton, List.mem_cons, or_assoc]

private theorem inv_number (n : Nat) (cells : List (List Nat)) (hc : ∀ c ∈ cells, ∀ v ∈ c, v < n) :
    ∃ u, Inv n u (number n cells) ∧ ∀ v, v ∈ u ↔ Used cells v := by
  have key : ∀ (cells : List (List Nat)) (u : List Nat) (s : List (Option Nat) × Nat), (∀ c ∈ cells, ∀ v ∈ c, v < n) → Inv n u s →
      ∃ u', Inv n u' (cells.foldl (fun s c => c.foldl (fun s v => if s.1.getD v none = none then (s.1.set v (some s.2), s.2 + 1) else s) s) s) ∧ ∀ v, v ∈ u' ↔ v ∈ u ∨ Used cells v := by
    intro cells
    induction cells with
    | nil => intro u s _ h; exact ⟨u, h, fun v => by simp [Used]⟩
    | cons c t ih =>
      intro u s hc h
      rw [List.foldl_cons]
      obtain ⟨u1, g1, g2⟩ := inv_step n c u s (hc c List.mem_cons_self) h
      obtain ⟨u2, g3, g4⟩ := ih u1 _ (fun c hm => hc c (List.mem_cons_of_mem _ hm)) g1
      refine ⟨u2, g3, fun v => ?_⟩
      rw [g4, g2, or_assoc]
      unfold Used
      simp only [List.mem_cons, exists_eq_or_imp]
  obtain ⟨u, h1, h2⟩ := key cells [] (List.replicate n none, 0) hc ⟨by simp, rfl, List.nodup_nil, by simp, fun v => by
    simp only [List.not_mem_nil, if_false]
    rw [List.getD_eq_getElem?_getD, List.getElem?_replicate]
    split <;> rfl⟩
  exact ⟨u, h1, fun v => by rw [h2]; simp⟩

private theorem vertices_fill (u : List Nat) (hu : u.Nodup) (m : List (Option Nat)) (hm : ∀ v, m.getD v none = if v ∈ u then some (u.idxOf v) else none)
    (hb : ∀ v ∈ u, v < m.length) (V mem : List (List K)) (hmem : mem.length = u.length) :
    newVertices m V mem = u.map fun v => V.getD v [] := by
  unfold newVertices
  have key : ∀ n, n ≤ m.length → (forRange 0 n mem (writeVertex m V)).length = u.length ∧
      ∀ k, k < u.length → u.getD k 0 < n → (forRange 0 n mem (writeVertex m V)).getD k [] = V.getD (u.getD k 0) [] := by
    intro n
    induction n with
    | zero => intro _; exact ⟨by rw [forRange_zero]; exact hmem, fun k _ h => absurd h (Nat.not_lt_zero _)⟩
    | succ n ih =>
      intro hn
      obtain ⟨i1, i2⟩ := ih (by omega)
      rw [forRange_succ]
      generalize (forRange 0 n mem (writeVertex m V)) = r at *
      unfold writeVertex
      rw [hm]
      by_cases hnu : n ∈ u
      · rw [if_pos hnu]
        simp only []
        refine ⟨by rw [List.length_set]; exact i1, fun k hk hkn => ?_⟩
        rw [getD_set]
        have hidx := List.idxOf_lt_length_iff.2 hnu
        by_cases e : k = u.idxOf n
        · have e2 : u.getD k 0 = n := by rw [e, List.getD_eq_getElem _ _ hidx]; exact List.getElem_idxOf hidx
          rw [if_pos ⟨e.symm, by rw [i1, e]; exact hidx⟩, e2]
        · rw [if_neg (fun h => e h.1.symm)]
          apply i2 k hk
          have : u.getD k 0 ≠ n := by
            intro h
            apply e
            rw [← h, List.getD_eq_getElem _ _ hk, List.Nodup.idxOf_getElem hu]
          omega
      · rw [if_neg hnu]
        refine ⟨i1, fun k hk hkn => i2 k hk ?_⟩
        have : u.getD k 0 ≠ n := by
          intro h
          apply hnu
          rw [← h, List.getD_eq_getElem _ _ hk]
          exact List.getElem_mem hk
        omega
  obtain ⟨k1, k2⟩ := key m.length (Nat.le_refl _)
  apply List.ext_getElem
  · rw [k1, List.length_map]
  · intro k h1 h2
    rw [List.length_map] at h2
    have := k2 k h2 (hb _ (by rw [List.getD_eq_getElem _ _ h2]; exact List.getElem_mem h2))
    rw [List.getD_eq_getElem _ _ h1] at this
    rw [this, List.getElem_map, List.getD_eq_getElem _ _ h2]

private theorem boundary_fill (m : List (Option Nat)) (bV : List Nat) (tags : List Int) (ht : tags.length = bV.length) :
    newBoundaryVertices m bV tags = (((bV.zip tags).filterMap fun p => (m.getD p.1 none).map fun j => (j, p.2)).map Prod.fst,
      ((bV.zip tags).filterMap fun p => (m.getD p.1 none).map fun j => (j, p.2)).map Prod.snd) := by
  unfold newBoundaryVertices
  have key : ∀ n, n ≤ bV.length → forRange 0 n (([], []) : List Nat × List Int) (keepVertex m bV tags) = ((((bV.zip tags).take n).filterMap fun p => (m.getD p.1 none).map fun j => (j, p.2)).map Prod.fst,
        (((bV.zip tags).take n).filterMap fun p => (m.getD p.1 none).map fun j => (j, p.2)).map Prod.snd) := by
    intro n
    induction n with
    | zero => intro _; rw [forRange_zero]; rfl
    | succ n ih =>
      intro hn
      rw [forRange_succ, ih (by omega)]
      unfold keepVertex
      have hz : n < (bV.zip tags).length := by rw [List.length_zip]; omega
      rw [List.take_succ_eq_append_getElem hz, List.getElem_zip, List.filterMap_append, List.map_append, List.map_append]
      rw [List.getD_eq_getElem bV _ (by omega), List.getD_eq_getElem tags _ (by omega)]
      cases h : m.getD bV[n] none with
      | none => rw [List.filterMap_cons_none (by simp only [h]; rfl)]; simp
      | some j => rw [List.filterMap_cons_some (b := (j, tags[n])) (by simp only [h]; rfl)]; simp
  rw [key _ (Nat.le_refl _), List.take_of_length_le (by rw [List.length_zip]; omega)]

/-- The mesh without unused vertices, for arbitrary content `mem` of the new array.  `g` has the new numbers. -/
theorem removeUnused (V mem : List (List K)) (cells : List (List Nat)) (hc : ∀ c ∈ cells, ∀ v ∈ c, v < V.length) (hmem : mem.length = (number V.length cells).2) :
    ∃ g : Nat → Nat,
      renumber (number V.length cells).1 cells = cells.map (fun c => c.map fun v => some (g v)) ∧
      (∀ v, Used cells v → g v < (newVertices (number V.length cells).1 V mem).length ∧ (newVertices (number V.length cells).1 V mem).getD (g v) [] = V.getD v []) ∧
      (∀ i, i < (newVertices (number V.length cells).1 V mem).length → ∃ v, Used cells v ∧ g v = i) ∧
      Set.InjOn g {v | Used cells v} ∧
      (∀ rows : List (List Nat), (∀ r ∈ rows, ∀ v ∈ r, Used cells v) → renumber (number V.length cells).1 rows = rows.map fun r => r.map fun v => some (g v)) ∧
      ∀ (P : Nat → Bool) (bV : List Nat) (tags : List Int), (∀ v, P v = true ↔ Used cells v) → tags.length = bV.length → newBoundaryVertices (number V.length cells).1 bV tags =
        (((bV.zip tags).filter fun p => P p.1).map (fun p => g p.1), ((bV.zip tags).filter fun p => P p.1).map Prod.snd) := by
  obtain ⟨u, ⟨h1, h2, h3, h4, h5⟩, hu⟩ := inv_number V.length cells hc
  have hV := vertices_fill u h3 _ h5 (by rw [h1]; exact h4) V mem (by rw [hmem, h2])
  rw [hV]
  have hrow : ∀ rows : List (List Nat), (∀ r ∈ rows, ∀ v ∈ r, Used cells v) → renumber (number V.length cells).1 rows = rows.map fun r => r.map fun v => some (u.idxOf v) := by
    intro rows hr
    unfold renumber
    apply List.map_congr_left
    intro r hm
    apply List.map_congr_left
    intro v hv
    rw [h5, if_pos ((hu v).2 (hr r hm v hv))]
  refine ⟨fun v => u.idxOf v, hrow cells (fun c hm v hv => ⟨c, hm, hv⟩), fun v hv => ?_, fun i hi => ?_, fun v hv w hw e => ?_, hrow, fun P bV tags hP ht => ?_⟩
  · have := List.idxOf_lt_length_iff.2 ((hu v).2 hv)
    rw [List.length_map]
    refine ⟨this, ?_⟩
    rw [List.getD_eq_getElem _ _ (by rw [List.length_map]; exact this), List.getElem_map, List.getElem_idxOf this]
  · rw [List.length_map] at hi
    exact ⟨u[i], (hu _).1 (List.getElem_mem hi), List.Nodup.idxOf_getElem h3 i hi⟩
  · exact (List.idxOf_inj ((hu v).2 hv)).1 e
  · rw [boundary_fill _ _ _ ht]
    have : ((bV.zip tags).filterMap fun p => ((number V.length cells).1.getD p.1 none).map fun j => (j, p.2)) = ((bV.zip tags).filter fun p => P p.1).map fun p => (u.idxOf p.1, p.2) := by
      generalize bV.zip tags = L
      induction L with
      | nil => rfl
      | cons p t ih =>
        by_cases hp : P p.1 = true
        · rw [List.filter_cons_of_pos (by simpa using hp), List.map_cons, ← ih, List.filterMap_cons_some (b := (u.idxOf p.1, p.2))]
          rw [h5, if_pos ((hu _).2 ((hP _).1 hp))]; rfl
        · rw [List.filter_cons_of_neg (by simpa using hp), ← ih, List.filterMap_cons_none]
          rw [h5, if_neg (fun h => hp ((hP _).2 ((hu _).1 h)))]; rfl
    rw [this, List.map_map, List.map_map]
    rfl

/-! ### concrete cases -/

/-- Vertices 1 and 3 have no cell. -/
example : number 6 [[5, 2, 0], [4, 2, 5]] = ([some 2, none, some 1, none, some 3, some 0], 4) := by decide
example : newVertices (number 6 [[5, 2, 0], [4, 2, 5]]).1 [[10], [11], [12], [13], [14], [15]] [[7], [7], [7], [7]] = [[15], [12], [10], [14]] := by decide
example : renumber (number 6 [[5, 2, 0], [4, 2, 5]]).1 [[5, 2, 0], [4, 2, 5]] = [[some 0, some 1, some 2], [some 3, some 1, some 0]] := by decide
example : newBoundaryVertices (number 6 [[5, 2, 0], [4, 2, 5]]).1 [0, 1, 4] [-1, -2, -3] = ([2, 3], [-1, -3]) := by decide

end PyNucleus.Props.C46
