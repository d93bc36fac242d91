import Verif.Model.SurfaceEntities
import Verif.Props.C81
import Mathlib.Data.List.GetD
import Mathlib.Combinatorics.Enumerative.DoubleCounting

/-! Lemmas about the boundary in terms of cells. -/

namespace PyNucleus.SurfaceEntities

open PyNucleus.SimplexMapper PyNucleus.Props.C81

section Dictionary
variable {κ V : Type} [DecidableEq κ]

theorem countP_filter_ne (d : List (κ × V)) (hd : (d.map Prod.fst).Nodup) (k : κ) (hk : k ∈ d.map Prod.fst) (P : κ → Bool) :
    (d.countP fun p => P p.1) = ((d.filter fun p => p.1 ≠ k).countP fun p => P p.1) + if P k then 1 else 0 := by
  induction d with
  | nil => simp at hk
  | cons p d ih =>
    rw [List.map_cons, List.nodup_cons] at hd
    by_cases e : p.1 = k
    · have hnot : d.filter (fun p => decide (p.1 ≠ k)) = d := by
        rw [List.filter_eq_self]
        intro q hq
        have : q.1 ≠ p.1 := fun h => hd.1 (h ▸ List.mem_map_of_mem hq)
        simpa [← e] using this
      rw [List.filter_cons_of_neg (by simp [e]), hnot, List.countP_cons, e]
    · have hk' : k ∈ d.map Prod.fst := by
        rcases List.mem_cons.1 hk with h | h
        · exact absurd h.symm e
        · exact h
      rw [List.filter_cons_of_pos (by simp [e]), List.countP_cons, List.countP_cons, ih hd.2 hk']
      omega

/-- The dictionary with deletion: different keys, all entries were entered, and parities are kept. -/
theorem toggle_spec (items : List (κ × V)) : ((items.foldl enterDelete []).map Prod.fst).Nodup ∧ (∀ p ∈ items.foldl enterDelete [], p ∈ items) ∧
    ∀ P : κ → Bool, ((items.foldl enterDelete []).countP fun p => P p.1) % 2 = (items.countP fun p => P p.1) % 2 := by
  induction items using List.reverseRecOn with
  | nil => simp
  | append_singleton items it ih =>
    obtain ⟨h1, h2, h3⟩ := ih
    rw [List.foldl_append]
    simp only [List.foldl_cons, List.foldl_nil]
    generalize items.foldl enterDelete [] = d at *
    unfold enterDelete
    split_ifs with h
    · have hk : it.1 ∈ d.map Prod.fst := by
        obtain ⟨p, hp, e⟩ := List.any_eq_true.1 h
        exact List.mem_map.2 ⟨p, hp, of_decide_eq_true e⟩
      refine ⟨h1.sublist (List.Sublist.map _ List.filter_sublist), fun p hp => List.mem_append_left _ (h2 p (List.mem_of_mem_filter hp)), fun P => ?_⟩
      have := countP_filter_ne d h1 it.1 hk P
      have h3 := h3 P
      rw [List.countP_append, List.countP_cons, List.countP_nil]
      simp only [Nat.zero_add]
      split_ifs at this ⊢ <;> omega
    · have hk : it.1 ∉ d.map Prod.fst := by
        intro hm
        obtain ⟨p, hp, e⟩ := List.mem_map.1 hm
        exact h (List.any_eq_true.2 ⟨p, hp, decide_eq_true e⟩)
      refine ⟨?_, ?_, fun P => ?_⟩
      · rw [List.map_append, List.nodup_append]
        refine ⟨h1, by simp, ?_⟩
        intro a ha b hb
        simp only [List.map_cons, List.map_nil, List.mem_singleton] at hb
        rintro rfl
        exact hk (hb ▸ ha)
      · intro p hp
        rcases List.mem_append.1 hp with hp | hp
        · exact List.mem_append_left _ (h2 p hp)
        · exact List.mem_append_right _ hp
      · have h3 := h3 P
        rw [List.countP_append, List.countP_append]
        omega

/-- Keys are those that were entered an odd number of times. -/
theorem toggle_mem (items : List (κ × V)) (k : κ) : k ∈ (items.foldl enterDelete []).map Prod.fst ↔ Odd (items.countP fun p => decide (p.1 = k)) := by
  obtain ⟨h1, _, h3⟩ := toggle_spec items
  have h3 := h3 fun x => decide (x = k)
  have hc : ((items.foldl enterDelete []).countP fun p => decide (p.1 = k)) = ((items.foldl enterDelete []).map Prod.fst).count k := by
    rw [List.count_eq_countP, List.countP_map]
    apply List.countP_congr
    intro p _
    simp
  have hle := List.nodup_iff_count_le_one.1 h1 k
  rw [hc] at h3
  rw [Nat.odd_iff, ← h3, ← List.count_pos_iff]
  omega

theorem keep_spec (items : List (κ × V)) : ((items.foldl enterKeep []).map Prod.fst).Nodup ∧ (∀ p ∈ items.foldl enterKeep [], p ∈ items) ∧
    ∀ k, k ∈ (items.foldl enterKeep []).map Prod.fst ↔ k ∈ items.map Prod.fst := by
  induction items using List.reverseRecOn with
  | nil => simp
  | append_singleton items it ih =>
    obtain ⟨h1, h2, h3⟩ := ih
    rw [List.foldl_append]
    simp only [List.foldl_cons, List.foldl_nil]
    generalize items.foldl enterKeep [] = d at *
    unfold enterKeep
    split_ifs with h
    · have hk : it.1 ∈ d.map Prod.fst := by
        obtain ⟨p, hp, e⟩ := List.any_eq_true.1 h
        exact List.mem_map.2 ⟨p, hp, of_decide_eq_true e⟩
      refine ⟨h1, fun p hp => List.mem_append_left _ (h2 p hp), fun k => ?_⟩
      rw [List.map_append, List.mem_append, h3]
      constructor
      · exact Or.inl
      · rintro (h | h)
        · exact h
        · simp only [List.map_cons, List.map_nil, List.mem_singleton] at h
          rw [h]
          exact (h3 _).1 hk
    · have hk : it.1 ∉ d.map Prod.fst := by
        intro hm
        obtain ⟨p, hp, e⟩ := List.mem_map.1 hm
        exact h (List.any_eq_true.2 ⟨p, hp, decide_eq_true e⟩)
      refine ⟨?_, ?_, fun k => ?_⟩
      · rw [List.map_append, List.nodup_append]
        refine ⟨h1, by simp, ?_⟩
        intro a ha b hb
        simp only [List.map_cons, List.map_nil, List.mem_singleton] at hb
        rintro rfl
        exact hk (hb ▸ ha)
      · intro p hp
        rcases List.mem_append.1 hp with hp | hp
        · exact List.mem_append_left _ (h2 p hp)
        · exact List.mem_append_right _ hp
      · rw [List.map_append, List.mem_append, h3, List.map_append, List.mem_append]

end Dictionary

/-! Items. -/

theorem items_mem {β : Type} (F : List Nat → List β) (cells : List (List Nat)) (e : β) (i : Nat) :
    (e, i) ∈ (cells.zipIdx.flatMap fun p => (F p.1).map fun e => (e, p.2)) ↔ i < cells.length ∧ e ∈ F (cells.getD i []) := by
  simp only [List.mem_flatMap, List.mem_map]
  constructor
  · rintro ⟨⟨c, j⟩, hp, e', he, h⟩
    obtain ⟨rfl, rfl⟩ := Prod.mk.inj h
    obtain ⟨h1, h2⟩ := List.mem_zipIdx_iff_getElem?.1 hp |> List.getElem?_eq_some_iff.1
    refine ⟨h1, ?_⟩
    rw [List.getD_eq_getElem _ _ h1, h2]
    exact he
  · rintro ⟨hi, he⟩
    refine ⟨(cells.getD i [], i), ?_, e, he, rfl⟩
    rw [List.mem_zipIdx_iff_getElem?, List.getD_eq_getElem _ _ hi]
    exact List.getElem?_eq_getElem hi

theorem items_fst {β : Type} (F : List Nat → List β) (cells : List (List Nat)) :
    (cells.zipIdx.flatMap fun p => (F p.1).map fun e => (e, p.2)).map Prod.fst = cells.flatMap F := by
  have : ∀ (cells : List (List Nat)) n, ((cells.zipIdx n).flatMap fun p => (F p.1).map fun e => (e, p.2)).map Prod.fst = cells.flatMap F := by
    intro cells
    induction cells with
    | nil => intro n; rfl
    | cons c cells ih =>
      intro n
      rw [List.zipIdx_cons, List.flatMap_cons, List.flatMap_cons, List.map_append, ih, List.map_map]
      congr 1
      exact List.map_id _
  exact this cells 0

theorem countP_fst {β V : Type} (l : List (β × V)) (P : β → Bool) : (l.countP fun p => P p.1) = (l.map Prod.fst).countP P := by
  rw [List.countP_map]; rfl

/-- Counting cells instead of items. -/
theorem countP_cells {β : Type} (F : List Nat → List β) (P : β → Bool) (Q : List Nat → Bool) (m : Nat) :
    ∀ (cells : List (List Nat)), (∀ c ∈ cells, (F c).countP P = if Q c then m else 0) → (cells.flatMap F).countP P = m * cells.countP Q := by
  intro cells
  induction cells with
  | nil => simp
  | cons c cells ih =>
    intro h
    rw [List.flatMap_cons, List.countP_append, ih fun c hc => h c (List.mem_cons_of_mem _ hc), h c List.mem_cons_self, List.countP_cons]
    split_ifs <;> ring

/-- Cells as used here. -/
def IsCell (n : Nat) (c : List Nat) : Prop := c.length = n ∧ c.Nodup

theorem IsCell.distinct {n : Nat} {c : List Nat} (h : IsCell n c) : Distinct n (corner c) := by
  intro i hi j hj e
  unfold corner at e
  rw [List.getD_eq_getElem _ _ (by rw [h.1]; exact hi), List.getD_eq_getElem _ _ (by rw [h.1]; exact hj)] at e
  exact (List.Nodup.getElem_inj_iff h.2).1 e

theorem IsCell.mem {n : Nat} {c : List Nat} (h : IsCell n c) (v : Nat) : v ∈ c ↔ ∃ i < n, corner c i = v := by
  rw [List.mem_iff_getElem]
  unfold corner
  constructor
  · rintro ⟨i, hi, e⟩
    exact ⟨i, h.1 ▸ hi, by rw [List.getD_eq_getElem _ _ hi, e]⟩
  · rintro ⟨i, hi, e⟩
    have hi : i < c.length := by rw [h.1]; exact hi
    exact ⟨i, hi, by rw [List.getD_eq_getElem _ _ hi] at e; exact e⟩

theorem IsCell.edge {n : Nat} {c : List Nat} (h : IsCell n c) (e : Nat × Nat) : IsEdge n (corner c) e ↔ e.1 < e.2 ∧ e.1 ∈ c ∧ e.2 ∈ c := by
  unfold IsEdge
  rw [h.mem, h.mem]

theorem IsCell.face {c : List Nat} (h : IsCell 4 c) (f : Nat × Nat × Nat) :
    IsFace (corner c) f ↔ f.1 < f.2.1 ∧ f.2.1 < f.2.2 ∧ f.1 ∈ c ∧ f.2.1 ∈ c ∧ f.2.2 ∈ c := by
  unfold IsFace
  rw [h.mem, h.mem, h.mem]

/-- Each edge once. -/
theorem count_edge {c : List Nat} (h : IsCell 3 c) {e : Nat × Nat} (he : e.1 < e.2) :
    (cellEdges2 (corner c)).countP (fun x => decide (x = e)) = if (decide (e.1 ∈ c ∧ e.2 ∈ c)) then 1 else 0 := by
  obtain ⟨hn, hm⟩ := edges_triangle (corner c) h.distinct
  have : (cellEdges2 (corner c)).countP (fun x => decide (x = e)) = (cellEdges2 (corner c)).count e := by
    rw [List.count_eq_countP]
    apply List.countP_congr
    intro p _
    simp
  rw [this, hn.count]
  simp only [hm, h.edge]
  simp [he]

theorem count_face {c : List Nat} (h : IsCell 4 c) {f : Nat × Nat × Nat} (hf : f.1 < f.2.1 ∧ f.2.1 < f.2.2) :
    (cellFaces (corner c)).countP (fun x => decide (x = f)) = if (decide (f.1 ∈ c ∧ f.2.1 ∈ c ∧ f.2.2 ∈ c)) then 1 else 0 := by
  obtain ⟨hn, hm⟩ := faces_tetrahedron (corner c) h.distinct
  have : (cellFaces (corner c)).countP (fun x => decide (x = f)) = (cellFaces (corner c)).count f := by
    rw [List.count_eq_countP]
    apply List.countP_congr
    intro p _
    simp
  rw [this, hn.count]
  simp only [hm, h.face]
  simp [hf]

/-- Two edges of a triangle at each of its corners. -/
theorem count_edges_at {c : List Nat} (h : IsCell 3 c) (v : Nat) :
    (cellEdges2 (corner c)).countP (fun e => decide (e.1 = v ∨ e.2 = v)) = if decide (v ∈ c) then 2 else 0 := by
  have hd := h.distinct
  have hs : ∀ a b : Nat, ((sortEdge a b).1 = v ∨ (sortEdge a b).2 = v) ↔ (a = v ∨ b = v) := by
    intro a b
    unfold sortEdge
    split_ifs
    · exact Iff.rfl
    · exact or_comm
  unfold cellEdges2
  simp only [List.countP_cons, List.countP_nil, hs, Nat.zero_add, decide_eq_true_eq]
  have h01 : corner c 0 ≠ corner c 1 := fun e => by have := hd 0 (by omega) 1 (by omega) e; omega
  have h02 : corner c 0 ≠ corner c 2 := fun e => by have := hd 0 (by omega) 2 (by omega) e; omega
  have h12 : corner c 1 ≠ corner c 2 := fun e => by have := hd 1 (by omega) 2 (by omega) e; omega
  have hmem : v ∈ c ↔ corner c 0 = v ∨ corner c 1 = v ∨ corner c 2 = v := by
    rw [h.mem]
    constructor
    · rintro ⟨i, hi, e⟩
      interval_cases i <;> simp [e]
    · rintro (e | e | e)
      · exact ⟨0, by omega, e⟩
      · exact ⟨1, by omega, e⟩
      · exact ⟨2, by omega, e⟩
  simp only [hmem]
  by_cases a : corner c 0 = v
  · subst a; simp [h01.symm, h02.symm]
  · by_cases b : corner c 1 = v
    · subst b; simp [h01, h12.symm]
    · by_cases d : corner c 2 = v
      · subst d; simp [h02, h12]
      · simp [a, b, d]

/-- Vertices of a face. -/
def InFace (v : Nat) (f : Nat × Nat × Nat) : Prop := f.1 = v ∨ f.2.1 = v ∨ f.2.2 = v

instance (v : Nat) (f : Nat × Nat × Nat) : Decidable (InFace v f) := by unfold InFace; infer_instance

theorem inFace_sort (a b c v : Nat) : InFace v (sortFace a b c) ↔ a = v ∨ b = v ∨ c = v := by
  unfold InFace sortFace
  split_ifs <;> simp only <;> tauto

/-- Two faces of a tetrahedron at each of its edges. -/
theorem count_faces_at {c : List Nat} (h : IsCell 4 c) {a b : Nat} (hab : a ≠ b) :
    (cellFaces (corner c)).countP (fun f => decide (InFace a f ∧ InFace b f)) = if decide (a ∈ c ∧ b ∈ c) then 2 else 0 := by
  have hd := h.distinct
  have ne : ∀ i j, i < 4 → j < 4 → i ≠ j → corner c i ≠ corner c j := fun i j hi hj hij e => hij (hd i hi j hj e)
  have n01 := ne 0 1 (by omega) (by omega) (by omega)
  have n02 := ne 0 2 (by omega) (by omega) (by omega)
  have n03 := ne 0 3 (by omega) (by omega) (by omega)
  have n12 := ne 1 2 (by omega) (by omega) (by omega)
  have n13 := ne 1 3 (by omega) (by omega) (by omega)
  have n23 := ne 2 3 (by omega) (by omega) (by omega)
  have hmem : ∀ v, v ∈ c ↔ corner c 0 = v ∨ corner c 1 = v ∨ corner c 2 = v ∨ corner c 3 = v := by
    intro v
    rw [h.mem]
    constructor
    · rintro ⟨i, hi, e⟩
      interval_cases i <;> simp [e]
    · rintro (e | e | e | e)
      · exact ⟨0, by omega, e⟩
      · exact ⟨1, by omega, e⟩
      · exact ⟨2, by omega, e⟩
      · exact ⟨3, by omega, e⟩
  unfold cellFaces
  simp only [List.countP_cons, List.countP_nil, inFace_sort, Nat.zero_add, decide_eq_true_eq, hmem]
  generalize corner c 0 = x0 at *
  generalize corner c 1 = x1 at *
  generalize corner c 2 = x2 at *
  generalize corner c 3 = x3 at *
  by_cases a0 : x0 = a
  · subst a0
    by_cases b1 : x1 = b
    · subst b1; simp [n01, n01.symm, n02.symm, n03.symm, n12.symm, n13.symm]
    · by_cases b2 : x2 = b
      · subst b2; simp [n01.symm, n02.symm, n03.symm, n12, n23.symm, hab]
      · by_cases b3 : x3 = b
        · subst b3; simp [n01.symm, n02.symm, n03.symm, n13, n23, hab]
        · simp [b1, b2, b3, hab]
  · by_cases a1 : x1 = a
    · subst a1
      by_cases b0 : x0 = b
      · subst b0; simp [n01, n01.symm, n02.symm, n03.symm, n12.symm, n13.symm]
      · by_cases b2 : x2 = b
        · subst b2; simp [n01, n02, n12.symm, n13.symm, n12, n23.symm]
        · by_cases b3 : x3 = b
          · subst b3; simp [n01, n03, n12.symm, n13.symm, n13, n23]
          · simp [b0, b2, b3, hab, a0]
    · by_cases a2 : x2 = a
      · subst a2
        by_cases b0 : x0 = b
        · subst b0; simp [n02, n12, n01.symm, n02.symm, n03.symm, n23.symm]
        · by_cases b1 : x1 = b
          · subst b1; simp [n02, n12, n01, n12.symm, n13.symm, n23.symm]
          · by_cases b3 : x3 = b
            · subst b3; simp [n02, n12, n03, n13, n23, n23.symm]
            · simp [b0, b1, b3, hab, a0, a1]
      · by_cases a3 : x3 = a
        · subst a3
          by_cases b0 : x0 = b
          · subst b0; simp [n03, n13, n23, n01.symm, n02.symm, n03.symm]
          · by_cases b1 : x1 = b
            · subst b1; simp [n03, n13, n23, n01, n12.symm, n13.symm]
            · by_cases b2 : x2 = b
              · subst b2; simp [n03, n13, n23, n02, n12, n23.symm]
              · simp [b0, b1, b2, hab, a0, a1, a2]
        · simp [a0, a1, a2, a3]

/-! Vertices. -/

/-- The vertex of an entry. -/
def vertexOf (cells : List (List Nat)) (p : Nat × Int) : Nat := (cells.getD p.1 []).getD p.2.toNat 0

/-- An entry is a place in a cell. -/
def Valid (cells : List (List Nat)) (p : Nat × Int) : Prop := p.1 < cells.length ∧ 0 ≤ p.2 ∧ p.2.toNat < (cells.getD p.1 []).length

theorem findVertex_valid {cells : List (List Nat)} {i v : Nat} (hi : i < cells.length) (hv : v ∈ cells.getD i []) :
    Valid cells (i, findVertex (cells.getD i []) v) ∧ vertexOf cells (i, findVertex (cells.getD i []) v) = v := by
  obtain ⟨h1, h2, _⟩ := vertex_number (cells.getD i []) v
  have hne : findVertex (cells.getD i []) v ≠ -1 := fun e => h2.1 e hv
  have hnn : ∃ n : Nat, findVertex (cells.getD i []) v = n := by
    revert hne
    unfold findVertex
    split
    · exact fun _ => ⟨_, rfl⟩
    · exact fun hne => absurd rfl hne
  obtain ⟨n, hn⟩ := hnn
  have h3 := h1 n hn
  obtain ⟨h4, h5⟩ := List.getElem?_eq_some_iff.1 h3
  unfold Valid vertexOf
  simp only [hn, Int.toNat_natCast]
  refine ⟨⟨hi, by omega, h4⟩, ?_⟩
  rw [List.getD_eq_getElem _ _ h4, h5]

theorem addVertex_spec (cells : List (List Nat)) (l : List (Nat × Nat)) (hl : ∀ p ∈ l, p.2 < cells.length ∧ p.1 ∈ cells.getD p.2 []) :
    let s := l.foldl (addVertex cells) ([], [])
    s.1.Nodup ∧ (∀ v, v ∈ s.1 ↔ v ∈ l.map Prod.fst) ∧ s.2.map (vertexOf cells) = s.1.reverse ∧ ∀ p ∈ s.2, Valid cells p := by
  induction l using List.reverseRecOn with
  | nil => simp
  | append_singleton l p ih =>
    obtain ⟨h1, h2, h3, h4⟩ := ih fun p hp => hl p (List.mem_append_left _ hp)
    dsimp only
    rw [List.foldl_append]
    simp only [List.foldl_cons, List.foldl_nil]
    generalize l.foldl (addVertex cells) ([], []) = s at *
    obtain ⟨hp1, hp2⟩ := hl p (by simp)
    unfold addVertex
    split_ifs with h
    · refine ⟨h1, fun v => ?_, h3, h4⟩
      rw [h2, List.map_append, List.mem_append]
      constructor
      · exact Or.inl
      · rintro (hv | hv)
        · exact hv
        · simp only [List.map_cons, List.map_nil, List.mem_singleton] at hv
          rw [hv]; exact (h2 _).1 h
    · obtain ⟨v1, v2⟩ := findVertex_valid hp1 hp2
      refine ⟨List.nodup_cons.2 ⟨h, h1⟩, fun v => ?_, ?_, ?_⟩
      · rw [List.mem_cons, h2, List.map_append, List.mem_append]
        simp only [List.map_cons, List.map_nil, List.mem_singleton]
        exact or_comm
      · rw [List.map_append, h3, List.reverse_cons]
        simp only [List.map_cons, List.map_nil, v2]
      · intro q hq
        rcases List.mem_append.1 hq with hq | hq
        · exact h4 q hq
        · rw [List.mem_singleton.1 hq]
          exact v1

theorem addVertex_mono (cells : List (List Nat)) (s : List Nat × List (Nat × Int)) (l : List (Nat × Nat)) :
    s.2.length ≤ (l.foldl (addVertex cells) s).2.length := by
  induction l generalizing s with
  | nil => exact le_rfl
  | cons p l ih =>
    refine le_trans ?_ (ih _)
    unfold addVertex
    split_ifs
    · exact le_rfl
    · simp

/-- An array that is large enough. -/
theorem addVertexIn_eq (size : Nat) (cells : List (List Nat)) (l : List (Nat × Nat)) : ∀ s, (l.foldl (addVertex cells) s).2.length ≤ size →
    l.foldlM (addVertexIn size cells) s = some (l.foldl (addVertex cells) s) := by
  induction l with
  | nil => intro s _; rfl
  | cons p l ih =>
    intro s hs
    rw [List.foldlM_cons, List.foldl_cons]
    rw [List.foldl_cons] at hs
    have : addVertexIn size cells s p = some (addVertex cells s p) := by
      unfold addVertexIn
      have hm := le_trans (addVertex_mono cells (addVertex cells s p) l) hs
      unfold addVertex at hm ⊢
      split_ifs with h h2
      · rfl
      · rfl
      · rw [if_neg h] at hm
        simp at hm
        omega
    rw [this]
    exact ih _ hs

/-! Counting. -/

theorem degree_sum (E : List (Nat × Nat)) (V : List Nat) (hE : E.Nodup) (hne : ∀ e ∈ E, e.1 ≠ e.2) (hVE : ∀ v, v ∈ V ↔ ∃ e ∈ E, e.1 = v ∨ e.2 = v) :
    ∑ v ∈ V.toFinset, E.countP (fun e => decide (e.1 = v ∨ e.2 = v)) = 2 * E.length := by
  have key := Finset.sum_card_bipartiteAbove_eq_sum_card_bipartiteBelow (s := V.toFinset) (t := E.toFinset) (fun (v : Nat) (e : Nat × Nat) => e.1 = v ∨ e.2 = v)
  have h1 : ∀ v ∈ V.toFinset, (Finset.bipartiteAbove (fun (v : Nat) (e : Nat × Nat) => e.1 = v ∨ e.2 = v) E.toFinset v).card = E.countP fun e => decide (e.1 = v ∨ e.2 = v) := by
    intro v _
    unfold Finset.bipartiteAbove
    rw [List.countP_eq_length_filter, ← List.toFinset_card_of_nodup (hE.filter _), List.toFinset_filter]
    congr 1
    ext e
    simp
  have h2 : ∀ e ∈ E.toFinset, (Finset.bipartiteBelow (fun (v : Nat) (e : Nat × Nat) => e.1 = v ∨ e.2 = v) V.toFinset e).card = 2 := by
    intro e he
    have he := List.mem_toFinset.1 he
    have : Finset.bipartiteBelow (fun (v : Nat) (e : Nat × Nat) => e.1 = v ∨ e.2 = v) V.toFinset e = {e.1, e.2} := by
      unfold Finset.bipartiteBelow
      ext v
      simp only [Finset.mem_filter, List.mem_toFinset, Finset.mem_insert, Finset.mem_singleton]
      constructor
      · rintro ⟨_, h | h⟩
        · exact Or.inl h.symm
        · exact Or.inr h.symm
      · rintro (h | h)
        · exact ⟨(hVE v).2 ⟨e, he, Or.inl h.symm⟩, Or.inl h.symm⟩
        · exact ⟨(hVE v).2 ⟨e, he, Or.inr h.symm⟩, Or.inr h.symm⟩
    rw [this, Finset.card_pair (hne e he)]
  rw [Finset.sum_congr rfl h1, Finset.sum_congr rfl h2, Finset.sum_const, smul_eq_mul, List.toFinset_card_of_nodup hE] at key
  rw [key, mul_comm]

end PyNucleus.SurfaceEntities
