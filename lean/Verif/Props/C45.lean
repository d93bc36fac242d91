import Verif.Model.RefineBoundary
import Verif.Props.C42

/-!
# C45: refinement of the boundary

Full statement: refining a mesh leaves its own boundary arrays unchanged; the new boundary edges and faces are the parts of the old ones, each
carries the tag of its parent, and new vertices on boundary edges carry the tag of the edge.

In three dimensions the last row of the boundary edges of the refined mesh is used as scratch memory, `edges_unchanged_fails`.
-/

namespace PyNucleus.Props.C45

open PyNucleus.Refine PyNucleus.Props.C42

variable {K : Type} [Field K] [LinearOrder K] [IsStrictOrderedRing K]

private theorem dget_of_mem (L : List ((Nat × Nat) × Nat)) (hn : (L.map Prod.fst).Nodup) (e : Nat × Nat) (v : Nat) (h : (e, v) ∈ L) : dget L e = some v := by
  induction L with
  | nil => cases h
  | cons p t ih =>
    rw [List.map_cons, List.nodup_cons] at hn
    unfold dget
    rw [List.find?_cons]
    by_cases hp : p.1 = e
    · rw [show (p.1 == e) = true by simpa using hp]
      rcases List.mem_cons.1 h with h | h
      · rw [← h]; rfl
      · exact absurd (List.mem_map.2 ⟨_, h, rfl⟩) (hp ▸ hn.1)
    · rw [show (p.1 == e) = false by simpa using hp]
      rcases List.mem_cons.1 h with h | h
      · exact absurd (by rw [← h]) hp
      · exact ih hn.2 h

section
variable {d dim : Nat} {V V' : List (List K)} {cells cells' : List (List Nat)} {m : Nat → Nat → Nat} {lookup : List ((Nat × Nat) × Nat)}

private theorem dget_edge (hR : Refined d dim V cells m V' cells' lookup) (a b : Nat) (h : IsEdge cells a b) : dget lookup (sortEdge a b) = some (m a b) := by
  apply dget_of_mem _ hR.keys
  unfold sortEdge
  split
  · exact (hR.table a b (m a b)).2 ⟨by assumption, h, rfl⟩
  · exact (hR.table b a (m a b)).2 ⟨by have := h.1; omega, ⟨h.1.symm, h.2.imp fun c hc => ⟨hc.1, hc.2.2, hc.2.1⟩⟩, hR.symm a b⟩

private theorem zip_flatMap {α β γ : Type} (g : α → β) (f : α × β → List γ) : ∀ l : List α, (l.zip (l.map g)).flatMap f = l.flatMap fun a => f (a, g a) := by
  intro l
  induction l with
  | nil => rfl
  | cons a t ih => rw [List.map_cons, List.zip_cons_cons, List.flatMap_cons, List.flatMap_cons, ih]

/-- Two dimensions. -/
theorem boundary_triangles (hR : Refined d dim V cells m V' cells' lookup) (bV : List Nat) (tV : List Int) (bE : List (Nat × Nat)) (tE : List Int) (ht : tE.length = bE.length)
    (hE : ∀ e ∈ bE, IsEdge cells e.1 e.2) :
    newBoundary2D lookup bV tV bE tE = some (bV ++ bE.map (fun e => m e.1 e.2), tV ++ tE, bE.flatMap (fun e => [(e.1, m e.1 e.2), (m e.1 e.2, e.2)]), tE.flatMap fun t => [t, t]) := by
  unfold newBoundary2D
  rw [mapM_some _ (fun e => m e.1 e.2) bE (fun e he => dget_edge hR e.1 e.2 (hE e he))]
  show some (_, _, _, _) = _
  rw [zip_flatMap, ← ht, List.take_length]

/-- The four faces of a face. -/
def quarters (m : Nat → Nat → Nat) (f : Nat × Nat × Nat) : List (Nat × Nat × Nat) :=
  [(f.1, m f.1 f.2.1, m f.1 f.2.2), (f.2.1, m f.2.1 f.2.2, m f.1 f.2.1), (f.2.2, m f.1 f.2.2, m f.2.1 f.2.2), (m f.1 f.2.1, m f.2.1 f.2.2, m f.1 f.2.2)]

/-- The inner edges of a face, smaller number first. -/
def innerEdges (m : Nat → Nat → Nat) (f : Nat × Nat × Nat) : List (Nat × Nat) :=
  [(min (m f.1 f.2.1) (m f.2.1 f.2.2), max (m f.1 f.2.1) (m f.2.1 f.2.2)), (min (m f.2.1 f.2.2) (m f.1 f.2.2), max (m f.2.1 f.2.2) (m f.1 f.2.2)),
    (min (m f.1 f.2.2) (m f.1 f.2.1), max (m f.1 f.2.2) (m f.1 f.2.1))]

private theorem ordered_eq (a b : Nat) : ordered a b = (min a b, max a b) := by
  unfold ordered
  split
  · rw [min_eq_left (by omega), max_eq_right (by omega)]
  · rw [min_eq_right (by omega), max_eq_left (by omega)]

private theorem faces3_eq (hR : Refined d dim V cells m V' cells' lookup) : ∀ (bF : List (Nat × Nat × Nat)) (bE : List (Nat × Nat)),
    (∀ f ∈ bF, IsEdge cells f.1 f.2.1 ∧ IsEdge cells f.2.1 f.2.2 ∧ IsEdge cells f.1 f.2.2) →
    ∃ bE', faces3 lookup bF bE = some (bE', bF.flatMap (quarters m), bF.flatMap (innerEdges m)) ∧ bE'.length = bE.length ∧ (∀ i, i + 1 ≠ bE.length → bE'.getD i (0, 0) = bE.getD i (0, 0)) ∧
      (bF = [] → bE' = bE) ∧ ∀ f, bF.getLast? = some f → 0 < bE.length → bE'.getD (bE.length - 1) (0, 0) = sortEdge f.1 f.2.2 := by
  intro bF
  induction bF with
  | nil => intro bE _; exact ⟨bE, rfl, rfl, fun _ _ => rfl, fun _ => rfl, fun f h => (nomatch h)⟩
  | cons f t ih =>
    intro bE h
    obtain ⟨h1, h2, h3⟩ := h f List.mem_cons_self
    obtain ⟨bE', g1, g2, g3, g4, g5⟩ := ih (bE.set (bE.length - 1) (sortEdge f.1 f.2.2)) (fun g hg => h g (List.mem_cons_of_mem _ hg))
    have hf : face3 lookup bE f = some (bE.set (bE.length - 1) (sortEdge f.1 f.2.2), quarters m f, innerEdges m f) := by
      unfold face3
      rw [dget_edge hR _ _ h1, dget_edge hR _ _ h2, dget_edge hR _ _ h3]
      show some (_, _, _) = _
      rw [List.set_set, List.set_set, ordered_eq, ordered_eq, ordered_eq]
      rfl
    refine ⟨bE', ?_, by rw [g2, List.length_set], fun i hi => ?_, fun h => (nomatch h), fun f' hf' hl => ?_⟩
    · rw [faces3, hf]
      show (do let r ← faces3 lookup t (bE.set (bE.length - 1) (sortEdge f.1 f.2.2)); pure (r.1, quarters m f ++ r.2.1, innerEdges m f ++ r.2.2)) = _
      rw [g1]
      rfl
    · rw [g3 i (by rw [List.length_set]; exact hi), PyNucleus.Loops.getD_set]
      rw [if_neg (by omega)]
    · rw [List.length_set] at g5
      match t, g4, g5, hf' with
      | [], g4, _, hf' =>
        rw [g4 rfl, PyNucleus.Loops.getD_set, if_pos ⟨rfl, by omega⟩]
        simp at hf'
        rw [hf']
      | a :: t', _, g5, hf' => exact g5 f' (by simpa using hf') hl

/-- Three dimensions, boundary edges have the smaller vertex first: all arrays of the new boundary, new boundary edges again have the smaller vertex
first.  The boundary edges of the caller are unchanged up to the last one. -/
theorem boundary_tetrahedra_partial (hR : Refined d dim V cells m V' cells' lookup) (bE : List (Nat × Nat)) (tE : List Int) (bF : List (Nat × Nat × Nat)) (tF : List Int)
    (ht : tE.length = bE.length) (ht' : tF.length = bF.length) (hE : ∀ e ∈ bE, e.1 < e.2 ∧ IsEdge cells e.1 e.2)
    (hF : ∀ f ∈ bF, IsEdge cells f.1 f.2.1 ∧ IsEdge cells f.2.1 f.2.2 ∧ IsEdge cells f.1 f.2.2) (hlt : ∀ c ∈ cells, ∀ v ∈ c, v < V.length) :
    ∃ B bE', newBoundary3D lookup bE tE bF tF = some (B, bE') ∧ B.vertices = bE.map (fun e => m e.1 e.2) ∧ B.vertexTags = tE ∧
      B.edges = bE.flatMap (fun e => [(e.1, m e.1 e.2), (e.2, m e.1 e.2)]) ++ bF.flatMap (innerEdges m) ∧
      B.edgeTags = tE.flatMap (fun t => [t, t]) ++ tF.flatMap (fun t => [t, t, t]) ∧ B.faces = bF.flatMap (quarters m) ∧ B.faceTags = tF.flatMap (fun t => [t, t, t, t]) ∧
      ((∀ f ∈ bF, f.1 ≠ f.2.1 ∧ f.2.1 ≠ f.2.2 ∧ f.1 ≠ f.2.2) → ∀ e ∈ B.edges, e.1 < e.2) ∧
      bE'.length = bE.length ∧ (∀ i, i + 1 ≠ bE.length → bE'.getD i (0, 0) = bE.getD i (0, 0)) ∧
      (bF = [] ∨ (∃ f, bF.getLast? = some f ∧ bE.getLast? = some (min f.1 f.2.2, max f.1 f.2.2)) → bE' = bE) := by
  obtain ⟨bE', g1, g2, g3, g4, g5⟩ := faces3_eq hR bF bE hF
  have hm : bE.mapM (fun e => dget lookup e) = some (bE.map fun e => m e.1 e.2) :=
    mapM_some _ (fun e => m e.1 e.2) bE (fun e he => by
      have := dget_edge hR e.1 e.2 (hE e he).2
      unfold sortEdge at this
      rwa [if_pos (hE e he).1] at this)
  refine ⟨⟨_, _, _, _, _, _⟩, bE', ?_, rfl, rfl, rfl, rfl, rfl, rfl, fun hd e he => ?_, g2, g3, fun h => ?_⟩
  · unfold newBoundary3D
    rw [hm, g1]
    show some (Boundary3.mk _ _ _ _ _ _, _) = _
    rw [zip_flatMap, ← ht, List.take_length, ← ht', List.take_length]
    rfl
  · rcases List.mem_append.1 he with he | he
    · obtain ⟨e', h1, h2⟩ := List.mem_flatMap.1 he
      obtain ⟨-, -, c, hc, ha, hb⟩ := hE e' h1
      have k1 := hlt c hc _ ha
      have k2 := hlt c hc _ hb
      have k3 := (hR.range e'.1 e'.2 (hE e' h1).2).1
      simp only [List.mem_cons, List.not_mem_nil, or_false] at h2
      rcases h2 with rfl | rfl <;> dsimp only <;> omega
    · obtain ⟨f, h1, h2⟩ := List.mem_flatMap.1 he
      obtain ⟨e1, e2, e3⟩ := hF f h1
      obtain ⟨d1, d2, d3⟩ := hd f h1
      have n1 : m f.1 f.2.1 ≠ m f.2.1 f.2.2 := fun h => by have := hR.inj _ _ _ _ e1 e2 h; omega
      have n2 : m f.2.1 f.2.2 ≠ m f.1 f.2.2 := fun h => by have := hR.inj _ _ _ _ e2 e3 h; omega
      have n3 : m f.1 f.2.2 ≠ m f.1 f.2.1 := fun h => by have := hR.inj _ _ _ _ e3 e1 h; omega
      unfold innerEdges at h2
      simp only [List.mem_cons, List.not_mem_nil, or_false] at h2
      rcases h2 with rfl | rfl | rfl <;> dsimp only <;> omega
  · rcases h with h | ⟨f, h1, h2⟩
    · exact g4 h
    · have hne : bE ≠ [] := fun h => by rw [h] at h2; cases h2
      have hpos := List.length_pos_iff.2 hne
      have := g5 f h1 hpos
      apply List.ext_getElem g2
      intro i hi hi'
      rw [← List.getD_eq_getElem (d := (0, 0)), ← List.getD_eq_getElem bE (0, 0) hi']
      by_cases hl : i + 1 = bE.length
      · rw [show i = bE.length - 1 by omega, this]
        rw [List.getLast?_eq_getElem?] at h2
        rw [List.getD_eq_getElem?_getD, h2]
        show sortEdge f.1 f.2.2 = (min f.1 f.2.2, max f.1 f.2.2)
        unfold sortEdge
        split
        · rw [min_eq_left (by omega), max_eq_right (by omega)]
        · rw [min_eq_right (by omega), max_eq_left (by omega)]
      · exact g3 i hl

/-- Area vector of a face. -/
def normal (X : Nat → Nat → K) (f : Nat × Nat × Nat) (k : Nat) : K :=
  (X f.2.1 ((k + 1) % 3) - X f.1 ((k + 1) % 3)) * (X f.2.2 ((k + 2) % 3) - X f.1 ((k + 2) % 3)) - (X f.2.1 ((k + 2) % 3) - X f.1 ((k + 2) % 3)) * (X f.2.2 ((k + 1) % 3) - X f.1 ((k + 1) % 3))

/-- New boundary faces have the orientation of their parents and a quarter of the area. -/
theorem quarters_normal (hR : Refined d dim V cells m V' cells' lookup) (hlt : ∀ c ∈ cells, ∀ v ∈ c, v < V.length) (f : Nat × Nat × Nat)
    (hf : IsEdge cells f.1 f.2.1 ∧ IsEdge cells f.2.1 f.2.2 ∧ IsEdge cells f.1 f.2.2) : ∀ q ∈ quarters m f, ∀ k, normal (coords V') q k = normal (coords V) f k / 4 := by
  have hold : ∀ v k, v < V.length → coords V' v k = coords V v k := fun v k hv => by
    have h : (V'.take V.length).getD v [] = V'.getD v [] := by
      rw [List.getD_eq_getElem?_getD, List.getElem?_take_of_lt hv, ← List.getD_eq_getElem?_getD]
    unfold coords
    rw [← h, hR.old]
  have hin : ∀ a b, IsEdge cells a b → a < V.length ∧ b < V.length := fun a b h => by
    obtain ⟨-, c, hm, ha, hb⟩ := h
    exact ⟨hlt c hm a ha, hlt c hm b hb⟩
  intro q hq k
  unfold quarters at hq
  simp only [List.mem_cons, List.not_mem_nil, or_false] at hq
  rcases hq with rfl | rfl | rfl | rfl <;>
  · unfold normal
    simp only [hR.mid _ _ hf.1, hR.mid _ _ hf.2.1, hR.mid _ _ hf.2.2, hold _ _ (hin _ _ hf.1).1, hold _ _ (hin _ _ hf.1).2, hold _ _ (hin _ _ hf.2.1).2]
    ring

end

/-- Refining a mesh changes its own boundary edges: one tetrahedron, all boundary edges and faces. -/
theorem edges_unchanged_fails : ∃ (V : List (List Rat)) (cells : List (List Nat)) (m : Nat → Nat → Nat) (V' : List (List Rat)) (cells' : List (List Nat)) (lookup : List ((Nat × Nat) × Nat))
    (bE : List (Nat × Nat)) (tE : List Int) (bF : List (Nat × Nat × Nat)) (tF : List Int),
    refine3D (fun n => List.replicate n [0, 0, 0]) V cells = some (V', cells', lookup) ∧ Refined 3 3 V cells m V' cells' lookup ∧
    tE.length = bE.length ∧ tF.length = bF.length ∧ (∀ e ∈ bE, e.1 < e.2 ∧ IsEdge cells e.1 e.2) ∧ (∀ f ∈ bF, IsEdge cells f.1 f.2.1 ∧ IsEdge cells f.2.1 f.2.2 ∧ IsEdge cells f.1 f.2.2) ∧
    ∃ B bE', newBoundary3D lookup bE tE bF tF = some (B, bE') ∧ bE' ≠ bE := by
  have hfew : FewNeighbours [[0, 1, 2, 3]] := by
    intro a l hl h
    have : l ⊆ List.range 4 := fun b hb => by
      obtain ⟨-, -, c, hm, -, hb⟩ := h b hb
      rw [List.mem_singleton.1 hm] at hb
      exact hb
    have := (hl.subperm this).length_le
    rw [List.length_range] at this
    omega
  obtain ⟨m, V', cells', lookup, h1, h2, -⟩ := refine_tetrahedra (fun n => List.replicate n [0, 0, 0]) (fun n => by simp) ([[0, 0, 0], [1, 0, 0], [0, 1, 0], [0, 0, 1]] : List (List Rat)) (by decide)
    [[0, 1, 2, 3]] (by unfold IsMesh; decide) hfew
  have hed : ∀ a b : Nat, a ≠ b → a < 4 → b < 4 → IsEdge [[0, 1, 2, 3]] a b := fun a b hab ha hb => by
    refine ⟨hab, _, List.mem_singleton.2 rfl, ?_, ?_⟩
    · interval_cases a <;> simp
    · interval_cases b <;> simp
  have hE : ∀ e ∈ [((0, 1) : Nat × Nat), (0, 2), (0, 3), (1, 2), (1, 3), (2, 3)], e.1 < e.2 ∧ IsEdge [[0, 1, 2, 3]] e.1 e.2 := by
    intro e he
    have h0 : e.1 < e.2 ∧ e.2 < 4 := (by decide : ∀ e ∈ [((0, 1) : Nat × Nat), (0, 2), (0, 3), (1, 2), (1, 3), (2, 3)], e.1 < e.2 ∧ e.2 < 4) e he
    exact ⟨h0.1, hed _ _ (by omega) (by omega) h0.2⟩
  have hF : ∀ f ∈ [((1, 2, 3) : Nat × Nat × Nat), (0, 3, 2), (0, 1, 3), (0, 2, 1)], IsEdge [[0, 1, 2, 3]] f.1 f.2.1 ∧ IsEdge [[0, 1, 2, 3]] f.2.1 f.2.2 ∧ IsEdge [[0, 1, 2, 3]] f.1 f.2.2 := by
    intro f hf
    simp only [List.mem_cons, List.not_mem_nil, or_false] at hf
    rcases hf with rfl | rfl | rfl | rfl <;> exact ⟨hed _ _ (by decide) (by decide) (by decide), hed _ _ (by decide) (by decide) (by decide), hed _ _ (by decide) (by decide) (by decide)⟩
  obtain ⟨bE', g1, g2, -, -, g5⟩ := faces3_eq h2 _ [((0, 1) : Nat × Nat), (0, 2), (0, 3), (1, 2), (1, 3), (2, 3)] hF
  have hm : [((0, 1) : Nat × Nat), (0, 2), (0, 3), (1, 2), (1, 3), (2, 3)].mapM (fun e => dget lookup e) = some ([((0, 1) : Nat × Nat), (0, 2), (0, 3), (1, 2), (1, 3), (2, 3)].map fun e => m e.1 e.2) :=
    mapM_some _ (fun e : Nat × Nat => m e.1 e.2) _ (fun e he => by
      have := dget_edge h2 e.1 e.2 (hE e he).2
      unfold sortEdge at this
      rwa [if_pos (hE e he).1] at this)
  obtain ⟨B, hB⟩ : ∃ B, newBoundary3D lookup [(0, 1), (0, 2), (0, 3), (1, 2), (1, 3), (2, 3)] [1, 2, 3, 4, 5, 6] [(1, 2, 3), (0, 3, 2), (0, 1, 3), (0, 2, 1)] [1, 1, 2, 2] = some (B, bE') := by
    unfold newBoundary3D
    rw [hm, g1]
    exact ⟨_, rfl⟩
  refine ⟨_, _, m, V', cells', lookup, _, [1, 2, 3, 4, 5, 6], _, [1, 1, 2, 2], h1, h2, rfl, rfl, hE, hF, B, bE', hB, fun h => ?_⟩
  have := g5 (0, 2, 1) rfl (by decide)
  rw [h] at this
  exact absurd this (by decide)

/-! ### concrete cases -/

example : newBoundary2D [((0, 1), 4), ((0, 2), 5), ((1, 2), 6), ((1, 3), 8), ((2, 3), 7)] [0, 1, 2, 3] [1, 1, 2, 2] [(0, 1), (1, 3), (3, 2), (2, 0)] [1, 2, 3, 4] =
    some ([0, 1, 2, 3, 4, 8, 7, 5], [1, 1, 2, 2, 1, 2, 3, 4], [(0, 4), (4, 1), (1, 8), (8, 3), (3, 7), (7, 2), (2, 5), (5, 0)], [1, 1, 2, 2, 3, 3, 4, 4]) := by decide

/-- One tetrahedron: the last boundary edge of the mesh is (0, 1) afterwards. -/
example : (newBoundary3D [((0, 1), 4), ((0, 2), 5), ((0, 3), 6), ((1, 2), 7), ((1, 3), 8), ((2, 3), 9)] [(0, 1), (0, 2), (0, 3), (1, 2), (1, 3), (2, 3)] [1, 2, 3, 4, 5, 6]
    [(1, 2, 3), (0, 3, 2), (0, 1, 3), (0, 2, 1)] [1, 1, 2, 2]).map Prod.snd = some [(0, 1), (0, 2), (0, 3), (1, 2), (1, 3), (0, 1)] := by decide

end PyNucleus.Props.C45
