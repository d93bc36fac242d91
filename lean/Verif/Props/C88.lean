import Verif.Proof.SurfaceEntities

/-!
# C88: the boundary in terms of cells

Full statement: `boundary1D`, `boundary2D`, `boundary3D` give each vertex, edge, and face of the boundary of the mesh exactly once, as a cell and a local
number in it; nothing is written outside of the arrays; a domain is reported as one with a hole if it has one.
-/

namespace PyNucleus.Props.C88

open PyNucleus.SimplexMapper PyNucleus.SurfaceEntities PyNucleus.Props.C81

/-- Vertices of an odd number of intervals; for a mesh, of one. -/
def Boundary1 (cells : List (List Nat)) (v : Nat) : Prop := Odd (cells.countP fun c => decide (v ∈ c))

/-- Edges of an odd number of triangles; for a mesh, of one. -/
def Boundary2 (cells : List (List Nat)) (e : Nat × Nat) : Prop := e.1 < e.2 ∧ Odd (cells.countP fun c => decide (e.1 ∈ c ∧ e.2 ∈ c))

/-- Faces of an odd number of tetrahedra; for a mesh, of one. -/
def Boundary3 (cells : List (List Nat)) (f : Nat × Nat × Nat) : Prop :=
  f.1 < f.2.1 ∧ f.2.1 < f.2.2 ∧ Odd (cells.countP fun c => decide (f.1 ∈ c ∧ f.2.1 ∈ c ∧ f.2.2 ∈ c))

/-- If no facet belongs to more than two cells, odd means one. -/
theorem odd_one {n : Nat} (h : n ≤ 2) : Odd n ↔ n = 1 := by rw [Nat.odd_iff]; omega

/-- `boundary1D` gives each boundary vertex once. -/
theorem line {cells : List (List Nat)} (hc : ∀ c ∈ cells, IsCell 2 c) :
    (∀ p ∈ boundary1D cells, p.1 < cells.length ∧ p.2 < 2) ∧ ((boundary1D cells).map fun p => corner (cells.getD p.1 []) p.2).Nodup ∧
      ∀ v, v ∈ ((boundary1D cells).map fun p => corner (cells.getD p.1 []) p.2) ↔ Boundary1 cells v := by
  obtain ⟨t1, t2, _⟩ := toggle_spec (vertexItems cells)
  have hmem : ∀ p ∈ vertexItems cells, p.2.1 < cells.length ∧ p.2.2 < 2 ∧ corner (cells.getD p.2.1 []) p.2.2 = p.1 := by
    intro p hp
    unfold vertexItems at hp
    obtain ⟨⟨c, i⟩, hq, hp⟩ := List.mem_flatMap.1 hp
    obtain ⟨h1, h2⟩ := List.mem_zipIdx_iff_getElem?.1 hq |> List.getElem?_eq_some_iff.1
    dsimp only at h1 h2 hp
    have hg : cells.getD i [] = c := by rw [List.getD_eq_getElem _ _ h1, h2]
    rcases List.mem_cons.1 hp with rfl | hp
    · exact ⟨h1, by simp, by dsimp only; rw [hg]⟩
    · rw [List.mem_singleton.1 hp]
      exact ⟨h1, by simp, by dsimp only; rw [hg]⟩
  have hdec : (boundary1D cells).map (fun p => corner (cells.getD p.1 []) p.2) = ((vertexItems cells).foldl enterDelete []).map Prod.fst := by
    unfold boundary1D
    rw [List.map_map]
    apply List.map_congr_left
    intro p hp
    exact (hmem p (t2 p hp)).2.2
  refine ⟨?_, by rw [hdec]; exact t1, fun v => ?_⟩
  · intro p hp
    obtain ⟨q, hq, rfl⟩ := List.mem_map.1 hp
    exact ⟨(hmem q (t2 q hq)).1, (hmem q (t2 q hq)).2.1⟩
  · rw [hdec, toggle_mem]
    unfold Boundary1
    have hfst : (vertexItems cells).map Prod.fst = cells.flatMap fun c => [corner c 0, corner c 1] := by
      have : ∀ (cells : List (List Nat)) n, ((cells.zipIdx n).flatMap fun p => [(corner p.1 0, p.2, 0), (corner p.1 1, p.2, 1)]).map Prod.fst =
          cells.flatMap fun c => [corner c 0, corner c 1] := by
        intro cells
        induction cells with
        | nil => intro n; rfl
        | cons c cells ih => intro n; rw [List.zipIdx_cons, List.flatMap_cons, List.flatMap_cons, List.map_append, ih]; rfl
      exact this cells 0
    rw [countP_fst (vertexItems cells) (fun x => decide (x = v)), hfst, countP_cells _ _ (fun c => decide (v ∈ c)) 1, Nat.one_mul]
    intro c hcc
    have h := hc c hcc
    have hd := h.distinct
    have n01 : corner c 0 ≠ corner c 1 := fun e => by have := hd 0 (by omega) 1 (by omega) e; omega
    have hm : v ∈ c ↔ corner c 0 = v ∨ corner c 1 = v := by
      rw [h.mem]
      constructor
      · rintro ⟨i, hi, e⟩
        interval_cases i <;> simp [e]
      · rintro (e | e)
        · exact ⟨0, by omega, e⟩
        · exact ⟨1, by omega, e⟩
    simp only [List.countP_cons, List.countP_nil, hm, Nat.zero_add, decide_eq_true_eq]
    by_cases a : corner c 0 = v
    · subst a; simp [n01.symm]
    · simp [a]

section Triangles
variable {cells : List (List Nat)} (hc : ∀ c ∈ cells, IsCell 3 c) {order : List ((Nat × Nat) × Nat) → List ((Nat × Nat) × Nat)} (hord : ∀ l, (order l).Perm l)

/-- The rows of a result stand for the boundary: places in cells, each boundary edge and each of their vertices once. -/
structure IsBoundary2 (cells : List (List Nat)) (r : Result2) : Prop where
  edges_valid : ∀ p ∈ r.2, p.1 < cells.length ∧ p.2 < 3
  edges_once : (r.2.map fun p => getEdge2 (corner (cells.getD p.1 [])) p.2 true).Nodup
  edges : ∀ e, e ∈ (r.2.map fun p => getEdge2 (corner (cells.getD p.1 [])) p.2 true) ↔ Boundary2 cells e
  vertices_valid : ∀ p ∈ r.1, Valid cells p
  vertices_once : (r.1.map (vertexOf cells)).Nodup
  vertices : ∀ v, v ∈ r.1.map (vertexOf cells) ↔ ∃ e, Boundary2 cells e ∧ (e.1 = v ∨ e.2 = v)

theorem getD_mem {cells : List (List Nat)} {i : Nat} (hi : i < cells.length) : cells.getD i [] ∈ cells := by
  rw [List.getD_eq_getElem _ _ hi]
  exact List.getElem_mem hi

include hc in
theorem edge_keys (e : Nat × Nat) : e ∈ ((edgeItems cells).foldl enterDelete []).map Prod.fst ↔ Boundary2 cells e := by
  rw [toggle_mem]
  unfold Boundary2
  by_cases he : e.1 < e.2
  · rw [countP_fst (edgeItems cells) (fun x => decide (x = e)), edgeItems, items_fst (fun c => cellEdges2 (corner c)),
      countP_cells _ _ (fun c => decide (e.1 ∈ c ∧ e.2 ∈ c)) 1 cells fun c hcc => count_edge (hc c hcc) he, Nat.one_mul]
    simp [he]
  · simp only [he, false_and, iff_false]
    have : ((edgeItems cells).countP fun p => decide (p.1 = e)) = 0 := by
      rw [List.countP_eq_zero]
      rintro ⟨e', i⟩ hp
      obtain ⟨hi, hm⟩ := (items_mem (fun c => cellEdges2 (corner c)) cells e' i).1 hp
      have h3 := hc _ (getD_mem hi)
      have := ((edges_triangle _ h3.distinct).2 e').1 hm
      simp only [decide_eq_true_eq]
      rintro rfl
      exact he this.1
    rw [this]
    simp

include hc hord in
/-- Facts about the dictionary of edges in the order in which it is gone through. -/
theorem edge_dict : let eV := order ((edgeItems cells).foldl enterDelete [])
    (eV.map Prod.fst).Nodup ∧ (∀ e, e ∈ eV.map Prod.fst ↔ Boundary2 cells e) ∧
      ∀ p ∈ eV, p.2 < cells.length ∧ IsEdge 3 (corner (cells.getD p.2 [])) p.1 ∧ p.1.1 ∈ cells.getD p.2 [] ∧ p.1.2 ∈ cells.getD p.2 [] := by
  obtain ⟨t1, t2, _⟩ := toggle_spec (edgeItems cells)
  have hp := (hord ((edgeItems cells).foldl enterDelete [])).map Prod.fst
  refine ⟨hp.nodup_iff.2 t1, fun e => by rw [hp.mem_iff, edge_keys hc], ?_⟩
  rintro ⟨e, i⟩ hm
  obtain ⟨hi, hm⟩ := (items_mem (fun c => cellEdges2 (corner c)) cells e i).1 (t2 _ ((hord _).mem_iff.1 hm))
  have h3 := hc _ (getD_mem hi)
  have he := ((edges_triangle _ h3.distinct).2 e).1 hm
  exact ⟨hi, he, ((h3.edge e).1 he).2⟩

include hc hord in
/-- `boundary2D` without the assumption of a connected boundary. -/
theorem triangles : ∃ r, boundary2D order cells false = .ok r ∧ IsBoundary2 cells r := by
  obtain ⟨k1, k2, k3⟩ := edge_dict hc hord
  unfold boundary2D
  dsimp only
  generalize order ((edgeItems cells).foldl enterDelete []) = eV at *
  refine ⟨_, rfl, ?_⟩
  have hdec : (eV.map fun p => (p.2, findEdge2 (corner (cells.getD p.2 [])) p.1)).map (fun p => getEdge2 (corner (cells.getD p.1 [])) p.2 true) = eV.map Prod.fst := by
    rw [List.map_map]
    apply List.map_congr_left
    intro p hp
    obtain ⟨hi, he, _⟩ := k3 p hp
    exact ((edge_number_triangle _ (hc _ (getD_mem hi)).distinct).2 _ he).2
  have hv := addVertex_spec cells (eV.flatMap fun p => [(p.1.1, p.2), (p.1.2, p.2)]) (by
    intro q hq
    obtain ⟨p, hp, hq⟩ := List.mem_flatMap.1 hq
    obtain ⟨hi, _, h1, h2⟩ := k3 p hp
    rcases List.mem_cons.1 hq with rfl | hq
    · exact ⟨hi, h1⟩
    · rw [List.mem_singleton.1 hq]; exact ⟨hi, h2⟩)
  obtain ⟨v1, v2, v3, v4⟩ := hv
  refine ⟨?_, by dsimp only; rw [hdec]; exact k1, fun e => by dsimp only; rw [hdec]; exact k2 e, v4, by dsimp only; rw [v3]; exact List.nodup_reverse.2 v1, fun v => ?_⟩
  · intro q hq
    obtain ⟨p, hp, rfl⟩ := List.mem_map.1 hq
    obtain ⟨hi, he, _⟩ := k3 p hp
    exact ⟨hi, ((edge_number_triangle _ (hc _ (getD_mem hi)).distinct).2 _ he).1⟩
  · dsimp only
    rw [v3, List.mem_reverse, v2]
    constructor
    · intro h
      obtain ⟨q, hq, rfl⟩ := List.mem_map.1 h
      obtain ⟨p, hp, hq⟩ := List.mem_flatMap.1 hq
      refine ⟨p.1, (k2 _).1 (List.mem_map_of_mem hp), ?_⟩
      rcases List.mem_cons.1 hq with rfl | hq
      · exact Or.inl rfl
      · rw [List.mem_singleton.1 hq]; exact Or.inr rfl
    · rintro ⟨e, he, h⟩
      obtain ⟨p, hp, rfl⟩ := List.mem_map.1 ((k2 e).2 he)
      rcases h with rfl | rfl
      · exact List.mem_map.2 ⟨(p.1.1, p.2), List.mem_flatMap.2 ⟨p, hp, by simp⟩, rfl⟩
      · exact List.mem_map.2 ⟨(p.1.2, p.2), List.mem_flatMap.2 ⟨p, hp, by simp⟩, rfl⟩

/-- Boundary edges at a vertex among the edges of a result. -/
def degree (cells : List (List Nat)) (r : Result2) (v : Nat) : Nat :=
  (r.2.map fun p => getEdge2 (corner (cells.getD p.1 [])) p.2 true).countP fun e => decide (e.1 = v ∨ e.2 = v)

include hc in
/-- The boundary has no end: at each vertex there is an even number of boundary edges. -/
theorem closed_triangles {r : Result2} (hr : IsBoundary2 cells r) (v : Nat) : Even (degree cells r v) := by
  unfold degree
  have hperm : (r.2.map fun p => getEdge2 (corner (cells.getD p.1 [])) p.2 true).Perm (((edgeItems cells).foldl enterDelete []).map Prod.fst) :=
    (List.perm_ext_iff_of_nodup hr.edges_once (toggle_spec (edgeItems cells)).1).2 fun e => by rw [hr.edges, edge_keys hc]
  rw [hperm.countP_eq, ← countP_fst, Nat.even_iff, (toggle_spec (edgeItems cells)).2.2 fun e => decide (e.1 = v ∨ e.2 = v),
    countP_fst (edgeItems cells) (fun e => decide (e.1 = v ∨ e.2 = v)), edgeItems, items_fst (fun c => cellEdges2 (corner c)),
    countP_cells _ _ (fun c => decide (v ∈ c)) 2 cells fun c hcc => count_edges_at (hc c hcc) v]
  omega

include hc in
/-- There are at most as many boundary vertices as boundary edges, and as many only if there are two edges at each of these vertices. -/
theorem vertices_le {r : Result2} (hr : IsBoundary2 cells r) :
    r.1.length ≤ r.2.length ∧ (r.1.length = r.2.length ↔ ∀ v ∈ r.1.map (vertexOf cells), degree cells r v = 2) := by
  have hsum := degree_sum (r.2.map fun p => getEdge2 (corner (cells.getD p.1 [])) p.2 true) (r.1.map (vertexOf cells)) hr.edges_once
    (fun e he => ((hr.edges e).1 he).1.ne) (fun v => by
      rw [hr.vertices]
      constructor
      · rintro ⟨e, he, h⟩; exact ⟨e, (hr.edges e).2 he, h⟩
      · rintro ⟨e, he, h⟩; exact ⟨e, (hr.edges e).1 he, h⟩)
  rw [List.length_map] at hsum
  have hge : ∀ v ∈ (r.1.map (vertexOf cells)).toFinset, 2 ≤ degree cells r v := by
    intro v hv
    obtain ⟨e, he, h⟩ := (hr.vertices v).1 (List.mem_toFinset.1 hv)
    have hpos : 0 < degree cells r v := List.countP_pos_iff.2 ⟨e, (hr.edges e).2 he, by simpa using h⟩
    obtain ⟨k, hk⟩ := closed_triangles hc hr v
    omega
  have hsum : ∑ v ∈ (r.1.map (vertexOf cells)).toFinset, degree cells r v = 2 * r.2.length := hsum
  have hcard : (r.1.map (vertexOf cells)).toFinset.card = r.1.length := by rw [List.toFinset_card_of_nodup hr.vertices_once, List.length_map]
  have h2 : ∑ _v ∈ (r.1.map (vertexOf cells)).toFinset, 2 = 2 * r.1.length := by rw [Finset.sum_const, hcard, smul_eq_mul, mul_comm]
  have hle : ∑ _v ∈ (r.1.map (vertexOf cells)).toFinset, 2 ≤ ∑ v ∈ (r.1.map (vertexOf cells)).toFinset, degree cells r v := Finset.sum_le_sum hge
  refine ⟨by omega, ?_, ?_⟩
  · intro e v hv
    have heq : ∑ _v ∈ (r.1.map (vertexOf cells)).toFinset, 2 = ∑ v ∈ (r.1.map (vertexOf cells)).toFinset, degree cells r v := by omega
    exact ((Finset.sum_eq_sum_iff_of_le hge).1 heq v (List.mem_toFinset.2 hv)).symm
  · intro h
    have heq : ∑ v ∈ (r.1.map (vertexOf cells)).toFinset, degree cells r v = ∑ _v ∈ (r.1.map (vertexOf cells)).toFinset, 2 :=
      Finset.sum_congr rfl fun v hv => h v (List.mem_toFinset.1 hv)
    omega

open Classical in
include hc hord in
/-- With the assumption of a connected boundary: nothing is written outside of the arrays, the result is that without the assumption, and there is an
error exactly if there are more than two boundary edges at a boundary vertex.  This is not the error for a hole that is meant, see below. -/
theorem connected_partial : ∃ r, boundary2D order cells false = .ok r ∧
    boundary2D order cells true = (if ∃ v, 2 < degree cells r v then .error .hole else .ok r) := by
  obtain ⟨r, hr, hb⟩ := triangles hc hord
  refine ⟨r, hr, ?_⟩
  obtain ⟨h1, h2⟩ := vertices_le hc hb
  have hiff : r.1.length = r.2.length ↔ ¬ ∃ v, 2 < degree cells r v := by
    rw [h2]
    constructor
    · rintro h ⟨v, hv⟩
      have : v ∈ r.1.map (vertexOf cells) := by
        obtain ⟨e, he, hve⟩ := List.countP_pos_iff.1 (show 0 < degree cells r v by omega)
        exact (hb.vertices v).2 ⟨e, (hb.edges e).1 he, by simpa using hve⟩
      have := h v this
      omega
    · intro h v hv
      obtain ⟨e, he, hve⟩ := (hb.vertices v).1 hv
      have hpos : 0 < degree cells r v := List.countP_pos_iff.2 ⟨e, (hb.edges e).2 he, by simpa using hve⟩
      obtain ⟨k, hk⟩ := closed_triangles hc hb v
      have : ¬ 2 < degree cells r v := fun hlt => h ⟨v, hlt⟩
      omega
  have hr' := hr
  unfold boundary2D at hr ⊢
  dsimp only at hr ⊢
  generalize order ((edgeItems cells).foldl enterDelete []) = eV at *
  rw [if_neg (by simp)] at hr
  injection hr with hr
  have e1 : ((eV.flatMap fun p => [(p.1.1, p.2), (p.1.2, p.2)]).foldl (addVertex cells) ([], [])).2 = r.1 := by rw [← hr]
  have e2 : eV.length = r.2.length := by rw [← hr]; simp
  rw [if_pos rfl, addVertexIn_eq eV.length cells _ _ (by rw [e1, e2]; exact h1)]
  dsimp only
  rw [e1, e2]
  by_cases hx : ∃ v, 2 < degree cells r v
  · rw [if_pos hx, if_neg (by rw [hiff]; exact not_not.2 hx)]
  · rw [if_neg hx, if_pos (hiff.2 hx), ← hr]

end Triangles

/-- A ring of six triangles has a hole but gives no error; two triangles with one common vertex have no hole but give the error. -/
theorem hole_fails : (∃ r, boundary2D id [[0, 1, 3], [1, 4, 3], [1, 2, 4], [2, 5, 4], [2, 0, 5], [0, 3, 5]] true = .ok r ∧ r.2.length = 6) ∧
    boundary2D id [[0, 1, 2], [2, 3, 4]] true = .error .hole := by
  constructor
  · exact ⟨(boundary2D id [[0, 1, 3], [1, 4, 3], [1, 2, 4], [2, 5, 4], [2, 0, 5], [0, 3, 5]] true).toOption.getD ([], []), by decide, by decide⟩
  · decide

section Tetrahedra
variable {cells : List (List Nat)} (hc : ∀ c ∈ cells, IsCell 4 c) {order : List ((Nat × Nat × Nat) × Nat) → List ((Nat × Nat × Nat) × Nat)}
  (hord : ∀ l, (order l).Perm l) {order' : List ((Nat × Nat) × Nat) → List ((Nat × Nat) × Nat)} (hord' : ∀ l, (order' l).Perm l)

/-- The rows of a result stand for the boundary. -/
structure IsBoundary3 (cells : List (List Nat)) (r : Result3) : Prop where
  faces_valid : ∀ p ∈ r.bfaces, p.1 < cells.length ∧ 0 ≤ p.2 ∧ p.2 < 4
  faces_once : (r.bfaces.map fun p => getFace (corner (cells.getD p.1 [])) p.2.toNat true).Nodup
  faces : ∀ f, f ∈ (r.bfaces.map fun p => getFace (corner (cells.getD p.1 [])) p.2.toNat true) ↔ Boundary3 cells f
  edges_valid : ∀ p ∈ r.bedges, p.1 < cells.length ∧ p.2 < 6
  edges_once : (r.bedges.map fun p => getEdge3 (corner (cells.getD p.1 [])) p.2 true).Nodup
  edges : ∀ e, e ∈ (r.bedges.map fun p => getEdge3 (corner (cells.getD p.1 [])) p.2 true) ↔ e.1 < e.2 ∧ ∃ f, Boundary3 cells f ∧ InFace e.1 f ∧ InFace e.2 f
  vertices_valid : ∀ p ∈ r.bvertices, Valid cells p
  vertices_once : (r.bvertices.map (vertexOf cells)).Nodup
  vertices : ∀ v, v ∈ r.bvertices.map (vertexOf cells) ↔ ∃ f, Boundary3 cells f ∧ InFace v f

include hc in
theorem face_keys (f : Nat × Nat × Nat) : f ∈ ((faceItems cells).foldl enterDelete []).map Prod.fst ↔ Boundary3 cells f := by
  rw [toggle_mem]
  unfold Boundary3
  by_cases hf : f.1 < f.2.1 ∧ f.2.1 < f.2.2
  · rw [countP_fst (faceItems cells) (fun x => decide (x = f)), faceItems, items_fst (fun c => cellFaces (corner c)),
      countP_cells _ _ (fun c => decide (f.1 ∈ c ∧ f.2.1 ∈ c ∧ f.2.2 ∈ c)) 1 cells fun c hcc => count_face (hc c hcc) hf, Nat.one_mul]
    simp [hf]
  · have h0 : ((faceItems cells).countP fun p => decide (p.1 = f)) = 0 := by
      rw [List.countP_eq_zero]
      rintro ⟨f', i⟩ hp
      obtain ⟨hi, hm⟩ := (items_mem (fun c => cellFaces (corner c)) cells f' i).1 hp
      have h4 := hc _ (getD_mem hi)
      have := ((faces_tetrahedron _ h4.distinct).2 f').1 hm
      simp only [decide_eq_true_eq]
      rintro rfl
      exact hf ⟨this.1, this.2.1⟩
    rw [h0]
    constructor
    · intro h; exact absurd h (by decide)
    · rintro ⟨h1, h2, _⟩; exact absurd ⟨h1, h2⟩ hf

include hc hord in
theorem face_dict : let fV := order ((faceItems cells).foldl enterDelete [])
    (fV.map Prod.fst).Nodup ∧ (∀ f, f ∈ fV.map Prod.fst ↔ Boundary3 cells f) ∧
      ∀ p ∈ fV, p.2 < cells.length ∧ IsFace (corner (cells.getD p.2 [])) p.1 ∧ ∀ v, InFace v p.1 → v ∈ cells.getD p.2 [] := by
  obtain ⟨t1, t2, _⟩ := toggle_spec (faceItems cells)
  have hp := (hord ((faceItems cells).foldl enterDelete [])).map Prod.fst
  refine ⟨hp.nodup_iff.2 t1, fun e => by rw [hp.mem_iff, face_keys hc], ?_⟩
  rintro ⟨f, i⟩ hm
  obtain ⟨hi, hm⟩ := (items_mem (fun c => cellFaces (corner c)) cells f i).1 (t2 _ ((hord _).mem_iff.1 hm))
  have h4 := hc _ (getD_mem hi)
  have hf := ((faces_tetrahedron _ h4.distinct).2 f).1 hm
  refine ⟨hi, hf, ?_⟩
  obtain ⟨_, _, a, b, c⟩ := (h4.face f).1 hf
  rintro v (rfl | rfl | rfl)
  · exact a
  · exact b
  · exact c

include hc hord hord' in
/-- `boundary3D` gives each face, edge, and vertex of the boundary once, and warns exactly if the numbers of vertices, edges, and faces do not meet
Euler's formula for a sphere. -/
theorem tetrahedra (assumeConnected : Bool) : let r := boundary3D order order' cells assumeConnected
    IsBoundary3 cells r ∧ (r.warning = true ↔ assumeConnected = true ∧ (r.bvertices.length : Int) - r.bedges.length + r.bfaces.length ≠ 2) := by
  obtain ⟨k1, k2, k3⟩ := face_dict hc hord
  unfold boundary3D
  dsimp only
  generalize order ((faceItems cells).foldl enterDelete []) = fV at *
  obtain ⟨t1, t2, t3⟩ := keep_spec (fV.flatMap fun p => (faceEdges p.1).map fun e => (e, p.2))
  have hp := (hord' ((fV.flatMap fun p => (faceEdges p.1).map fun e => (e, p.2)).foldl enterKeep [])).map Prod.fst
  have hsub : ∀ q ∈ order' ((fV.flatMap fun p => (faceEdges p.1).map fun e => (e, p.2)).foldl enterKeep []), ∃ p ∈ fV, q.2 = p.2 ∧ q.1 ∈ faceEdges p.1 := by
    intro q hq
    obtain ⟨p, hp, hq⟩ := List.mem_flatMap.1 (t2 _ ((hord' _).mem_iff.1 hq))
    obtain ⟨e, he, rfl⟩ := List.mem_map.1 hq
    exact ⟨p, hp, rfl, he⟩
  have hedge : ∀ p ∈ fV, ∀ e : Nat × Nat, e ∈ faceEdges p.1 ↔ e.1 < e.2 ∧ InFace e.1 p.1 ∧ InFace e.2 p.1 := by
    rintro p hp ⟨a, b⟩
    obtain ⟨_, hf, _⟩ := k3 p hp
    have h12 := hf.1
    have h23 := hf.2.1
    rw [(edges_face p.1 (by omega) (by omega) (by omega)).2 a b]
    unfold InFace
    simp only [eq_comm]
  have e1 : ∀ e, e ∈ (order' ((fV.flatMap fun p => (faceEdges p.1).map fun e => (e, p.2)).foldl enterKeep [])).map Prod.fst ↔
      e.1 < e.2 ∧ ∃ f, Boundary3 cells f ∧ InFace e.1 f ∧ InFace e.2 f := by
    intro e
    rw [hp.mem_iff, t3]
    constructor
    · intro h
      obtain ⟨q, hq, rfl⟩ := List.mem_map.1 h
      obtain ⟨p, hp, hq⟩ := List.mem_flatMap.1 hq
      obtain ⟨e, he, rfl⟩ := List.mem_map.1 hq
      obtain ⟨a, b, c⟩ := (hedge p hp e).1 he
      exact ⟨a, p.1, (k2 _).1 (List.mem_map_of_mem hp), b, c⟩
    · rintro ⟨hlt, f, hf, ha, hb⟩
      obtain ⟨p, hp, rfl⟩ := List.mem_map.1 ((k2 f).2 hf)
      exact List.mem_map.2 ⟨(e, p.2), List.mem_flatMap.2 ⟨p, hp, List.mem_map.2 ⟨e, (hedge p hp e).2 ⟨hlt, ha, hb⟩, rfl⟩⟩, rfl⟩
  have e2 := hp.nodup_iff.2 t1
  generalize order' ((fV.flatMap fun p => (faceEdges p.1).map fun e => (e, p.2)).foldl enterKeep []) = eV at *
  have hdecf : (fV.map fun p => (p.2, findFace (corner (cells.getD p.2 [])) p.1)).map (fun p => getFace (corner (cells.getD p.1 [])) p.2.toNat true) = fV.map Prod.fst := by
    rw [List.map_map]
    apply List.map_congr_left
    intro p hp
    obtain ⟨hi, hf, _⟩ := k3 p hp
    obtain ⟨n, _, hn, hg⟩ := (face_number _ (hc _ (getD_mem hi)).distinct).2.1 _ hf
    simp only [Function.comp, hn, Int.toNat_natCast, hg]
  have heE : ∀ q ∈ eV, q.2 < cells.length ∧ IsEdge 4 (corner (cells.getD q.2 [])) q.1 := by
    intro q hq
    obtain ⟨p, hp, h1, h2⟩ := hsub q hq
    obtain ⟨hi, _, hv⟩ := k3 p hp
    rw [h1]
    obtain ⟨a, b, c⟩ := (hedge p hp _).1 h2
    exact ⟨hi, ((hc _ (getD_mem hi)).edge _).2 ⟨a, hv _ b, hv _ c⟩⟩
  have hdece : (eV.map fun p => (p.2, findEdge3 (corner (cells.getD p.2 [])) p.1)).map (fun p => getEdge3 (corner (cells.getD p.1 [])) p.2 true) = eV.map Prod.fst := by
    rw [List.map_map]
    apply List.map_congr_left
    intro q hq
    obtain ⟨hi, he⟩ := heE q hq
    exact ((edge_number_tetrahedron _ (hc _ (getD_mem hi)).distinct).2 _ he).2
  have hv := addVertex_spec cells (fV.flatMap fun p => [(p.1.1, p.2), (p.1.2.1, p.2), (p.1.2.2, p.2)]) (by
    intro q hq
    obtain ⟨p, hp, hq⟩ := List.mem_flatMap.1 hq
    obtain ⟨hi, _, hv⟩ := k3 p hp
    simp only [List.mem_cons, List.not_mem_nil, or_false] at hq
    rcases hq with rfl | rfl | rfl
    · exact ⟨hi, hv _ (Or.inl rfl)⟩
    · exact ⟨hi, hv _ (Or.inr (Or.inl rfl))⟩
    · exact ⟨hi, hv _ (Or.inr (Or.inr rfl))⟩)
  obtain ⟨v1, v2, v3, v4⟩ := hv
  generalize ((fV.flatMap fun p => [(p.1.1, p.2), (p.1.2.1, p.2), (p.1.2.2, p.2)]).foldl (addVertex cells) ([], [])) = s at *
  constructor
  · refine ⟨?_, by dsimp only; rw [hdecf]; exact k1, fun f => by dsimp only; rw [hdecf]; exact k2 f, ?_, by dsimp only; rw [hdece]; exact e2,
      fun e => by dsimp only; rw [hdece]; exact e1 e, v4, by dsimp only; rw [v3]; exact List.nodup_reverse.2 v1, fun v => ?_⟩
    · intro q hq
      obtain ⟨p, hp, rfl⟩ := List.mem_map.1 hq
      obtain ⟨hi, hf, _⟩ := k3 p hp
      obtain ⟨n, h4, hn, _⟩ := (face_number _ (hc _ (getD_mem hi)).distinct).2.1 _ hf
      exact ⟨hi, by dsimp only; omega, by dsimp only; omega⟩
    · intro q hq
      obtain ⟨p, hp, rfl⟩ := List.mem_map.1 hq
      obtain ⟨hi, he⟩ := heE p hp
      exact ⟨hi, ((edge_number_tetrahedron _ (hc _ (getD_mem hi)).distinct).2 _ he).1⟩
    · dsimp only
      rw [v3, List.mem_reverse, v2]
      constructor
      · intro h
        obtain ⟨q, hq, rfl⟩ := List.mem_map.1 h
        obtain ⟨p, hp, hq⟩ := List.mem_flatMap.1 hq
        refine ⟨p.1, (k2 _).1 (List.mem_map_of_mem hp), ?_⟩
        simp only [List.mem_cons, List.not_mem_nil, or_false] at hq
        rcases hq with rfl | rfl | rfl
        · exact Or.inl rfl
        · exact Or.inr (Or.inl rfl)
        · exact Or.inr (Or.inr rfl)
      · rintro ⟨f, hf, h⟩
        obtain ⟨p, hp, rfl⟩ := List.mem_map.1 ((k2 f).2 hf)
        rcases h with rfl | rfl | rfl
        · exact List.mem_map.2 ⟨(p.1.1, p.2), List.mem_flatMap.2 ⟨p, hp, by simp⟩, rfl⟩
        · exact List.mem_map.2 ⟨(p.1.2.1, p.2), List.mem_flatMap.2 ⟨p, hp, by simp⟩, rfl⟩
        · exact List.mem_map.2 ⟨(p.1.2.2, p.2), List.mem_flatMap.2 ⟨p, hp, by simp⟩, rfl⟩
  · simp only [Bool.and_eq_true, decide_eq_true_eq, List.length_map]
    constructor
    · rintro ⟨a, b⟩; exact ⟨a, by omega⟩
    · rintro ⟨a, b⟩; exact ⟨a, by omega⟩

include hc in
/-- The boundary has no edge of its own: at each edge there is an even number of boundary faces. -/
theorem closed_tetrahedra {r : Result3} (hr : IsBoundary3 cells r) {a b : Nat} (hab : a ≠ b) :
    Even ((r.bfaces.map fun p => getFace (corner (cells.getD p.1 [])) p.2.toNat true).countP fun f => decide (InFace a f ∧ InFace b f)) := by
  have hperm : (r.bfaces.map fun p => getFace (corner (cells.getD p.1 [])) p.2.toNat true).Perm (((faceItems cells).foldl enterDelete []).map Prod.fst) :=
    (List.perm_ext_iff_of_nodup hr.faces_once (toggle_spec (faceItems cells)).1).2 fun e => by rw [hr.faces, face_keys hc]
  rw [hperm.countP_eq, ← countP_fst, Nat.even_iff, (toggle_spec (faceItems cells)).2.2 fun f => decide (InFace a f ∧ InFace b f),
    countP_fst (faceItems cells) (fun f => decide (InFace a f ∧ InFace b f)), faceItems, items_fst (fun c => cellFaces (corner c)),
    countP_cells _ _ (fun c => decide (a ∈ c ∧ b ∈ c)) 2 cells fun c hcc => count_faces_at (hc c hcc) hab]
  omega

end Tetrahedra

/-- In an array of the given size all vertices are entered, or there is a write behind its end; the latter is the case exactly if there are more vertices. -/
theorem array_bound (size : Nat) (cells : List (List Nat)) (l : List (Nat × Nat)) :
    (l.foldlM (addVertexIn size cells) ([], []) = none ↔ size < (l.foldl (addVertex cells) ([], [])).2.length) ∧
    ∀ s, l.foldlM (addVertexIn size cells) ([], []) = some s → s = l.foldl (addVertex cells) ([], []) ∧ s.2.length ≤ size := by
  have hb : ∀ (l : List (Nat × Nat)) s t, s.2.length ≤ size → l.foldlM (addVertexIn size cells) s = some t → t.2.length ≤ size := by
    intro l
    induction l with
    | nil => intro s t hs h; cases h; exact hs
    | cons p l ih =>
      intro s t hs h
      rw [List.foldlM_cons] at h
      cases hp : addVertexIn size cells s p with
      | none => rw [hp] at h; cases h
      | some s' =>
        rw [hp] at h
        refine ih s' t ?_ h
        unfold addVertexIn at hp
        split_ifs at hp with h1 h2
        · cases hp; exact hs
        · cases hp; simp; omega
  have he : ∀ (l : List (Nat × Nat)) s t, l.foldlM (addVertexIn size cells) s = some t → t = l.foldl (addVertex cells) s := by
    intro l
    induction l with
    | nil => intro s t h; cases h; rfl
    | cons p l ih =>
      intro s t h
      rw [List.foldlM_cons] at h
      cases hp : addVertexIn size cells s p with
      | none => rw [hp] at h; cases h
      | some s' =>
        rw [hp] at h
        rw [ih s' t h, List.foldl_cons]
        congr 1
        unfold addVertexIn at hp
        unfold addVertex
        split_ifs at hp ⊢ <;> cases hp <;> rfl
  refine ⟨⟨fun h => ?_, fun h => ?_⟩, fun s h => ⟨he l _ s h, hb l ([], []) s (Nat.zero_le _) h⟩⟩
  · by_contra hc
    rw [addVertexIn_eq size cells l _ (by omega)] at h
    cases h
  · cases hf : l.foldlM (addVertexIn size cells) ([], []) with
    | none => rfl
    | some t =>
      have h1 := he l _ t hf
      have h2 := hb l _ t (Nat.zero_le _) hf
      rw [h1] at h2
      omega

/-- Cases that meet the hypotheses. -/
theorem sample_case :
    ((∀ c ∈ [[0, 1], [1, 2], [2, 3]], IsCell 2 c) ∧ boundary1D [[0, 1], [1, 2], [2, 3]] = [(0, 0), (2, 1)]) ∧
    ((∀ c ∈ [[0, 1, 2], [1, 3, 2]], IsCell 3 c) ∧ boundary2D id [[0, 1, 2], [1, 3, 2]] true = .ok ([(0, 0), (0, 1), (0, 2), (1, 1)], [(0, 0), (0, 2), (1, 0), (1, 1)])) ∧
    ((∀ c ∈ [[0, 1, 2, 3], [1, 2, 3, 4]], IsCell 4 c) ∧ (boundary3D id id [[0, 1, 2, 3], [1, 2, 3, 4]] true).warning = false ∧
      (boundary3D id id [[0, 1, 2, 3], [1, 2, 3, 4]] true).bfaces = [(0, 0), (0, 1), (0, 3), (1, 1), (1, 2), (1, 3)] ∧
      (boundary3D id id [[0, 1, 2, 3], [1, 2, 3, 4]] true).bedges.length = 9) := by
  refine ⟨⟨?_, by decide⟩, ⟨?_, by decide⟩, ?_, by decide, by decide, by decide⟩ <;> · unfold IsCell; decide

end PyNucleus.Props.C88
