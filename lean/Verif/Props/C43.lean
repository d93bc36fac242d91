import Verif.Proof.MeshBoundary
import Verif.Props.C42

/-!
# C43: boundary of a mesh

`boundaryVertices`, `boundaryEdges` and `boundaryFaces` return exactly the vertices, edges and faces in an odd number of cells, each once; the
edges have the orientation of their cell.
-/

namespace PyNucleus.Props.C43

open PyNucleus.MeshBoundary PyNucleus.Refine PyNucleus.Props.C42

/-- The order in which sets are listed. -/
def IsOrder {α : Type} (order : List α → List α) : Prop := ∀ l, (order l).Perm l

/-- Intervals. -/
theorem vertices (order : List Nat → List Nat) (ho : IsOrder order) (n : Nat) (cells : List (List Nat)) (hc : IsMesh 1 n cells) :
    (boundaryVertices order cells).Nodup ∧ ∀ v, v ∈ boundaryVertices order cells ↔ Odd (cells.countP (v ∈ ·)) := by
  obtain ⟨h1, h2⟩ := toggle_spec (cells.flatMap fun c => [c.getD 0 0, c.getD 1 0])
  unfold boundaryVertices
  refine ⟨(ho _).nodup_iff.2 h1, fun v => ?_⟩
  rw [(ho _).mem_iff, h2, count_flatMap (fun c : List Nat => [c.getD 0 0, c.getD 1 0]) (fun c => v ∈ c)]
  · intro c hm
    obtain ⟨hl, hn, -⟩ := hc c hm
    match c, hl, hn with
    | [a, b], _, hn => exact ⟨hn, Iff.rfl⟩

/-- The edge `e`, in any direction. -/
def SameEdge (e e' : Nat × Nat) : Prop := (e.1 = e'.1 ∧ e.2 = e'.2) ∨ (e.1 = e'.2 ∧ e.2 = e'.1)

private theorem length3 (c : List Nat) (h : c.length = 3) : ∃ v0 v1 v2, c = [v0, v1, v2] := by
  match c, h with
  | [a, b, e], _ => exact ⟨a, b, e, rfl⟩

private theorem cellEdges_fst (c : List Nat) (i : Nat) : (cellEdges c i).map Prod.fst = [sortEdge (c.getD 0 0) (c.getD 1 0), sortEdge (c.getD 1 0) (c.getD 2 0), sortEdge (c.getD 2 0) (c.getD 0 0)] := rfl

private theorem edge_of {c : List Nat} (hl : c.length = 3) (hn : c.Nodup) (i : Nat) (q : (Nat × Nat) × Bool × Nat) (hq : q ∈ cellEdges c i) :
    q.2.2 = i ∧ ∃ k < 3, (if q.2.1 then q.1 else (q.1.2, q.1.1)) = (c.getD k 0, c.getD ((k + 1) % 3) 0) ∧ q.1 = sortEdge (c.getD k 0) (c.getD ((k + 1) % 3) 0) := by
  obtain ⟨v0, v1, v2, rfl⟩ := length3 c hl
  simp only [List.nodup_cons, List.mem_cons, List.not_mem_nil, or_false, not_or] at hn
  have key : ∀ a b : Nat, a ≠ b → (if (a == (sortEdge a b).1) = true then sortEdge a b else ((sortEdge a b).2, (sortEdge a b).1)) = (a, b) := by
    intro a b hab
    unfold sortEdge
    split
    · simp
    · rw [if_neg (by simpa using hab)]
  unfold cellEdges at hq
  simp only [List.mem_cons, List.not_mem_nil, or_false] at hq
  rcases hq with rfl | rfl | rfl
  · exact ⟨rfl, 0, by omega, key v0 v1 (by omega), rfl⟩
  · exact ⟨rfl, 1, by omega, key v1 v2 (by omega), rfl⟩
  · exact ⟨rfl, 2, by omega, key v2 v0 (by omega), rfl⟩

/-- Triangles: no edge twice, the edges in an odd number of cells, and each edge is an edge of its cell with the orientation of the cell. -/
theorem edges (n : Nat) (cells : List (List Nat)) (hc : IsMesh 2 n cells) :
    (boundaryEdges cells).1.Pairwise (fun e e' => ¬ SameEdge e e') ∧
    (∀ a b, a ≠ b → ((∃ e ∈ (boundaryEdges cells).1, SameEdge e (a, b)) ↔ Odd (cells.countP fun c => a ∈ c ∧ b ∈ c))) ∧
    (boundaryEdges cells).2.length = (boundaryEdges cells).1.length ∧
    ∀ i, i < (boundaryEdges cells).1.length → (boundaryEdges cells).2.getD i 0 < cells.length ∧
      ∃ k < 3, (boundaryEdges cells).1.getD i (0, 0) = ((cells.getD ((boundaryEdges cells).2.getD i 0) []).getD k 0, (cells.getD ((boundaryEdges cells).2.getD i 0) []).getD ((k + 1) % 3) 0) := by
  obtain ⟨h1, h2, h3⟩ := toggleD_spec (cells.zipIdx.flatMap fun p => cellEdges p.1 p.2) [] List.nodup_nil
  unfold boundaryEdges
  dsimp only
  generalize hd : (cells.zipIdx.flatMap fun p => cellEdges p.1 p.2).foldl toggleD [] = d at *
  have hcell : ∀ q ∈ d, ∃ c ∈ cells, cells.getD q.2.2 [] = c ∧ q.2.2 < cells.length ∧ ∃ k < 3, (if q.2.1 then q.1 else (q.1.2, q.1.1)) = (c.getD k 0, c.getD ((k + 1) % 3) 0) ∧
      q.1 = sortEdge (c.getD k 0) (c.getD ((k + 1) % 3) 0) := by
    intro q hq
    rcases h3 q hq with ⟨h, -⟩ | ⟨l1, l2, h, -⟩
    · exact absurd h List.not_mem_nil
    · have hm : q ∈ cells.zipIdx.flatMap fun p => cellEdges p.1 p.2 := by rw [h]; simp
      obtain ⟨p, hp, hq'⟩ := List.mem_flatMap.1 hm
      have hp' := List.mk_mem_zipIdx_iff_getElem?.1 (show (p.1, p.2) ∈ cells.zipIdx from hp)
      have hpc : p.1 ∈ cells := List.mem_of_getElem? hp'
      obtain ⟨e1, hk⟩ := edge_of (hc p.1 hpc).1 (hc p.1 hpc).2.1 p.2 q hq'
      refine ⟨p.1, hpc, ?_, ?_, hk⟩
      · rw [e1, List.getD_eq_getElem?_getD, hp']; rfl
      · rw [e1]; exact (List.getElem?_eq_some_iff.1 hp').1
  have hne : ∀ q ∈ d, q.1.1 < q.1.2 := by
    intro q hq
    obtain ⟨c, hm, -, -, k, hk, -, e⟩ := hcell q hq
    obtain ⟨hl, hn, -⟩ := hc c hm
    have : q.1.1 < q.1.2 ∧ q.1.1 ∈ c ∧ q.1.2 ∈ c := (pairs_iff c hn q.1).1 (by
      interval_cases k
      · exact ⟨0, 1, by omega, by omega, e⟩
      · exact ⟨1, 2, by omega, by omega, e⟩
      · exact ⟨0, 2, by omega, by omega, by rw [sortEdge_comm]; exact e⟩)
    exact this.1
  have hkey : ∀ q ∈ d, ∀ e : Nat × Nat, SameEdge (if q.2.1 then q.1 else (q.1.2, q.1.1)) e ↔ q.1 = sortEdge e.1 e.2 := by
    intro q hq e
    have := hne q hq
    have hp : q.1 = sortEdge q.1.1 q.1.2 := by unfold sortEdge; rw [if_pos this]
    rw [hp, sortEdge_eq_iff (by omega), ← hp]
    unfold SameEdge
    split <;> simp only [] <;> omega
  refine ⟨?_, fun a b hab => ?_, by rw [List.length_map, List.length_map], fun i hi => ?_⟩
  · rw [List.pairwise_map]
    have hp : d.Pairwise fun q q' => q.1 ≠ q'.1 := by
      rw [← List.pairwise_map (f := Prod.fst) (R := (· ≠ ·))]
      exact h1
    refine hp.imp_of_mem ?_
    intro q q' hq hq' hqq hs
    have e := (hkey q hq _).1 hs
    have := hne q' hq'
    apply hqq
    rw [e]
    unfold sortEdge
    split
    · simp only []
    · simp only []; rw [if_neg (by omega)]
  · have hE : (∃ e ∈ d.map (fun q => if q.2.1 then q.1 else (q.1.2, q.1.1)), SameEdge e (a, b)) ↔ sortEdge a b ∈ d.map Prod.fst := by
      constructor
      · rintro ⟨e, he, hs⟩
        obtain ⟨q, hq, rfl⟩ := List.mem_map.1 he
        exact List.mem_map.2 ⟨q, hq, (hkey q hq _).1 hs⟩
      · intro h
        obtain ⟨q, hq, e⟩ := List.mem_map.1 h
        exact ⟨_, List.mem_map_of_mem hq, (hkey q hq _).2 e⟩
    have hmap : (cells.zipIdx.flatMap fun p => cellEdges p.1 p.2).map Prod.fst = cells.flatMap fun c => (cellEdges c 0).map Prod.fst := by
      rw [List.map_flatMap]
      simp only [cellEdges_fst]
      conv => rhs; rw [← List.zipIdx_map_fst 0 cells]
      rw [List.flatMap_map]
    rw [hE, h2, hmap, count_flatMap (fun c : List Nat => (cellEdges c 0).map Prod.fst) (fun c => a ∈ c ∧ b ∈ c)]
    · simp
    · intro c hm
      obtain ⟨hl, hn, -⟩ := hc c hm
      rw [cellEdges_fst]
      obtain ⟨v0, v1, v2, rfl⟩ := length3 c hl
      have hd := hn
      simp only [List.nodup_cons, List.mem_cons, List.not_mem_nil, or_false, not_or] at hd
      simp only [List.getD_cons_zero, List.getD_cons_succ]
      constructor
      · simp only [List.nodup_cons, List.mem_cons, List.not_mem_nil, or_false, not_or, List.nodup_nil, and_true, not_false_eq_true, sortEdge_eq_iff (show v0 ≠ v1 by omega), sortEdge_eq_iff (show v1 ≠ v2 by omega)]
        omega
      · simp only [List.mem_cons, List.not_mem_nil, or_false, sortEdge_eq_iff hab]
        omega
  · rw [List.length_map] at hi
    obtain ⟨c, hm, e1, e2, k, hk, e3, -⟩ := hcell d[i] (List.getElem_mem hi)
    have g1 : (d.map fun q => q.2.2).getD i 0 = d[i].2.2 := by rw [List.getD_eq_getElem _ _ (by simpa using hi), List.getElem_map]
    have g2 : (d.map fun q => if q.2.1 then q.1 else (q.1.2, q.1.1)).getD i (0, 0) = if d[i].2.1 then d[i].1 else (d[i].1.2, d[i].1.1) := by
      rw [List.getD_eq_getElem _ _ (by simpa using hi), List.getElem_map]
    rw [g1, g2, e1]
    exact ⟨e2, k, hk, e3⟩

/-- Tetrahedra: faces with increasing vertices. -/
theorem faces (order : List (List Nat) → List (List Nat)) (ho : IsOrder order) (n : Nat) (cells : List (List Nat)) (hc : IsMesh 3 n cells) :
    (boundaryFaces order cells).Nodup ∧
    ∀ f, f ∈ boundaryFaces order cells ↔ (f.length = 3 ∧ f.Pairwise (· < ·)) ∧ Odd (cells.countP (f ⊆ ·)) := by
  obtain ⟨h1, h2⟩ := toggle_spec (cells.flatMap cellFaces)
  unfold boundaryFaces
  refine ⟨(ho _).nodup_iff.2 h1, fun f => ?_⟩
  rw [(ho _).mem_iff, h2]
  by_cases hf : f.length = 3 ∧ f.Pairwise (· < ·)
  · rw [count_flatMap cellFaces (fun c => f ⊆ c)]
    · simp only [hf, true_and]
    · intro c hm
      obtain ⟨g1, g2⟩ := cellFaces_spec c (hc c hm).1 (hc c hm).2.1
      exact ⟨g1, (g2 f).trans ⟨fun h => h.2, fun h => ⟨hf, h⟩⟩⟩
  · rw [count_zero]
    · exact iff_of_false (by simp) (fun h => hf h.1)
    · intro h
      obtain ⟨c, hm, hfc⟩ := List.mem_flatMap.1 h
      exact hf (((cellFaces_spec c (hc c hm).1 (hc c hm).2.1).2 f).1 hfc).1

/-- Boundary vertices from boundary edges: the end points, each once. -/
theorem vertices_of_edges (order : List Nat → List Nat) (ho : IsOrder order) (E : List (Nat × Nat)) :
    (verticesOfEdges order E).Nodup ∧ ∀ v, v ∈ verticesOfEdges order E ↔ ∃ e ∈ E, v = e.1 ∨ v = e.2 := by
  obtain ⟨h1, h2⟩ := insert_spec (E.flatMap fun e => [e.1, e.2]) [] List.nodup_nil
  unfold verticesOfEdges
  refine ⟨(ho _).nodup_iff.2 h1, fun v => ?_⟩
  rw [(ho _).mem_iff, h2, List.mem_flatMap]
  simp

/-- Boundary edges from boundary faces: the pairs of vertices of the faces, each once, the smaller vertex first. -/
theorem edges_of_faces (order : List (Nat × Nat) → List (Nat × Nat)) (ho : IsOrder order) (F : List (List Nat)) (hF : ∀ f ∈ F, f.length = 3 ∧ f.Nodup) :
    (edgesOfFaces order F).Nodup ∧ ∀ e, e ∈ edgesOfFaces order F ↔ e.1 < e.2 ∧ ∃ f ∈ F, e.1 ∈ f ∧ e.2 ∈ f := by
  obtain ⟨h1, h2⟩ := insert_spec (F.flatMap fun f => [sortEdge (f.getD 0 0) (f.getD 1 0), sortEdge (f.getD 0 0) (f.getD 2 0), sortEdge (f.getD 1 0) (f.getD 2 0)]) [] List.nodup_nil
  unfold edgesOfFaces
  refine ⟨(ho _).nodup_iff.2 h1, fun e => ?_⟩
  rw [(ho _).mem_iff, h2, List.mem_flatMap]
  constructor
  · rintro (h | ⟨f, hf, he⟩)
    · exact absurd h List.not_mem_nil
    · have := (pairs_iff f (hF f hf).2 e).1 ((mem_edges2 f (hF f hf).1 e).1 he)
      exact ⟨this.1, f, hf, this.2⟩
  · rintro ⟨h, f, hf, h'⟩
    exact Or.inr ⟨f, hf, (mem_edges2 f (hF f hf).1 e).2 ((pairs_iff f (hF f hf).2 e).2 ⟨h, h'⟩)⟩

/-! ### concrete cases -/

/-- Two triangles. -/
example : boundaryEdges [[0, 1, 2], [3, 2, 1]] = ([(0, 1), (2, 0), (3, 2), (1, 3)], [0, 0, 1, 1]) := by decide
example : IsMesh 2 4 [[0, 1, 2], [3, 2, 1]] := by unfold IsMesh; decide
example : boundaryVertices id [[0, 1], [1, 2], [2, 3]] = [0, 3] ∧ IsMesh 1 4 [[0, 1], [1, 2], [2, 3]] := ⟨by decide, by unfold IsMesh; decide⟩
example : boundaryFaces id [[0, 1, 2, 3], [4, 3, 2, 1]] = [[0, 1, 2], [0, 1, 3], [0, 2, 3], [2, 3, 4], [1, 3, 4], [1, 2, 4]] ∧ IsMesh 3 5 [[0, 1, 2, 3], [4, 3, 2, 1]] :=
  ⟨by decide, by unfold IsMesh; decide⟩
example : IsOrder (fun l : List Nat => l.reverse) := fun l => l.reverse_perm
example : edgesOfFaces id [[1, 0, 2], [2, 0, 3]] = [(0, 1), (1, 2), (0, 2), (2, 3), (0, 3)] := by decide
example : verticesOfEdges id [(0, 1), (2, 0), (3, 2), (1, 3)] = [0, 1, 2, 3] := by decide

end PyNucleus.Props.C43
