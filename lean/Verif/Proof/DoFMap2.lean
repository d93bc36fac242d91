import Verif.Proof.DoFMap
import Mathlib.Tactic.Ring
import Mathlib.Tactic.Abel
import Mathlib.Tactic.Module
import Mathlib.Tactic.NormNum
import Mathlib.Tactic.FieldSimp

/-! # Entries of the table of dofs -/

namespace PyNucleus.DoFMap

/-- Number of a node. -/
def number (T : Key → Option Int) (a : Key × Nat) : Int :=
  match T a.1 with
  | some b => at' b a.2
  | none => unset

theorem out_eq (E : Element) (T : Key → Option Int) (e : Key × Bool) :
    out E T e = ((List.range (E.count e.1)).map fun j => (e.1, position e.1 e.2 (E.count e.1) j)).map (number T) := by
  unfold out
  rw [List.map_map]
  cases h : T e.1 with
  | some b =>
    dsimp only
    refine List.map_congr_left fun j _ => ?_
    simp [number, h]
  | none =>
    dsimp only
    have : (number T ∘ fun j => (e.1, position e.1 e.2 (E.count e.1) j)) = fun _ => unset := by
      funext j; simp [number, h]
    rw [this]
    simp

theorem row_eq (E : Element) (T : Key → Option Int) (dim i : Nat) (c : List Nat) :
    (E.entities dim i c).flatMap (out E T) = (nodesOf E dim i c).map (number T) := by
  unfold nodesOf
  rw [List.map_flatMap]
  congr 1
  funext e
  exact out_eq E T e

theorem position_lt (k : Key) (rev : Bool) {n j : Nat} (h : j < n) : position k rev n j < n := by
  unfold position
  split <;> omega

theorem mem_nodesOf {E : Element} {dim i : Nat} {c : List Nat} {a : Key × Nat} (h : a ∈ nodesOf E dim i c) :
    a.2 < E.count a.1 ∧ ∃ e ∈ E.entities dim i c, e.1 = a.1 := by
  unfold nodesOf at h
  obtain ⟨e, he, h2⟩ := List.mem_flatMap.1 h
  obtain ⟨j, hj, rfl⟩ := List.mem_map.1 h2
  exact ⟨position_lt _ _ (List.mem_range.1 hj), e, he, rfl⟩

/-- Every position of an entity of the cell is a node of the cell. -/
theorem nodesOf_complete {E : Element} {dim i : Nat} {c : List Nat} {e : Key × Bool} (he : e ∈ E.entities dim i c) {j : Nat} (hj : j < E.count e.1) :
    (e.1, j) ∈ nodesOf E dim i c := by
  unfold nodesOf
  refine List.mem_flatMap.2 ⟨e, he, List.mem_map.2 ⟨position e.1 e.2 (E.count e.1) j, List.mem_range.2 (position_lt _ _ hj), ?_⟩⟩
  congr 1
  unfold position
  split <;> split <;> first | omega | (rename_i h1 _ _ h2; simp_all)

theorem length_filter_flatMap (E : Element) (f : Key × Bool → Nat → Key × Nat) (l : List (Key × Bool)) :
    ((l.filter fun e => decide (0 < E.count e.1)).flatMap fun e => (List.range (E.count e.1)).map (f e)).length =
      (l.map fun e => E.count e.1).sum := by
  induction l with
  | nil => rfl
  | cons a l ih =>
    rw [List.map_cons, List.sum_cons, ← ih]
    by_cases h : 0 < E.count a.1
    · rw [List.filter_cons_of_pos (by simpa using h), List.flatMap_cons, List.length_append, List.length_map, List.length_range]
    · rw [List.filter_cons_of_neg (by simpa using h)]
      omega

theorem count_vertex (E : Element) (v : Nat) : E.count (.vertex v) = E.perVertex := rfl
theorem count_cell (E : Element) (v : Nat) : E.count (.cell v) = E.perCell := rfl
theorem count_sortEdge (E : Element) (a b : Nat) : E.count (sortEdge a b) = E.perEdge := by unfold sortEdge; split <;> rfl
theorem count_sortFace (E : Element) (a b c : Nat) : E.count (sortFace a b c) = E.perFace := by
  unfold sortFace
  repeat' split
  all_goals rfl

theorem nodesOf_length (E : Element) (dim i : Nat) (c : List Nat) : (nodesOf E dim i c).length = E.perElement dim := by
  unfold nodesOf Element.entities
  rw [length_filter_flatMap E (fun e j => (e.1, position e.1 e.2 (E.count e.1) j))]
  unfold entities
  rw [List.map_append, List.map_append, List.map_append, List.map_map, List.map_map, List.map_map]
  simp only [List.sum_append, Function.comp_def, count_sortEdge, count_sortFace, List.map_const', List.sum_replicate]
  have h1 : ((List.range (dim + 1)).map fun k => E.count (Key.vertex (c.getD k 0))) = List.replicate (dim + 1) E.perVertex := by
    rw [List.eq_replicate_iff]
    refine ⟨by rw [List.length_map, List.length_range], fun b hb => ?_⟩
    obtain ⟨k, -, rfl⟩ := List.mem_map.1 hb
    rfl
  rw [h1, List.sum_replicate]
  unfold Element.perElement
  have h2 : (localEdges dim).length = if dim = 3 then 6 else if dim = 2 then 3 else 0 := by
    unfold localEdges; split <;> simp_all
  have h3 : (localFaces dim).length = if dim = 3 then 4 else 0 := by
    unfold localFaces; split <;> simp_all
  rw [h2, h3]
  simp [Element.count]

/-! ## Points -/

section
variable {K : Type} [Field K] {M : Type} [AddCommGroup M] [Module K M]

/-- Where a node is. -/
def nodePoint (L : Lagrange K) (cells : List (List Nat)) (x : Nat → M) : Key × Nat → M
  | (.vertex v, _) => x v
  | (.edge a b, p) => (((L.element.perEdge - p : Nat) : K) / ((L.element.perEdge + 1 : Nat) : K)) • x a +
      (((p + 1 : Nat) : K) / ((L.element.perEdge + 1 : Nat) : K)) • x b
  | (.face a b c, _) => (1 / 3 : K) • x a + (1 / 3 : K) • x b + (1 / 3 : K) • x c
  | (.cell i, p) => point x (cells.getD i []) (L.nodes.getD (L.nodes.length - L.element.perCell + p) [])

theorem nodePoint_edge1 (L : Lagrange K) (cells : List (List Nat)) (x : Nat → M) (a b : Nat) (h : L.element.perEdge = 1) :
    nodePoint L cells x (sortEdge a b, position (sortEdge a b) (decide (b < a)) 1 0) = (1 / 2 : K) • x a + (1 / 2 : K) • x b := by
  have h2 : ((1 : Nat) + 1 : Nat) = 2 := rfl
  unfold sortEdge position
  by_cases hab : a < b
  · rw [if_pos hab]
    simp [nodePoint, h, Nat.not_lt.2 hab.le]
  · rw [if_neg hab]
    by_cases hba : b < a <;> simp [nodePoint, h, hba] <;> norm_num <;> abel

theorem nodePoint_edge20 (L : Lagrange K) (cells : List (List Nat)) (x : Nat → M) (a b : Nat) (h : L.element.perEdge = 2) :
    nodePoint L cells x (sortEdge a b, position (sortEdge a b) (decide (b < a)) 2 0) = (2 / 3 : K) • x a + (1 / 3 : K) • x b := by
  unfold sortEdge position
  by_cases hab : a < b
  · rw [if_pos hab]
    simp [nodePoint, h, Nat.not_lt.2 hab.le]
    try norm_num
  · rw [if_neg hab]
    by_cases hba : b < a
    · simp [nodePoint, h, hba]; norm_num; abel
    · have : a = b := by omega
      subst this
      simp [nodePoint, h]; try norm_num

theorem nodePoint_edge21 (L : Lagrange K) (cells : List (List Nat)) (x : Nat → M) (a b : Nat) (h : L.element.perEdge = 2) :
    nodePoint L cells x (sortEdge a b, position (sortEdge a b) (decide (b < a)) 2 1) = (1 / 3 : K) • x a + (2 / 3 : K) • x b := by
  unfold sortEdge position
  by_cases hab : a < b
  · rw [if_pos hab]
    simp [nodePoint, h, Nat.not_lt.2 hab.le]
    try norm_num
  · rw [if_neg hab]
    by_cases hba : b < a
    · simp [nodePoint, h, hba]; norm_num; abel
    · have : a = b := by omega
      subst this
      simp [nodePoint, h]; try norm_num

theorem nodePoint_face (L : Lagrange K) (cells : List (List Nat)) (x : Nat → M) (a b c p : Nat) :
    nodePoint L cells x (sortFace a b c, p) = (1 / 3 : K) • x a + (1 / 3 : K) • x b + (1 / 3 : K) • x c := by
  unfold sortFace
  repeat' split
  all_goals unfold nodePoint; dsimp only; try abel

theorem position_vertex (v : Nat) (r : Bool) (n j : Nat) : position (.vertex v) r n j = j := by cases r <;> rfl
theorem position_cell (v : Nat) (r : Bool) (n j : Nat) : position (.cell v) r n j = j := by cases r <;> rfl
theorem nodePoint_vertex (L : Lagrange K) (cells : List (List Nat)) (x : Nat → M) (v p : Nat) : nodePoint L cells x (Key.vertex v, p) = x v := rfl

/-- The table of nodes of a Lagrange element and the order of the dofs agree. -/
theorem lagrange_points (L : Lagrange K) (hL : L ∈ lagrange K) (cells : List (List Nat)) (x : Nat → M) (i : Nat)
    (hc : (cells.getD i []).length = L.dim + 1) :
    L.nodes.map (point x (cells.getD i [])) = (nodesOf L.element L.dim i (cells.getD i [])).map (nodePoint L cells x) := by
  have hcell : ∀ p, nodePoint L cells x (.cell i, p) = point x (cells.getD i []) (L.nodes.getD (L.nodes.length - L.element.perCell + p) []) := fun p => rfl
  generalize cells.getD i [] = c at hc hcell ⊢
  unfold lagrange at hL
  simp only [List.mem_cons, List.not_mem_nil, or_false] at hL
  rcases hL with rfl | rfl | rfl | rfl | rfl | rfl | rfl | rfl | rfl
  · obtain ⟨a, b, rfl⟩ : ∃ a b, c = [a, b] := by
      match c, hc with
      | [a, b], _ => exact ⟨a, b, rfl⟩
    show (p1 K 1).nodes.map _ = (nodesOf ⟨1, 0, 0, 0⟩ 1 i _).map _
    simp [nodesOf, Element.entities, entities, localEdges, localFaces, count_vertex, count_cell, position_vertex, position_cell, count_sortEdge,
      count_sortFace, List.range_succ, nodePoint_vertex, nodePoint_face, point]
    simp [p1, List.range_succ]
    repeat' apply And.intro
    all_goals simp [point]
    all_goals try abel
  · obtain ⟨a, b, c1, rfl⟩ : ∃ a b c1, c = [a, b, c1] := by
      match c, hc with
      | [a, b, c1], _ => exact ⟨a, b, c1, rfl⟩
    show (p1 K 2).nodes.map _ = (nodesOf ⟨1, 0, 0, 0⟩ 2 i _).map _
    simp [nodesOf, Element.entities, entities, localEdges, localFaces, count_vertex, count_cell, position_vertex, position_cell, count_sortEdge,
      count_sortFace, List.range_succ, nodePoint_vertex, nodePoint_face, point]
    simp [p1, List.range_succ]
    repeat' apply And.intro
    all_goals simp [point]
    all_goals try abel
  · obtain ⟨a, b, c1, d1, rfl⟩ : ∃ a b c1 d1, c = [a, b, c1, d1] := by
      match c, hc with
      | [a, b, c1, d1], _ => exact ⟨a, b, c1, d1, rfl⟩
    show (p1 K 3).nodes.map _ = (nodesOf ⟨1, 0, 0, 0⟩ 3 i _).map _
    simp [nodesOf, Element.entities, entities, localEdges, localFaces, count_vertex, count_cell, position_vertex, position_cell, count_sortEdge,
      count_sortFace, List.range_succ, nodePoint_vertex, nodePoint_face, point]
    simp [p1, List.range_succ]
    repeat' apply And.intro
    all_goals simp [point]
    all_goals try abel
  · obtain ⟨a, b, rfl⟩ : ∃ a b, c = [a, b] := by
      match c, hc with
      | [a, b], _ => exact ⟨a, b, rfl⟩
    show (p2_1 K).nodes.map _ = (nodesOf ⟨1, 0, 0, 1⟩ 1 i _).map _
    simp [nodesOf, Element.entities, entities, localEdges, localFaces, count_vertex, count_cell, position_vertex, position_cell, count_sortEdge,
      count_sortFace, List.range_succ, nodePoint_vertex, nodePoint_face, point, hcell]
    simp [p2_1, List.range_succ]
    repeat' apply And.intro
    all_goals simp [point]
    all_goals try abel
  · obtain ⟨a, b, c1, rfl⟩ : ∃ a b c1, c = [a, b, c1] := by
      match c, hc with
      | [a, b, c1], _ => exact ⟨a, b, c1, rfl⟩
    show (p2_2 K).nodes.map _ = (nodesOf ⟨1, 1, 0, 0⟩ 2 i _).map _
    simp [nodesOf, Element.entities, entities, localEdges, localFaces, count_vertex, count_cell, position_vertex, position_cell, count_sortEdge,
      count_sortFace, List.range_succ, nodePoint_vertex, nodePoint_face, point, nodePoint_edge1 (p2_2 K) cells x _ _ rfl]
    simp [p2_2, List.range_succ]
    repeat' apply And.intro
    all_goals simp [point]
    all_goals try abel
  · obtain ⟨a, b, c1, d1, rfl⟩ : ∃ a b c1 d1, c = [a, b, c1, d1] := by
      match c, hc with
      | [a, b, c1, d1], _ => exact ⟨a, b, c1, d1, rfl⟩
    show (p2_3 K).nodes.map _ = (nodesOf ⟨1, 1, 0, 0⟩ 3 i _).map _
    simp [nodesOf, Element.entities, entities, localEdges, localFaces, count_vertex, count_cell, position_vertex, position_cell, count_sortEdge,
      count_sortFace, List.range_succ, nodePoint_vertex, nodePoint_face, point, nodePoint_edge1 (p2_3 K) cells x _ _ rfl]
    simp [p2_3, List.range_succ]
    repeat' apply And.intro
    all_goals simp [point]
    all_goals try abel
  · obtain ⟨a, b, rfl⟩ : ∃ a b, c = [a, b] := by
      match c, hc with
      | [a, b], _ => exact ⟨a, b, rfl⟩
    show (p3_1 K).nodes.map _ = (nodesOf ⟨1, 0, 0, 2⟩ 1 i _).map _
    simp [nodesOf, Element.entities, entities, localEdges, localFaces, count_vertex, count_cell, position_vertex, position_cell, count_sortEdge,
      count_sortFace, List.range_succ, nodePoint_vertex, nodePoint_face, point, hcell]
    simp [p3_1, List.range_succ]
    repeat' apply And.intro
    all_goals simp [point]
    all_goals try abel
  · obtain ⟨a, b, c1, rfl⟩ : ∃ a b c1, c = [a, b, c1] := by
      match c, hc with
      | [a, b, c1], _ => exact ⟨a, b, c1, rfl⟩
    show (p3_2 K).nodes.map _ = (nodesOf ⟨1, 2, 0, 1⟩ 2 i _).map _
    simp [nodesOf, Element.entities, entities, localEdges, localFaces, count_vertex, count_cell, position_vertex, position_cell, count_sortEdge,
      count_sortFace, List.range_succ, nodePoint_vertex, nodePoint_face, point, hcell, nodePoint_edge20 (p3_2 K) cells x _ _ rfl, nodePoint_edge21 (p3_2 K) cells x _ _ rfl]
    simp [p3_2, List.range_succ]
    repeat' apply And.intro
    all_goals simp [point]
    all_goals try abel
  · obtain ⟨a, b, c1, d1, rfl⟩ : ∃ a b c1 d1, c = [a, b, c1, d1] := by
      match c, hc with
      | [a, b, c1, d1], _ => exact ⟨a, b, c1, d1, rfl⟩
    show (p3_3 K).nodes.map _ = (nodesOf ⟨1, 2, 1, 0⟩ 3 i _).map _
    simp [nodesOf, Element.entities, entities, localEdges, localFaces, count_vertex, count_cell, position_vertex, position_cell, count_sortEdge,
      count_sortFace, List.range_succ, nodePoint_vertex, nodePoint_face, point, nodePoint_edge20 (p3_3 K) cells x _ _ rfl, nodePoint_edge21 (p3_3 K) cells x _ _ rfl]
    simp [p3_3, List.range_succ]
    repeat' apply And.intro
    all_goals simp [point]
    all_goals try abel

end

end PyNucleus.DoFMap
