import Verif.Proof.BoundaryLayer
import Verif.Props.C42
import Mathlib.Tactic.IntervalCases

/-!
# C85: layers of cells at the boundary

Statements about `boundaryLayer`: the connectivity of the cells, the layers, and what is kept by refinement.
-/

namespace PyNucleus.Props.C85

open PyNucleus.BoundaryLayer PyNucleus.Refine PyNucleus.Spec PyNucleus.Props.C42

/-! ### meshes -/

/-- Side number `m` of a cell: end points of intervals, edges of triangles, faces of tetrahedra. -/
def side (dim : Nat) (c : List Nat) (m : Nat) : List Nat :=
  if dim = 1 then [c.getD m 0]
  else if dim = 2 then [c.getD m 0, c.getD ((m + 1) % 3) 0]
  else ([[0, 1, 2], [0, 1, 3], [1, 2, 3], [2, 0, 3]].getD m []).map fun i => c.getD i 0

/-- The sides `(cell, number)` are different and have the same vertices. -/
structure Meets (dim : Nat) (cells : List (List Nat)) (p q : Nat × Nat) : Prop where
  left : p.1 < cells.length ∧ p.2 < dim + 1
  right : q.1 < cells.length ∧ q.2 < dim + 1
  ne : p ≠ q
  same : (side dim (cells.getD p.1 []) p.2).Perm (side dim (cells.getD q.1 []) q.2)

instance (dim : Nat) (cells : List (List Nat)) (p q : Nat × Nat) : Decidable (Meets dim cells p q) :=
  decidable_of_iff ((p.1 < cells.length ∧ p.2 < dim + 1) ∧ (q.1 < cells.length ∧ q.2 < dim + 1) ∧ p ≠ q ∧
    (side dim (cells.getD p.1 []) p.2).Perm (side dim (cells.getD q.1 []) q.2)) ⟨fun h => ⟨h.1, h.2.1, h.2.2.1, h.2.2.2⟩, fun h => ⟨h.left, h.right, h.ne, h.same⟩⟩

/-- Cells have `dim + 1` different vertices, and at most two cells meet in a side. -/
structure Conforming (dim n : Nat) (cells : List (List Nat)) : Prop where
  mesh : IsMesh dim n cells
  two : ∀ p q r, Meets dim cells p q → Meets dim cells p r → q = r

/-- `conn` has the neighbours of the cells `keys`; `-1` is the boundary and `-2` a cell that is not in `keys`. -/
structure Linked (dim : Nat) (cells : List (List Nat)) (keys : List Nat) (conn : Nat → List Int) : Prop where
  len : ∀ i ∈ keys, (conn i).length = dim + 1
  cell : ∀ i ∈ keys, ∀ m, ∀ q : Nat × Nat, Meets dim cells (i, m) q → (conn i).getD m 0 = if q.1 ∈ keys then (q.1 : Int) else -2
  free : ∀ i ∈ keys, ∀ m, m < dim + 1 → (∀ q, ¬ Meets dim cells (i, m) q) → (conn i).getD m 0 = -1

/-- Cells with a side that no other cell has. -/
def Outermost (dim : Nat) (cells : List (List Nat)) (i : Nat) : Prop := i < cells.length ∧ ∃ m < dim + 1, ∀ q, ¬ Meets dim cells (i, m) q

/-! ### connectivity -/

private theorem sortEdge_perm (a b c d : Nat) : sortEdge a b = sortEdge c d ↔ [a, b].Perm [c, d] := by
  constructor
  · intro h
    have k : ∀ x y, [(sortEdge x y).1, (sortEdge x y).2].Perm [x, y] := fun x y => by
      unfold sortEdge; split
      · exact List.Perm.refl _
      · exact List.Perm.swap _ _ _
    exact (k a b).symm.trans (h ▸ k c d)
  · intro h
    have h1 := h.mem_iff (a := a)
    have h2 := h.mem_iff (a := b)
    have h3 := h.mem_iff (a := c)
    have h4 := h.mem_iff (a := d)
    simp only [List.mem_cons, List.not_mem_nil, or_false, true_or, or_true, true_iff, iff_true] at h1 h2 h3 h4
    unfold sortEdge
    split <;> split <;> ext <;> simp only <;> omega

private theorem sortFace_perm (a b c : Nat) : (sortFace a b c).Perm [a, b, c] ∧ (sortFace a b c).Pairwise (· ≤ ·) := by
  unfold sortFace
  split <;> split <;> try split
  all_goals constructor
  all_goals first
    | (simp only [List.pairwise_cons, List.mem_cons, List.not_mem_nil, or_false, forall_eq_or_imp, forall_eq]; simp; omega)
    | skip
  · exact List.Perm.refl _
  · exact List.Perm.cons _ (List.Perm.swap _ _ _)
  · exact (List.Perm.swap a c [b]).trans (List.Perm.cons _ (List.Perm.swap _ _ _))
  · exact List.Perm.swap _ _ _
  · exact (List.Perm.cons _ (List.Perm.swap _ _ _)).trans (List.Perm.swap _ _ _)
  · exact (List.Perm.swap b c [a]).trans ((List.Perm.cons _ (List.Perm.swap _ _ _)).trans (List.Perm.swap _ _ _))

private theorem sortFace_iff (a b c d e f : Nat) : sortFace a b c = sortFace d e f ↔ [a, b, c].Perm [d, e, f] := by
  constructor
  · intro h
    exact (sortFace_perm a b c).1.symm.trans (h ▸ (sortFace_perm d e f).1)
  · intro h
    exact List.Perm.eq_of_pairwise (fun _ _ _ _ h1 h2 => Nat.le_antisymm h1 h2) (sortFace_perm a b c).2 (sortFace_perm d e f).2
      ((sortFace_perm a b c).1.trans (h.trans (sortFace_perm d e f).1.symm))

private theorem facet_iff (dim : Nat) (hd : dim = 1 ∨ dim = 2 ∨ dim = 3) (c c' : List Nat) (m k : Nat) (hm : m < dim + 1) (hk : k < dim + 1) :
    (facets dim c).getD m [] = (facets dim c').getD k [] ↔ (side dim c m).Perm (side dim c' k) := by
  have pair : ∀ a b c d, [(sortEdge a b).1, (sortEdge a b).2] = [(sortEdge c d).1, (sortEdge c d).2] ↔ [a, b].Perm [c, d] := by
    intro a b c d
    rw [← sortEdge_perm]
    constructor
    · intro h; injection h with h1 h2; injection h2 with h2; exact Prod.ext h1 h2
    · intro h; rw [h]
  rcases hd with rfl | rfl | rfl
  · obtain rfl | rfl : m = 0 ∨ m = 1 := by omega
    all_goals obtain rfl | rfl : k = 0 ∨ k = 1 := by omega
    all_goals simp [facets, side]
  · obtain rfl | rfl | rfl : m = 0 ∨ m = 1 ∨ m = 2 := by omega
    all_goals obtain rfl | rfl | rfl : k = 0 ∨ k = 1 ∨ k = 2 := by omega
    all_goals exact pair _ _ _ _
  · obtain rfl | rfl | rfl | rfl : m = 0 ∨ m = 1 ∨ m = 2 ∨ m = 3 := by omega
    all_goals obtain rfl | rfl | rfl | rfl : k = 0 ∨ k = 1 ∨ k = 2 ∨ k = 3 := by omega
    all_goals exact sortFace_iff _ _ _ _ _ _

section connect

variable {dim n : Nat} {cells : List (List Nat)} (hd : dim = 1 ∨ dim = 2 ∨ dim = 3)
include hd

private theorem meets_iff (i m j k : Nat) (hi : i < cells.length) (hj : j < cells.length) (hm : m < dim + 1) (hk : k < dim + 1) :
    Meets dim cells (i, m) (j, k) ↔ (i, m) ≠ (j, k) ∧ (facets dim (cells.getD i [])).getD m [] = (facets dim (cells.getD j [])).getD k [] := by
  rw [facet_iff dim hd _ _ m k hm hk]
  exact ⟨fun h => ⟨h.ne, h.same⟩, fun h => ⟨⟨hi, hm⟩, ⟨hj, hk⟩, h.1, h.2⟩⟩

private theorem alone_iff (i m : Nat) (hi : i < cells.length) (hm : m < dim + 1) :
    Alone (items dim cells) ((facets dim (cells.getD i [])).getD m [], i, m) ↔ ∀ q, ¬ Meets dim cells (i, m) q := by
  constructor
  · rintro h ⟨j, k⟩ hq
    have := hq.right
    have e := ((meets_iff hd i m j k hi this.1 hm this.2).1 hq).2
    have := h ((facets dim (cells.getD j [])).getD k [], j, k) ((mem_items dim hd cells _ j k).2 ⟨this.1, this.2, rfl⟩) e.symm
    exact hq.ne (congrArg Prod.snd this).symm
  · rintro h ⟨f, j, k⟩ hq e
    obtain ⟨hj, hk, rfl⟩ := (mem_items dim hd cells _ j k).1 hq
    by_contra hne
    refine h (j, k) ((meets_iff hd i m j k hi hj hm hk).2 ⟨fun q => hne ?_, e.symm⟩)
    cases q; rfl

private theorem two_items (hc : Conforming dim n cells) : AtMostTwo (items dim cells) := by
  rintro ⟨f, i, m⟩ h ⟨f', j, k⟩ h' ⟨f'', l, o⟩ h'' e1 e2
  obtain ⟨hi, hm, rfl⟩ := (mem_items dim hd cells _ i m).1 h
  obtain ⟨hj, hk, rfl⟩ := (mem_items dim hd cells _ j k).1 h'
  obtain ⟨hl, ho, rfl⟩ := (mem_items dim hd cells _ l o).1 h''
  by_cases q1 : (i, m) = (j, k)
  · left; cases q1; rfl
  · by_cases q2 : (i, m) = (l, o)
    · right; left; cases q2; rfl
    · right; right
      have := hc.two (i, m) (j, k) (l, o) ((meets_iff hd i m j k hi hj hm hk).2 ⟨q1, e1.symm⟩) ((meets_iff hd i m l o hi hl hm ho).2 ⟨q2, e2.symm⟩)
      cases this; rfl

private theorem small (e : Item) (he : e ∈ items dim cells) : e.2.2 < dim + 1 := by
  obtain ⟨f, i, m⟩ := e
  exact ((mem_items dim hd cells _ i m).1 he).2.1

private theorem boundary_of_lookup (s : Build) (h : ∀ e, e ∈ s.lookup ↔ e ∈ items dim cells ∧ Alone (items dim cells) e) (i : Nat) :
    i ∈ s.boundaryCells ↔ Outermost dim cells i := by
  unfold Build.boundaryCells Outermost
  rw [List.mem_map]
  constructor
  · rintro ⟨⟨f, j, m⟩, h1, rfl⟩
    obtain ⟨h2, h3⟩ := (h _).1 h1
    obtain ⟨h4, h5, rfl⟩ := (mem_items dim hd cells _ j m).1 h2
    exact ⟨h4, m, h5, (alone_iff hd j m h4 h5).1 h3⟩
  · rintro ⟨h1, m, h2, h3⟩
    exact ⟨_, (h _).2 ⟨(mem_items dim hd cells _ i m).2 ⟨h1, h2, rfl⟩, (alone_iff hd i m h1 h2).2 h3⟩, rfl⟩

end connect

/-- Intervals and triangles: the connectivity has the cell on the other side of every side, or `-1`. -/
theorem connectivity {dim n : Nat} {cells : List (List Nat)} (hd : dim = 1 ∨ dim = 2) (hc : Conforming dim n cells) :
    Linked dim cells (List.range cells.length) (connect dim cells).conn := by
  have hd' : dim = 1 ∨ dim = 2 ∨ dim = 3 := by omega
  have h := build_inv dim (items dim cells) (items_nodup dim cells) (two_items hd' hc) (fun e he => small hd' e he)
  have e : connect dim cells = (items dim cells).foldl enter ⟨[], fun _ => List.replicate (dim + 1) (-1)⟩ := by
    unfold connect; rw [if_pos (by omega)]
  rw [e]
  refine ⟨fun i _ => h.len i, fun i hi m q hq => ?_, fun i hi m hm hq => ?_⟩
  · obtain ⟨j, k⟩ := q
    have hi := List.mem_range.1 hi
    have hm := hq.left.2
    have hj := hq.right.1
    have hk := hq.right.2
    have := (meets_iff hd' i m j k hi hj hm hk).1 hq
    rw [if_pos (List.mem_range.2 hj)]
    exact h.pair _ ((mem_items dim hd' cells _ i m).2 ⟨hi, hm, rfl⟩) (_, j, k) ((mem_items dim hd' cells _ j k).2 ⟨hj, hk, rfl⟩) this.2.symm
      fun q => this.1 (congrArg Prod.snd q).symm
  · have hi := List.mem_range.1 hi
    exact h.alone _ ((mem_items dim hd' cells _ i m).2 ⟨hi, hm, rfl⟩) ((alone_iff hd' i m hi hm).2 hq)

/-- Tetrahedra: the connectivity has the cells with a common face. -/
theorem face_connectivity {n : Nat} {cells : List (List Nat)} (hc : Conforming 3 n cells) (i : Nat) (j : Int) :
    j ∈ (connect 3 cells).conn i ↔ ∃ j' m k : Nat, j = (j' : Int) ∧ i ≠ j' ∧ Meets 3 cells (i, m) (j', k) := by
  have h := build_faces (items 3 cells) (items_nodup 3 cells) (two_items (by omega) hc)
  have e : connect 3 cells = (items 3 cells).foldl enterFace ⟨[], fun _ => []⟩ := rfl
  rw [e, h.conn]
  constructor
  · rintro ⟨⟨f, i', m⟩, he, ⟨f', j', k⟩, he', r1, rfl, rfl, r4⟩
    obtain ⟨hi, hm, rfl⟩ := (mem_items 3 (by omega) cells _ i' m).1 he
    obtain ⟨hj, hk, rfl⟩ := (mem_items 3 (by omega) cells _ j' k).1 he'
    exact ⟨j', m, k, rfl, r4, (meets_iff (by omega) i' m j' k hi hj hm hk).2 ⟨fun q => r4 (congrArg Prod.fst q), r1⟩⟩
  · rintro ⟨j', m, k, rfl, hne, hq⟩
    have hi := hq.left.1
    have hm := hq.left.2
    have hj := hq.right.1
    have hk := hq.right.2
    exact ⟨_, (mem_items 3 (by omega) cells _ i m).2 ⟨hi, hm, rfl⟩, _, (mem_items 3 (by omega) cells _ j' k).2 ⟨hj, hk, rfl⟩,
      ((meets_iff (by omega) i m j' k hi hj hm hk).1 hq).2, rfl, rfl, hne⟩

/-- The boundary cells are the cells with a side that no other cell has. -/
theorem boundary_cells {dim n : Nat} {cells : List (List Nat)} (hd : dim = 1 ∨ dim = 2 ∨ dim = 3) (hc : Conforming dim n cells) (i : Nat) :
    i ∈ (connect dim cells).boundaryCells ↔ Outermost dim cells i := by
  refine boundary_of_lookup hd _ (fun e => ?_) i
  unfold connect
  split
  · exact (build_inv dim (items dim cells) (items_nodup dim cells) (two_items hd hc) (fun e he => small hd e he)).lookup e
  · exact (build_faces (items dim cells) (items_nodup dim cells) (two_items hd hc)).lookup e

/-! ### layers -/

/-- The layers are those of breadth first search: layer number `k` has the cells that are reached in exactly `k` steps. -/
theorem layers {keys : List Nat} {cells : Nat → List Nat} {ofCells : List Nat} (hS : ∀ c ∈ ofCells, c ∈ keys) (depth : Nat) :
    ∃ ls, getLayer keys cells depth ofCells = some ls ∧ ls.length = depth ∧ (∀ j, j < depth → ∀ c, c ∈ ls.getD j [] ↔
      Near (· ∈ keys) cells (· ∈ ofCells) (j + 1) c ∧ ¬ Near (· ∈ keys) cells (· ∈ ofCells) j c) ∧
      ∀ c, c ∈ ls.flatten ↔ Near (· ∈ keys) cells (· ∈ ofCells) depth c := by
  obtain ⟨ls, h1, h2, h3⟩ := getLayer_spec (cells := cells) hS depth
  exact ⟨ls, h1, h2, h3, mem_flatten_layers h2 h3⟩

/-! ### refinement -/

/-- A mesh and the vertices at its boundary. -/
structure Level where
  cells : List (List Nat)
  boundary : List Nat

/-- The mesh has conforming cells, and the boundary vertices are vertices. -/
structure Level.Ok (dim n : Nat) (L : Level) : Prop where
  conf : Conforming dim n L.cells
  used : ∀ v ∈ L.boundary, ∃ c ∈ L.cells, v ∈ c

/-- Cells with a boundary vertex. -/
def Level.Touches (L : Level) (c : Nat) : Prop := c < L.cells.length ∧ ∃ v ∈ L.boundary, v ∈ L.cells.getD c []

/-- The first `k` layers of the mesh. -/
def Level.Within (L : Level) (k c : Nat) : Prop := Near (· < L.cells.length) (fun c => L.cells.getD c []) L.Touches k c

/-- New cells of an interval or a triangle; `m a b` is the vertex on the edge `a b`. -/
def kids (dim : Nat) (m : Nat → Nat → Nat) (c : List Nat) : List (List Nat) :=
  if dim = 1 then [[c.getD 0 0, m (c.getD 0 0) (c.getD 1 0)], [m (c.getD 0 0) (c.getD 1 0), c.getD 1 0]]
  else children2 (c.getD 0 0) (c.getD 1 0) (c.getD 2 0) (m (c.getD 0 0) (c.getD 1 0)) (m (c.getD 1 0) (c.getD 2 0)) (m (c.getD 0 0) (c.getD 2 0))

/-- `B` is the refinement of `A`. New boundary vertices are on edges between boundary vertices. -/
structure Refines (dim n : Nat) (m : Nat → Nat → Nat) (A B : Level) : Prop where
  cells : B.cells = A.cells.flatMap (kids dim m)
  symm : ∀ a b, m a b = m b a
  range : ∀ a b, IsEdge A.cells a b → n ≤ m a b
  inj : ∀ a b a' b', IsEdge A.cells a b → IsEdge A.cells a' b' → m a b = m a' b' → (a = a' ∧ b = b') ∨ (a = b' ∧ b = a')
  boundary : ∀ v ∈ B.boundary, v ∈ A.boundary ∨ ∃ a ∈ A.boundary, ∃ b ∈ A.boundary, IsEdge A.cells a b ∧ v = m a b

private theorem block {α β : Type} (g : α → List β) (dα : α) (dβ : β) (s j : Nat) (hj : j < s) : ∀ (l : List α), (∀ c ∈ l, (g c).length = s) → ∀ i, i < l.length →
    (l.flatMap g).getD (s * i + j) dβ = (g (l.getD i dα)).getD j dβ := by
  intro l
  induction l with
  | nil => intro _ i hi; exact absurd hi (by simp)
  | cons a l ih =>
    intro hl i hi
    have ha := hl a (by simp)
    rw [List.flatMap_cons]
    cases i with
    | zero =>
      rw [List.getD_append _ _ _ _ (by omega)]
      simp
    | succ i =>
      have e : s * (i + 1) + j = (g a).length + (s * i + j) := by rw [ha]; ring
      rw [e, List.getD_append_right _ _ _ _ (by omega), Nat.add_sub_cancel_left]
      rw [ih (fun c hc => hl c (by simp [hc])) i (by simpa using hi)]
      simp

private theorem kids_length (dim : Nat) (hd : dim = 1 ∨ dim = 2) (m : Nat → Nat → Nat) (c : List Nat) : (kids dim m c).length = 2 ^ dim := by
  rcases hd with rfl | rfl <;> rfl

section refines

variable {dim n : Nat} {m : Nat → Nat → Nat} {A B : Level} (hd : dim = 1 ∨ dim = 2) (hR : Refines dim n m A B)
include hd hR

private theorem len' : B.cells.length = 2 ^ dim * A.cells.length := by
  rw [hR.cells, List.length_flatMap]
  rw [List.map_congr_left (fun c _ => kids_length dim hd m c)]
  simp [Nat.mul_comm]

private theorem child (i s : Nat) (hi : i < A.cells.length) (hs : s < 2 ^ dim) : B.cells.getD (2 ^ dim * i + s) [] = (kids dim m (A.cells.getD i [])).getD s [] := by
  rw [hR.cells]
  exact block _ [] [] (2 ^ dim) s hs _ (fun c _ => kids_length dim hd m c) i hi

private theorem child_mem (c : Nat) (hc : c < B.cells.length) : c / 2 ^ dim < A.cells.length ∧ B.cells.getD c [] ∈ kids dim m (A.cells.getD (c / 2 ^ dim) []) := by
  have hp : 0 < 2 ^ dim := Nat.two_pow_pos dim
  have h1 : c / 2 ^ dim < A.cells.length := Nat.div_lt_of_lt_mul (by rw [← len' hd hR]; exact hc)
  refine ⟨h1, ?_⟩
  have h2 := child hd hR (c / 2 ^ dim) (c % 2 ^ dim) h1 (Nat.mod_lt _ hp)
  rw [Nat.div_add_mod] at h2
  have h3 : c % 2 ^ dim < (kids dim m (A.cells.getD (c / 2 ^ dim) [])).length := by rw [kids_length dim hd]; exact Nat.mod_lt _ hp
  rw [h2, List.getD_eq_getElem (kids dim m (A.cells.getD (c / 2 ^ dim) [])) [] h3]
  exact List.getElem_mem _

end refines

/-- Old vertices that a vertex of the new mesh is made of. -/
private def Supp (n : Nat) (m : Nat → Nat → Nat) (cells : List (List Nat)) (v u : Nat) : Prop := (v < n ∧ u = v) ∨ ∃ b, IsEdge cells u b ∧ v = m u b

private theorem length2' (c : List Nat) (h : c.length = 2) : ∃ v0 v1, c = [v0, v1] := by
  match c, h with | [a, b], _ => exact ⟨a, b, rfl⟩
private theorem length3' (c : List Nat) (h : c.length = 3) : ∃ v0 v1 v2, c = [v0, v1, v2] := by
  match c, h with | [a, b, e], _ => exact ⟨a, b, e, rfl⟩

section supp

variable {dim n : Nat} {m : Nat → Nat → Nat} {A B : Level} (hd : dim = 1 ∨ dim = 2) (hA : A.Ok dim n) (hR : Refines dim n m A B)
include hd hA hR

/-- The vertices of a new cell are old vertices of the old cell or on its edges. -/
private theorem kid_vertex (c : List Nat) (hc : c ∈ A.cells) (k : List Nat) (hk : k ∈ kids dim m c) (v : Nat) (hv : v ∈ k) :
    v ∈ c ∨ ∃ a ∈ c, ∃ b ∈ c, a ≠ b ∧ v = m a b := by
  have hm := hA.conf.mesh c hc
  rcases hd with rfl | rfl
  · obtain ⟨v0, v1, rfl⟩ := length2' c hm.1
    have hn := hm.2.1
    simp at hn
    simp [kids] at hk
    rcases hk with rfl | rfl <;> simp at hv
    · rcases hv with rfl | rfl
      · left; simp
      · right; exact ⟨v0, by simp, v1, by simp, hn, rfl⟩
    · rcases hv with rfl | rfl
      · right; exact ⟨v0, by simp, v1, by simp, hn, rfl⟩
      · left; simp
  · obtain ⟨v0, v1, v2, rfl⟩ := length3' c hm.1
    have hn := hm.2.1
    simp at hn
    have e01 : ∃ a ∈ [v0, v1, v2], ∃ b ∈ [v0, v1, v2], a ≠ b ∧ m v0 v1 = m a b := ⟨v0, by simp, v1, by simp, hn.1.1, rfl⟩
    have e02 : ∃ a ∈ [v0, v1, v2], ∃ b ∈ [v0, v1, v2], a ≠ b ∧ m v0 v2 = m a b := ⟨v0, by simp, v2, by simp, hn.1.2, rfl⟩
    have e12 : ∃ a ∈ [v0, v1, v2], ∃ b ∈ [v0, v1, v2], a ≠ b ∧ m v1 v2 = m a b := ⟨v1, by simp, v2, by simp, hn.2, rfl⟩
    simp [kids, children2] at hk
    rcases hk with rfl | rfl | rfl | rfl <;> simp at hv <;> rcases hv with rfl | rfl | rfl <;>
      first | exact Or.inr e01 | exact Or.inr e02 | exact Or.inr e12 | (left; simp)

private theorem supp_old (c : List Nat) (hc : c ∈ A.cells) (k : List Nat) (hk : k ∈ kids dim m c) (v : Nat) (hv : v ∈ k) (u : Nat) (hu : Supp n m A.cells v u) : u ∈ c := by
  rcases kid_vertex hd hA hR c hc k hk v hv with h | ⟨a, ha, b, hb, hab, rfl⟩
  · rcases hu with ⟨_, rfl⟩ | ⟨b, he, rfl⟩
    · exact h
    · have := (hA.conf.mesh c hc).2.2 _ h
      have := hR.range _ _ he
      omega
  · have e1 : IsEdge A.cells a b := ⟨hab, c, hc, ha, hb⟩
    rcases hu with ⟨h, _⟩ | ⟨b', he, q⟩
    · have := hR.range _ _ e1
      omega
    · rcases hR.inj _ _ _ _ e1 he q with ⟨rfl, _⟩ | ⟨_, rfl⟩
      · exact ha
      · exact hb

private theorem supp_common (c : List Nat) (hc : c ∈ A.cells) (k : List Nat) (hk : k ∈ kids dim m c) (v w : Nat) (hv : v ∈ k) (hw : w ∈ k) :
    ∃ u, Supp n m A.cells v u ∧ Supp n m A.cells w u := by
  have hm := hA.conf.mesh c hc
  have old : ∀ v ∈ c, Supp n m A.cells v v := fun v hv => Or.inl ⟨hm.2.2 v hv, rfl⟩
  have edge : ∀ a ∈ c, ∀ b ∈ c, a ≠ b → Supp n m A.cells (m a b) a ∧ Supp n m A.cells (m a b) b := fun a ha b hb hab =>
    ⟨Or.inr ⟨b, ⟨hab, c, hc, ha, hb⟩, rfl⟩, Or.inr ⟨a, ⟨hab.symm, c, hc, hb, ha⟩, hR.symm a b⟩⟩
  rcases hd with rfl | rfl
  · obtain ⟨v0, v1, rfl⟩ := length2' c hm.1
    have hn := hm.2.1
    simp at hn
    have s0 := old v0 (by simp)
    have s1 := old v1 (by simp)
    obtain ⟨e0, e1⟩ := edge v0 (by simp) v1 (by simp) hn
    simp [kids] at hk
    rcases hk with rfl | rfl <;> simp at hv hw
    · exact ⟨v0, by rcases hv with rfl | rfl <;> assumption, by rcases hw with rfl | rfl <;> assumption⟩
    · exact ⟨v1, by rcases hv with rfl | rfl <;> assumption, by rcases hw with rfl | rfl <;> assumption⟩
  · obtain ⟨v0, v1, v2, rfl⟩ := length3' c hm.1
    have hn := hm.2.1
    simp at hn
    have s0 := old v0 (by simp)
    have s1 := old v1 (by simp)
    have s2 := old v2 (by simp)
    obtain ⟨e0, e1⟩ := edge v0 (by simp) v1 (by simp) hn.1.1
    obtain ⟨f0, f2⟩ := edge v0 (by simp) v2 (by simp) hn.1.2
    obtain ⟨g1, g2⟩ := edge v1 (by simp) v2 (by simp) hn.2
    simp [kids, children2] at hk
    rcases hk with rfl | rfl | rfl | rfl <;> simp at hv hw
    · exact ⟨v0, by rcases hv with rfl | rfl | rfl <;> assumption, by rcases hw with rfl | rfl | rfl <;> assumption⟩
    · exact ⟨v1, by rcases hv with rfl | rfl | rfl <;> assumption, by rcases hw with rfl | rfl | rfl <;> assumption⟩
    · exact ⟨v2, by rcases hv with rfl | rfl | rfl <;> assumption, by rcases hw with rfl | rfl | rfl <;> assumption⟩
    · rcases hv with rfl | rfl | rfl <;> rcases hw with rfl | rfl | rfl <;>
        first | exact ⟨v0, by assumption, by assumption⟩ | exact ⟨v1, by assumption, by assumption⟩ | exact ⟨v2, by assumption, by assumption⟩

private theorem supp_boundary (v : Nat) (hv : v ∈ B.boundary) (u : Nat) (hu : Supp n m A.cells v u) : u ∈ A.boundary := by
  rcases hR.boundary v hv with h | ⟨a, ha, b, hb, he, rfl⟩
  · rcases hu with ⟨_, rfl⟩ | ⟨b, he, rfl⟩
    · exact h
    · obtain ⟨c, hc, hvc⟩ := hA.used _ h
      have := (hA.conf.mesh c hc).2.2 _ hvc
      have := hR.range _ _ he
      omega
  · rcases hu with ⟨h, _⟩ | ⟨b', he', q⟩
    · have := hR.range _ _ he
      omega
    · rcases hR.inj _ _ _ _ he he' q with ⟨rfl, _⟩ | ⟨_, rfl⟩
      · exact ha
      · exact hb

/-- Two new layers are in one old layer. -/
private theorem coarse_layer (k : Nat) : ∀ c, c < B.cells.length → B.Within (2 * k) c → A.Within k (c / 2 ^ dim) := by
  have cellA : ∀ c, c < A.cells.length → A.cells.getD c [] ∈ A.cells := fun c hc => by
    rw [List.getD_eq_getElem _ _ hc]; exact List.getElem_mem _
  induction k with
  | zero => intro c _ h; exact h.elim
  | succ k ih =>
    intro c hc h
    obtain ⟨p1, p2⟩ := child_mem hd hR c hc
    have pc := cellA _ p1
    rcases h with ⟨_, w, hw, hwc⟩ | ⟨c', h', -, v', hv1, hv2⟩
    · obtain ⟨u, hu, _⟩ := supp_common hd hA hR _ pc _ p2 w w hwc hwc
      exact Or.inl ⟨p1, u, supp_boundary hd hA hR w hw u hu, supp_old hd hA hR _ pc _ p2 w hwc u hu⟩
    · have hk : 2 * (k + 1) - 1 = 2 * k + 1 := by omega
      have h' : B.Within (2 * k + 1) c' := h'
      rcases h' with ⟨h1, w, hw, hwc⟩ | ⟨c'', h'', h1, v'', hw1, hw2⟩
      · obtain ⟨q1, q2⟩ := child_mem hd hR c' h1
        have qc := cellA _ q1
        obtain ⟨u, hu, hu'⟩ := supp_common hd hA hR _ qc _ q2 w v' hwc hv1
        exact Or.inl ⟨p1, u, supp_boundary hd hA hR w hw u hu, supp_old hd hA hR _ pc _ p2 v' hv2 u hu'⟩
      · obtain ⟨q1, q2⟩ := child_mem hd hR c' h1
        have qc := cellA _ q1
        have h2 : c'' < B.cells.length := h''.key (fun c hc => hc.1)
        obtain ⟨r1, r2⟩ := child_mem hd hR c'' h2
        have rc := cellA _ r1
        obtain ⟨u, hu, hu'⟩ := supp_common hd hA hR _ qc _ q2 v'' v' hw2 hv1
        exact Or.inr ⟨c'' / 2 ^ dim, ih c'' h2 h'', p1, u, supp_old hd hA hR _ rc _ r2 v'' hw1 u hu, supp_old hd hA hR _ pc _ p2 v' hv2 u hu'⟩

end supp

/-- Layers of the mesh are found in any set of cells that has them. -/
private theorem near_restrict {L : Level} {keys : List Nat} (hk : ∀ c ∈ keys, c < L.cells.length) {d : Nat} (hd : ∀ c, L.Within d c → c ∈ keys) :
    ∀ j, j ≤ d → ∀ c, Near (· ∈ keys) (fun c => L.cells.getD c []) (fun c => c ∈ keys ∧ L.Touches c) j c ↔ L.Within j c := by
  intro j
  induction j with
  | zero => intro _ c; exact Iff.rfl
  | succ j ih =>
    intro hj c
    constructor
    · rintro (⟨_, h⟩ | ⟨c', h1, h2, h3⟩)
      · exact Or.inl h
      · exact Or.inr ⟨c', (ih (by omega) c').1 h1, hk c h2, h3⟩
    · intro h
      have hc : c ∈ keys := hd c (h.mono hj)
      rcases h with h | ⟨c', h1, h2, h3⟩
      · exact Or.inl ⟨hc, h⟩
      · exact Or.inr ⟨c', (ih (by omega) c').2 h1, hc, h3⟩

private theorem near_congr {keys : Nat → Prop} {cells : Nat → List Nat} {S T : Nat → Prop} (h : ∀ c, S c ↔ T c) (k c : Nat) : Near keys cells S k c ↔ Near keys cells T k c := by
  have : S = T := funext fun c => propext (h c)
  rw [this]

private theorem mem_childKeys (dim : Nat) (keys : List Nat) (c : Nat) : c ∈ childKeys dim keys ↔ c / 2 ^ dim ∈ keys := by
  have hp : 0 < 2 ^ dim := Nat.two_pow_pos dim
  unfold childKeys
  rw [List.mem_flatMap]
  constructor
  · rintro ⟨i, hi, h⟩
    obtain ⟨s, hs, rfl⟩ := List.mem_map.1 h
    rw [Nat.mul_add_div hp, Nat.div_eq_of_lt (List.mem_range.1 hs)]
    exact hi
  · intro h
    exact ⟨_, h, List.mem_map.2 ⟨c % 2 ^ dim, List.mem_range.2 (Nat.mod_lt _ hp), Nat.div_add_mod _ _⟩⟩

/-- Cells at the boundary in a set with the first layer. -/
private theorem touching_spec {L : Level} {keys : List Nat} (hk : ∀ c ∈ keys, c < L.cells.length) (hu : ∀ v ∈ L.boundary, ∃ c ∈ L.cells, v ∈ c)
    (h1 : ∀ c, L.Within 1 c → c ∈ keys) : ∃ pp, touching keys (fun c => L.cells.getD c []) L.boundary = some pp ∧ ∀ c, c ∈ pp ↔ c ∈ keys ∧ L.Touches c := by
  have mem : ∀ v c, c ∈ vertex2cells keys (fun c => L.cells.getD c []) v ↔ c ∈ keys ∧ v ∈ L.cells.getD c [] := fun v c => by
    unfold vertex2cells
    rw [List.mem_filter]
    simp only [decide_eq_true_eq]
  unfold touching
  rw [if_pos]
  · refine ⟨_, rfl, fun c => ?_⟩
    rw [List.mem_flatMap]
    simp only [mem]
    constructor
    · rintro ⟨v, hv, h2, h3⟩
      exact ⟨h2, hk c h2, v, hv, h3⟩
    · rintro ⟨h2, _, v, hv, h3⟩
      exact ⟨v, hv, h2, h3⟩
  · rw [List.all_eq_true]
    intro v hv
    obtain ⟨c, hc, hvc⟩ := hu v hv
    obtain ⟨i, hi, rfl⟩ := List.getElem_of_mem hc
    have hvc' : v ∈ L.cells.getD i [] := by rwa [List.getD_eq_getElem _ _ hi]
    have : i ∈ vertex2cells keys (fun c => L.cells.getD c []) v := (mem v i).2 ⟨h1 i (Or.inl ⟨hi, v, hv, hvc'⟩), hvc'⟩
    cases hh : vertex2cells keys (fun c => L.cells.getD c []) v with
    | nil => rw [hh] at this; cases this
    | cons a l => rfl

/-- One refinement keeps the cells of the first `d` layers if the old cells had enough layers. -/
private theorem refineKeys_spec {dim n' depth after d : Nat} {L : Level} {keys : List Nat} (hL : L.Ok dim n')
    (hk : ∀ c ∈ childKeys dim keys, c < L.cells.length) (h : layersKept depth after = some d) (hd1 : 1 ≤ d) (hw : ∀ c, L.Within d c → c ∈ childKeys dim keys) :
    ∃ keys', refineKeys dim depth after (fun c => L.cells.getD c []) L.boundary keys = some keys' ∧ ∀ c, c ∈ keys' ↔ L.Within d c := by
  obtain ⟨pp, h1, h2⟩ := touching_spec hk hL.used fun c h => hw c (h.mono hd1)
  obtain ⟨ls, h3, h4, h5, h6⟩ := layers (cells := fun c => L.cells.getD c []) (fun c hc => ((h2 c).1 hc).1) d
  refine ⟨ls.flatten, ?_, fun c => ?_⟩
  · unfold refineKeys
    simp only [h, h1, h3, Option.bind_eq_bind, Option.bind_some]
  · rw [h6, near_congr h2, near_restrict hk hw d le_rfl]

private theorem ceil_step (depth r : Nat) (hr : 1 ≤ r) : (depth + r - 1) / r ≤ 2 * ((depth + (r + 1) - 1) / (r + 1)) := by
  have h1 : depth ≤ (r + 1) * ((depth + (r + 1) - 1) / (r + 1)) := by
    have := Nat.div_add_mod (depth + (r + 1) - 1) (r + 1)
    have := Nat.mod_lt (depth + (r + 1) - 1) (show 0 < r + 1 by omega)
    omega
  generalize (depth + (r + 1) - 1) / (r + 1) = q at *
  have h2 : depth ≤ r * (2 * q) := by
    refine h1.trans ?_
    have : r + 1 ≤ r * 2 := by omega
    calc (r + 1) * q ≤ r * 2 * q := Nat.mul_le_mul_right q this
      _ = r * (2 * q) := by ring
  generalize 2 * q = t at *
  by_contra hh
  push Not at hh
  have := (Nat.le_div_iff_mul_le (show 0 < r by omega)).1 (show t + 1 ≤ (depth + r - 1) / r by omega)
  have e : (t + 1) * r = r * t + r := by ring
  omega

/-! Neighbours after refinement -/

/-- Two cells have at most one common side, and triangles with a common edge run through it in opposite directions. -/
structure Oriented (dim : Nat) (cells : List (List Nat)) : Prop where
  one : ∀ i m j k m' k', Meets dim cells (i, m) (j, k) → Meets dim cells (i, m') (j, k') → m = m'
  turn : dim = 2 → ∀ i m j k, Meets dim cells (i, m) (j, k) → (cells.getD j []).getD k 0 = (cells.getD i []).getD ((m + 1) % 3) 0

private theorem Meets.swap {dim : Nat} {cells : List (List Nat)} {p q : Nat × Nat} (h : Meets dim cells p q) : Meets dim cells q p :=
  ⟨h.right, h.left, h.ne.symm, h.same.symm⟩

section links

variable {dim n : Nat} {cells : List (List Nat)} {keys : List Nat} {conn : Nat → List Int}

private theorem position_eq (hO : Oriented dim cells) (hk : ∀ c ∈ keys, c < cells.length) (hl : Linked dim cells keys conn) {i e j p : Nat}
    (hi : i ∈ keys) (hj : j ∈ keys) (h : Meets dim cells (i, e) (j, p)) : position conn (j : Int) i = some p := by
  unfold position
  rw [Int.toNat_natCast, List.findIdx?_eq_some_iff_getElem]
  have hlen := hl.len j hj
  have hp : p < (conn j).length := by rw [hlen]; exact h.right.2
  have val := hl.cell j hj p (i, e) h.swap
  rw [if_pos hi, List.getD_eq_getElem _ _ hp] at val
  refine ⟨hp, by simpa using val, fun p' hp' => ?_⟩
  simp only [decide_eq_true_eq]
  intro hv
  have hp'' : p' < (conn j).length := by omega
  by_cases hq : ∃ q, Meets dim cells (j, p') q
  · obtain ⟨⟨i', e'⟩, hq⟩ := hq
    have val' := hl.cell j hj p' (i', e') hq
    rw [List.getD_eq_getElem _ _ hp'', hv] at val'
    by_cases hi' : i' ∈ keys
    · rw [if_pos hi'] at val'
      have : i = i' := by simpa using val'
      subst this
      have := hO.one j p i e p' e' h.swap hq
      omega
    · rw [if_neg hi'] at val'
      omega
  · push Not at hq
    have val' := hl.free j hj p' (by omega) hq
    rw [List.getD_eq_getElem _ _ hp'', hv] at val'
    omega

private theorem outer1_eq (hO : Oriented 1 cells) (hk : ∀ c ∈ keys, c < cells.length) (hl : Linked 1 cells keys conn) {i e : Nat} (hi : i ∈ keys) (he : e < 2) :
    ((∀ q, ¬ Meets 1 cells (i, e) q) ∧ outer1 conn i e = some (-1)) ∨
    ∃ j p, Meets 1 cells (i, e) (j, p) ∧ outer1 conn i e = some (if j ∈ keys then ((2 * j + p : Nat) : Int) else -2) := by
  by_cases hq : ∃ q, Meets 1 cells (i, e) q
  · obtain ⟨⟨j, p⟩, hq⟩ := hq
    right
    refine ⟨j, p, hq, ?_⟩
    unfold outer1
    dsimp only
    have val := hl.cell i hi e (j, p) hq
    dsimp only at val
    by_cases hj : j ∈ keys
    · rw [if_pos hj] at val
      rw [val, if_pos (by omega), position_eq hO hk hl hi hj hq, if_pos hj]
      simp
    · rw [if_neg hj] at val
      rw [val, if_neg hj]
      rfl
  · push Not at hq
    left
    refine ⟨hq, ?_⟩
    unfold outer1
    rw [hl.free i hi e he hq]
    rfl

private theorem outer2_eq (hO : Oriented 2 cells) (hk : ∀ c ∈ keys, c < cells.length) (hl : Linked 2 cells keys conn) {i e : Nat} (hi : i ∈ keys) (he : e < 3) :
    ((∀ q, ¬ Meets 2 cells (i, e) q) ∧ outer2 conn i e = some (-1, -1)) ∨
    ∃ j p, Meets 2 cells (i, e) (j, p) ∧ outer2 conn i e =
      some (if j ∈ keys then ((4 * j + p : Nat) : Int) else -2, if j ∈ keys then ((4 * j + (p + 1) % 3 : Nat) : Int) else -2) := by
  by_cases hq : ∃ q, Meets 2 cells (i, e) q
  · obtain ⟨⟨j, p⟩, hq⟩ := hq
    right
    refine ⟨j, p, hq, ?_⟩
    unfold outer2
    dsimp only
    have val := hl.cell i hi e (j, p) hq
    dsimp only at val
    by_cases hj : j ∈ keys
    · rw [if_pos hj] at val
      rw [val, if_pos (by omega), position_eq hO hk hl hi hj hq, if_pos hj, if_pos hj, Nat.add_comm p 1]
      simp
    · rw [if_neg hj] at val
      rw [val, if_neg hj, if_neg hj]
      rfl
  · push Not at hq
    left
    refine ⟨hq, ?_⟩
    unfold outer2
    rw [hl.free i hi e he hq]
    rfl

end links

/-- What a row of the new connectivity has to be. -/
private def RowOk (dim : Nat) (cells : List (List Nat)) (keys : List Nat) (c : Nat) (row : List Int) : Prop :=
  row.length = dim + 1 ∧ ∀ t, t < dim + 1 →
    ((∀ q, ¬ Meets dim cells (c, t) q) ∧ row.getD t 0 = -1) ∨
    ∃ q, Meets dim cells (c, t) q ∧ row.getD t 0 = if q.1 ∈ keys then (q.1 : Int) else -2

/-! Intervals -/

section intervals

variable {n : Nat} {m : Nat → Nat → Nat} {A B : Level} (hA : A.Ok 1 n) (hR : Refines 1 n m A B)
include hA hR

private theorem fine1 (i : Nat) (hi : i < A.cells.length) : ∃ v0 v1, A.cells.getD i [] = [v0, v1] ∧ v0 ≠ v1 ∧ v0 < n ∧ v1 < n ∧ n ≤ m v0 v1 ∧
    B.cells.getD (2 * i) [] = [v0, m v0 v1] ∧ B.cells.getD (2 * i + 1) [] = [m v0 v1, v1] := by
  have hc : A.cells.getD i [] ∈ A.cells := by rw [List.getD_eq_getElem _ _ hi]; exact List.getElem_mem _
  have hm := hA.conf.mesh _ hc
  obtain ⟨v0, v1, e⟩ := length2' _ hm.1
  have h0 := child (Or.inl rfl) hR i 0 hi (by decide)
  have h1 := child (Or.inl rfl) hR i 1 hi (by decide)
  rw [e] at hm h0 h1 hc
  have hn := hm.2.1
  simp at hn
  exact ⟨v0, v1, e, hn, hm.2.2 v0 (by simp), hm.2.2 v1 (by simp), hR.range _ _ ⟨hn, _, hc, by simp, by simp⟩, h0, h1⟩

private theorem outer_side1 (i e : Nat) (hi : i < A.cells.length) (he : e < 2) : side 1 (B.cells.getD (2 * i + e) []) e = side 1 (A.cells.getD i []) e ∧
    ∀ v ∈ side 1 (A.cells.getD i []) e, v < n := by
  obtain ⟨v0, v1, e0, _, h0, h1, _, e1, e2⟩ := fine1 hA hR i hi
  obtain rfl | rfl : e = 0 ∨ e = 1 := by omega
  · rw [e0, Nat.add_zero, e1]; simp [side]; exact h0
  · rw [e0, e2]; simp [side]; exact h1

private theorem inner_side1 (i e : Nat) (hi : i < A.cells.length) (he : e < 2) : ∀ v ∈ side 1 (B.cells.getD (2 * i + e) []) (1 - e), n ≤ v := by
  obtain ⟨v0, v1, e0, _, h0, h1, h2, e1, e2⟩ := fine1 hA hR i hi
  obtain rfl | rfl : e = 0 ∨ e = 1 := by omega
  · rw [Nat.add_zero, e1]; simp [side]; exact h2
  · rw [e2]; simp [side]; exact h2

private theorem meets1 (i e j p : Nat) (h : Meets 1 A.cells (i, e) (j, p)) : Meets 1 B.cells (2 * i + e, e) (2 * j + p, p) := by
  have hi := h.left.1; have he := h.left.2; have hj := h.right.1; have hp := h.right.2
  have hlen := len' (Or.inl rfl) hR
  dsimp only at hi he hj hp
  refine ⟨⟨by dsimp only; omega, he⟩, ⟨by dsimp only; omega, hp⟩, fun q => h.ne ?_, ?_⟩
  · have q1 := congrArg Prod.fst q
    have q2 := congrArg Prod.snd q
    dsimp only at q1 q2
    exact Prod.ext (by dsimp only; omega) q2
  · dsimp only
    rw [(outer_side1 hA hR i e hi he).1, (outer_side1 hA hR j p hj hp).1]
    exact h.same

private theorem free1 (i e : Nat) (hi : i < A.cells.length) (he : e < 2) (h : ∀ q, ¬ Meets 1 A.cells (i, e) q) (q : Nat × Nat) : ¬ Meets 1 B.cells (2 * i + e, e) q := by
  intro hq
  obtain ⟨f, t⟩ := q
  have hf := hq.right.1; have ht := hq.right.2
  dsimp only at hf ht
  have hlen := len' (Or.inl rfl) hR
  obtain ⟨s1, s2⟩ := outer_side1 hA hR i e hi he
  have hs := hq.same
  dsimp only at hs
  rw [s1] at hs
  have hj : f / 2 < A.cells.length := by omega
  have hfe : f = 2 * (f / 2) + f % 2 := by omega
  by_cases hte : t = f % 2
  · have s3 := (outer_side1 hA hR (f / 2) (f % 2) hj (by omega)).1
    rw [← hfe, ← hte] at s3
    rw [s3] at hs
    refine h (f / 2, t) ⟨⟨hi, he⟩, ⟨hj, ht⟩, fun q => hq.ne ?_, hs⟩
    have q1 := congrArg Prod.fst q
    have q2 := congrArg Prod.snd q
    dsimp only at q1 q2
    exact Prod.ext (by dsimp only; omega) q2
  · have s3 := inner_side1 hA hR (f / 2) (f % 2) hj (by omega)
    rw [← hfe, show 1 - f % 2 = t by omega] at s3
    have : (side 1 (A.cells.getD i []) e) = [(A.cells.getD i []).getD e 0] := by simp [side]
    have hv := s2 ((A.cells.getD i []).getD e 0) (by rw [this]; simp)
    have := s3 ((A.cells.getD i []).getD e 0) (hs.mem_iff.1 (by rw [this]; exact List.mem_singleton.2 rfl))
    omega

private theorem row1 {keys : List Nat} {conn : Nat → List Int} (hO : Oriented 1 A.cells) (hk : ∀ c ∈ keys, c < A.cells.length) (hl : Linked 1 A.cells keys conn)
    (c : Nat) (hc : c ∈ childKeys 1 keys) : ∃ row, newRow 1 conn c = some row ∧ RowOk 1 B.cells (childKeys 1 keys) c row := by
  rw [mem_childKeys] at hc
  have hi := hk _ hc
  have hlen := len' (Or.inl rfl) hR
  simp only [Nat.pow_one] at hc hi hlen
  have hce : c = 2 * (c / 2) + c % 2 := by omega
  have inner : Meets 1 B.cells (2 * (c / 2), 1) (2 * (c / 2) + 1, 0) := by
    obtain ⟨v0, v1, e0, _, h0, h1, h2, e1, e2⟩ := fine1 hA hR (c / 2) hi
    refine ⟨⟨by dsimp only; omega, by dsimp only; omega⟩, ⟨by dsimp only; omega, by dsimp only; omega⟩, by simp, ?_⟩
    dsimp only
    rw [e1, e2]
    simp [side]
  have key : ∀ x, x ∈ childKeys 1 keys ↔ x / 2 ∈ keys := fun x => by rw [mem_childKeys]; simp
  have out : ∃ o, outer1 conn (c / 2) (c % 2) = some o ∧ (((∀ q, ¬ Meets 1 B.cells (c, c % 2) q) ∧ o = -1) ∨
      ∃ q, Meets 1 B.cells (c, c % 2) q ∧ o = if q.1 ∈ childKeys 1 keys then (q.1 : Int) else -2) := by
    rcases outer1_eq hO hk hl hc (show c % 2 < 2 by omega) with ⟨h1, h2⟩ | ⟨j, p, h1, h2⟩
    · refine ⟨_, h2, Or.inl ⟨fun q => ?_, rfl⟩⟩
      have := free1 hA hR (c / 2) (c % 2) hi (by omega) h1 q
      rwa [← hce] at this
    · have hp := h1.right.2
      dsimp only at hp
      refine ⟨_, h2, Or.inr ⟨(2 * j + p, p), ?_, ?_⟩⟩
      · have := meets1 hA hR _ _ j p h1
        rwa [← hce] at this
      · simp only [key, show (2 * j + p) / 2 = j by omega]
  obtain ⟨o, ho, hv⟩ := out
  refine ⟨_, by unfold newRow; rw [if_pos rfl]; dsimp only; rw [ho]; rfl, by split <;> rfl, fun t ht => ?_⟩
  dsimp only
  by_cases h : c % 2 = 0
  · rw [if_pos h]
    rw [h] at hv
    obtain rfl | rfl : t = 0 ∨ t = 1 := by omega
    · exact hv
    · right
      refine ⟨(2 * (c / 2) + 1, 0), by rw [show c = 2 * (c / 2) by omega, show 2 * (2 * (c / 2) / 2) + 1 = 2 * (c / 2) + 1 by omega]; exact inner, ?_⟩
      rw [if_pos ((key _).2 (by dsimp only; rw [show (2 * (c / 2) + 1) / 2 = c / 2 by omega]; exact hc))]
      rfl
  · rw [if_neg h]
    rw [show c % 2 = 1 by omega] at hv
    obtain rfl | rfl : t = 0 ∨ t = 1 := by omega
    · right
      refine ⟨(2 * (c / 2), 1), by
        have := inner.swap
        rwa [show 2 * (c / 2) + 1 = c by omega] at this, ?_⟩
      rw [if_pos ((key _).2 (by dsimp only; rw [show (2 * (c / 2)) / 2 = c / 2 by omega]; exact hc))]
      rfl
    · exact hv

end intervals

private theorem boundary1 {keys : List Nat} {conn : Nat → List Int} (c : Nat) (row : List Int) (hr : newRow 1 conn c = some row) :
    c ∈ newBoundary 1 keys conn ↔ c ∈ childKeys 1 keys ∧ ∃ t < 2, row.getD t 0 = -1 := by
  have key : ∀ x, x ∈ childKeys 1 keys ↔ x / 2 ∈ keys := fun x => by rw [mem_childKeys]; simp
  have hout : ∀ o, outer1 conn (c / 2) (c % 2) = some o → (o = -1 ↔ (conn (c / 2)).getD (c % 2) 0 = -1) := by
    intro o ho
    unfold outer1 at ho
    dsimp only at ho
    generalize (conn (c / 2)).getD (c % 2) 0 = j at *
    split at ho
    · obtain ⟨p, -, rfl⟩ := Option.map_eq_some_iff.1 ho
      omega
    · split at ho <;> · injection ho with ho; subst ho; simp_all
  have h1 : c ∈ newBoundary 1 keys conn ↔ c / 2 ∈ keys ∧ (conn (c / 2)).getD (c % 2) 0 = -1 := by
    unfold newBoundary
    simp only [List.mem_flatMap, List.mem_filter, List.mem_range, decide_eq_true_eq, if_pos, List.mem_singleton]
    constructor
    · rintro ⟨i, hi, e, ⟨he, hv⟩, rfl⟩
      rw [show (2 * i + e) / 2 = i by omega, show (2 * i + e) % 2 = e by omega]
      exact ⟨hi, hv⟩
    · rintro ⟨hi, hv⟩
      exact ⟨c / 2, hi, c % 2, ⟨by omega, hv⟩, by omega⟩
  rw [h1, key]
  unfold newRow at hr
  rw [if_pos rfl] at hr
  dsimp only at hr
  obtain ⟨o, ho, rfl⟩ := Option.map_eq_some_iff.1 hr
  rw [← hout o ho]
  refine and_congr_right fun _ => ?_
  split
  · constructor
    · rintro rfl; exact ⟨0, by omega, rfl⟩
    · rintro ⟨t, ht, hv⟩
      obtain rfl | rfl : t = 0 ∨ t = 1 := by omega
      · exact hv
      · have : ((2 * (c / 2) + 1 : Nat) : Int) = -1 := hv
        omega
  · constructor
    · rintro rfl; exact ⟨1, by omega, rfl⟩
    · rintro ⟨t, ht, hv⟩
      obtain rfl | rfl : t = 0 ∨ t = 1 := by omega
      · have : ((2 * (c / 2) : Nat) : Int) = -1 := hv
        omega
      · exact hv

/-! Triangles -/

section triangles

variable {n : Nat} {m : Nat → Nat → Nat} {A B : Level} (hA : A.Ok 2 n) (hR : Refines 2 n m A B)

/-- Vertex number `e` of the cell `i`, and the new vertex on the edge `e`. -/
private def corner (A : Level) (i e : Nat) : Nat := (A.cells.getD i []).getD e 0
private def middle (m : Nat → Nat → Nat) (A : Level) (i e : Nat) : Nat := m (corner A i e) (corner A i ((e + 1) % 3))

include hA hR

private theorem facts2 (i e : Nat) (hi : i < A.cells.length) (he : e < 3) :
    corner A i e < n ∧ corner A i e ≠ corner A i ((e + 1) % 3) ∧ IsEdge A.cells (corner A i e) (corner A i ((e + 1) % 3)) ∧ n ≤ middle m A i e := by
  have hc : A.cells.getD i [] ∈ A.cells := by rw [List.getD_eq_getElem _ _ hi]; exact List.getElem_mem _
  have hm := hA.conf.mesh _ hc
  unfold middle corner
  obtain ⟨v0, v1, v2, q⟩ := length3' _ hm.1
  rw [q] at hm hc ⊢
  have hn := hm.2.1
  simp at hn
  have h0 := hm.2.2 v0 (by simp)
  have h1 := hm.2.2 v1 (by simp)
  have h2 := hm.2.2 v2 (by simp)
  have e01 : IsEdge A.cells v0 v1 := ⟨hn.1.1, _, hc, by simp, by simp⟩
  have e12 : IsEdge A.cells v1 v2 := ⟨hn.2, _, hc, by simp, by simp⟩
  have e20 : IsEdge A.cells v2 v0 := ⟨Ne.symm hn.1.2, _, hc, by simp, by simp⟩
  obtain rfl | rfl | rfl : e = 0 ∨ e = 1 ∨ e = 2 := by omega
  · exact ⟨h0, hn.1.1, e01, hR.range _ _ e01⟩
  · exact ⟨h1, hn.2, e12, hR.range _ _ e12⟩
  · exact ⟨h2, Ne.symm hn.1.2, e20, hR.range _ _ e20⟩

private theorem sides2 (i e : Nat) (hi : i < A.cells.length) (he : e < 3) :
    side 2 (B.cells.getD (4 * i + e) []) 0 = [corner A i e, middle m A i e] ∧
    side 2 (B.cells.getD (4 * i + (e + 1) % 3) []) 2 = [middle m A i e, corner A i ((e + 1) % 3)] ∧
    side 2 (B.cells.getD (4 * i + e) []) 1 = [middle m A i e, middle m A i ((e + 2) % 3)] ∧
    side 2 (B.cells.getD (4 * i + 3) []) e = [middle m A i e, middle m A i ((e + 1) % 3)] := by
  have h0 := child (Or.inr rfl) hR i 0 hi (by decide)
  have h1 := child (Or.inr rfl) hR i 1 hi (by decide)
  have h2 := child (Or.inr rfl) hR i 2 hi (by decide)
  have h3 := child (Or.inr rfl) hR i 3 hi (by decide)
  simp only [show (2 : Nat) ^ 2 = 4 by rfl] at h0 h1 h2 h3
  have hs := hR.symm (corner A i 0) (corner A i 2)
  obtain rfl | rfl | rfl : e = 0 ∨ e = 1 ∨ e = 2 := by omega
  · refine ⟨?_, ?_, ?_, ?_⟩
    · rw [h0]; rfl
    · rw [show (0 + 1) % 3 = 1 by rfl, h1]; rfl
    · rw [h0]; show [m (corner A i 0) (corner A i 1), m (corner A i 0) (corner A i 2)] = _; rw [hs]; rfl
    · rw [h3]; rfl
  · refine ⟨?_, ?_, ?_, ?_⟩
    · rw [h1]; rfl
    · rw [show (1 + 1) % 3 = 2 by rfl, h2]; rfl
    · rw [h1]; rfl
    · rw [h3]; show [m (corner A i 1) (corner A i 2), m (corner A i 0) (corner A i 2)] = _; rw [hs]; rfl
  · refine ⟨?_, ?_, ?_, ?_⟩
    · rw [h2]; show [corner A i 2, m (corner A i 0) (corner A i 2)] = _; rw [hs]; rfl
    · rw [show (2 + 1) % 3 = 0 by rfl, h0]; show [m (corner A i 0) (corner A i 2), corner A i 0] = _; rw [hs]; rfl
    · rw [h2]; show [m (corner A i 0) (corner A i 2), m (corner A i 1) (corner A i 2)] = _; rw [hs]; rfl
    · rw [h3]; show [m (corner A i 0) (corner A i 2), m (corner A i 0) (corner A i 1)] = _; rw [hs]; rfl

omit hA hR in
/-- The two halves of the edge `e` of the cell `i`: new cell, number of its edge, and the old vertex. -/
private def half (i e : Nat) (b : Bool) : Nat × Nat := if b then (4 * i + (e + 1) % 3, 2) else (4 * i + e, 0)

omit hA hR in
private def tip (A : Level) (i e : Nat) (b : Bool) : Nat := if b then corner A i ((e + 1) % 3) else corner A i e

private theorem half_side (i e : Nat) (b : Bool) (hi : i < A.cells.length) (he : e < 3) :
    (side 2 (B.cells.getD (half i e b).1 []) (half i e b).2).Perm [tip A i e b, middle m A i e] := by
  obtain ⟨h1, h2, _, _⟩ := sides2 hA hR i e hi he
  cases b
  · show (side 2 (B.cells.getD (4 * i + e) []) 0).Perm [corner A i e, _]
    rw [h1]
  · show (side 2 (B.cells.getD (4 * i + (e + 1) % 3) []) 2).Perm [corner A i ((e + 1) % 3), _]
    rw [h2]
    exact List.Perm.swap _ _ _

omit hA hR in
private theorem half_range (hlen : B.cells.length = 4 * A.cells.length) (i e : Nat) (b : Bool) (hi : i < A.cells.length) (he : e < 3) :
    (half i e b).1 < B.cells.length ∧ (half i e b).2 < 2 + 1 ∧ (half i e b).1 / 4 = i := by
  cases b <;> simp [half] <;> omega

/-- Every side of a new cell is a half of an edge or in the old cell. -/
private theorem position2 (f t : Nat) (hf : f < B.cells.length) (ht : t < 3) :
    (∃ j p b, j < A.cells.length ∧ p < 3 ∧ (f, t) = half j p b) ∨ ∃ x y, side 2 (B.cells.getD f []) t = [x, y] ∧ n ≤ x ∧ n ≤ y := by
  have hlen : B.cells.length = 4 * A.cells.length := len' (Or.inr rfl) hR
  have hj : f / 4 < A.cells.length := by omega
  by_cases hs : f % 4 = 3
  · right
    obtain ⟨_, _, _, h⟩ := sides2 hA hR (f / 4) t hj ht
    rw [show 4 * (f / 4) + 3 = f by omega] at h
    exact ⟨_, _, h, (facts2 hA hR (f / 4) t hj ht).2.2.2, (facts2 hA hR (f / 4) _ hj (Nat.mod_lt _ (by omega))).2.2.2⟩
  · obtain rfl | rfl | rfl : t = 0 ∨ t = 1 ∨ t = 2 := by omega
    · left
      refine ⟨f / 4, f % 4, false, hj, by omega, ?_⟩
      simp only [half, Bool.false_eq_true, if_false]
      exact Prod.ext (by dsimp only; omega) rfl
    · right
      obtain ⟨_, _, h, _⟩ := sides2 hA hR (f / 4) (f % 4) hj (by omega)
      rw [show 4 * (f / 4) + f % 4 = f by omega] at h
      exact ⟨_, _, h, (facts2 hA hR (f / 4) _ hj (by omega)).2.2.2, (facts2 hA hR (f / 4) _ hj (Nat.mod_lt _ (by omega))).2.2.2⟩
    · left
      refine ⟨f / 4, (f % 4 + 2) % 3, true, hj, by omega, ?_⟩
      simp only [half, if_true]
      exact Prod.ext (by dsimp only; omega) rfl

private theorem meets2 (hO : Oriented 2 A.cells) (i e j p : Nat) (b : Bool) (h : Meets 2 A.cells (i, e) (j, p)) : Meets 2 B.cells (half i e b) (half j p !b) := by
  have hi := h.left.1; have he := h.left.2; have hj := h.right.1; have hp := h.right.2
  dsimp only at hi he hj hp
  have hlen : B.cells.length = 4 * A.cells.length := len' (Or.inr rfl) hR
  have t1 : corner A j p = corner A i ((e + 1) % 3) := hO.turn rfl i e j p h
  have hs : [corner A i e, corner A i ((e + 1) % 3)].Perm [corner A j p, corner A j ((p + 1) % 3)] := h.same
  have t2 : corner A j ((p + 1) % 3) = corner A i e := by
    have := hs.trans (List.Perm.swap _ _ [])
    rw [t1] at this
    have h2 := this.symm.mem_iff (a := corner A j ((p + 1) % 3))
    have h3 := hs.mem_iff (a := corner A i e)
    have h4 := (facts2 hA hR i e hi he).2.1
    rw [t1] at h3
    simp only [List.mem_cons, List.not_mem_nil, or_false, true_or, true_iff] at h2 h3
    rcases h3 with h3 | h3
    · exact absurd h3 h4
    · exact h3.symm
  have t3 : middle m A j p = middle m A i e := by
    unfold middle
    rw [t1, t2, hR.symm]
  have t4 : tip A j p (!b) = tip A i e b := by
    cases b
    · exact t2
    · exact t1
  refine ⟨⟨(half_range hlen i e b hi he).1, (half_range hlen i e b hi he).2.1⟩, ⟨(half_range hlen j p _ hj hp).1, (half_range hlen j p _ hj hp).2.1⟩, ?_, ?_⟩
  · intro q
    have := congrArg Prod.snd q
    cases b <;> simp [half] at this
  · refine (half_side hA hR i e b hi he).trans ?_
    rw [← t3, ← t4]
    exact (half_side hA hR j p _ hj hp).symm

private theorem free2 (i e : Nat) (b : Bool) (hi : i < A.cells.length) (he : e < 3) (h : ∀ q, ¬ Meets 2 A.cells (i, e) q) (q : Nat × Nat) :
    ¬ Meets 2 B.cells (half i e b) q := by
  intro hq
  have hq1 := hq.right.1; have hq2 := hq.right.2
  have tipn : ∀ i e b, i < A.cells.length → e < 3 → tip A i e b < n := by
    intro i e b hi he
    cases b
    · exact (facts2 hA hR i e hi he).1
    · exact (facts2 hA hR i _ hi (Nat.mod_lt _ (by omega))).1
  have s1 := half_side hA hR i e b hi he
  obtain ⟨f, t⟩ := q
  have ti := tipn i e b hi he
  obtain ⟨_, hne, hE, hmi⟩ := facts2 hA hR i e hi he
  rcases position2 hA hR f t hq1 hq2 with ⟨j, p, b', hj, hp, q⟩ | ⟨x, y, h1, h2, h3⟩
  · have s2 := half_side hA hR j p b' hj hp
    have hs := hq.same
    rw [q] at hs
    have hs := s1.symm.trans (hs.trans s2)
    have tj := tipn j p b' hj hp
    obtain ⟨_, hne', hE', hmj⟩ := facts2 hA hR j p hj hp
    have k1 := hs.mem_iff (a := tip A i e b)
    have k2 := hs.mem_iff (a := middle m A i e)
    simp only [List.mem_cons, List.not_mem_nil, or_false, true_or, or_true, true_iff] at k1 k2
    have k1 : tip A i e b = tip A j p b' := by omega
    have k2 : middle m A i e = middle m A j p := by omega
    have hperm : (side 2 (A.cells.getD i []) e).Perm (side 2 (A.cells.getD j []) p) := by
      show [corner A i e, corner A i ((e + 1) % 3)].Perm [corner A j p, corner A j ((p + 1) % 3)]
      rcases hR.inj _ _ _ _ hE hE' k2 with ⟨a1, a2⟩ | ⟨a1, a2⟩
      · rw [a1, a2]
      · rw [a1, a2]; exact List.Perm.swap _ _ _
    by_cases hip : (i, e) = (j, p)
    · cases hip
      by_cases hb : b = b'
      · exact hq.ne (by rw [q, hb])
      · cases b <;> cases b' <;> simp [tip] at k1 hb
        · exact hne k1
        · exact hne k1.symm
    · exact h (j, p) ⟨⟨hi, he⟩, ⟨hj, hp⟩, hip, hperm⟩
  · have hs := s1.symm.trans hq.same
    dsimp only at hs
    rw [h1] at hs
    have := hs.mem_iff (a := tip A i e b)
    simp only [List.mem_cons, List.not_mem_nil, or_false, true_or, true_iff] at this
    omega

private theorem row2 {keys : List Nat} {conn : Nat → List Int} (hO : Oriented 2 A.cells) (hk : ∀ c ∈ keys, c < A.cells.length) (hl : Linked 2 A.cells keys conn)
    (c : Nat) (hc : c ∈ childKeys 2 keys) : ∃ row, newRow 2 conn c = some row ∧ RowOk 2 B.cells (childKeys 2 keys) c row := by
  rw [mem_childKeys] at hc
  have hi := hk _ hc
  have hlen : B.cells.length = 4 * A.cells.length := len' (Or.inr rfl) hR
  rw [show (2 : Nat) ^ 2 = 4 by rfl] at hc hi
  have key : ∀ x, x ∈ childKeys 2 keys ↔ x / 4 ∈ keys := fun x => by rw [mem_childKeys]; exact Iff.rfl
  have inner : ∀ e, e < 3 → Meets 2 B.cells (4 * (c / 4) + e, 1) (4 * (c / 4) + 3, (e + 2) % 3) := by
    intro e he
    refine ⟨⟨by dsimp only; omega, by dsimp only; omega⟩, ⟨by dsimp only; omega, by dsimp only; omega⟩, fun q => ?_, ?_⟩
    · have := congrArg Prod.fst q
      dsimp only at this
      omega
    · dsimp only
      rw [(sides2 hA hR (c / 4) e hi he).2.2.1, (sides2 hA hR (c / 4) ((e + 2) % 3) hi (by omega)).2.2.2, show ((e + 2) % 3 + 1) % 3 = e by omega]
      exact List.Perm.swap _ _ _
  have inKeys : ∀ s, s < 4 → 4 * (c / 4) + s ∈ childKeys 2 keys := fun s hs => by
    rw [key, show (4 * (c / 4) + s) / 4 = c / 4 by omega]; exact hc
  have out : ∀ e, e < 3 → ∃ o, outer2 conn (c / 4) e = some o ∧ ∀ b : Bool, (((∀ q, ¬ Meets 2 B.cells (half (c / 4) e b) q) ∧ (if b then o.1 else o.2) = -1) ∨
      ∃ q, Meets 2 B.cells (half (c / 4) e b) q ∧ (if b then o.1 else o.2) = if q.1 ∈ childKeys 2 keys then (q.1 : Int) else -2) := by
    intro e he
    rcases outer2_eq hO hk hl hc he with ⟨h1, h2⟩ | ⟨j, p, h1, h2⟩
    · exact ⟨_, h2, fun b => Or.inl ⟨free2 hA hR (c / 4) e b hi he h1, by cases b <;> rfl⟩⟩
    · have hp := h1.right.2
      have hj := h1.right.1
      dsimp only at hp hj
      refine ⟨_, h2, fun b => Or.inr ⟨half j p !b, meets2 hA hR hO _ _ j p b h1, ?_⟩⟩
      have := (half_range hlen j p (!b) hj hp).2.2
      simp only [key, this]
      cases b <;> simp [half]
  by_cases h3 : c % 4 = 3
  · refine ⟨[(4 * (c / 4) + 1 : Nat), (4 * (c / 4) + 2 : Nat), (4 * (c / 4) : Nat)], by unfold newRow; rw [if_neg (by decide)]; dsimp only; rw [if_pos h3], rfl, fun t ht => Or.inr ?_⟩
    have := (inner ((t + 1) % 3) (by omega)).swap
    rw [show 4 * (c / 4) + 3 = c by omega, show ((t + 1) % 3 + 2) % 3 = t by omega] at this
    refine ⟨_, this, ?_⟩
    dsimp only
    rw [if_pos (inKeys _ (by omega))]
    obtain rfl | rfl | rfl : t = 0 ∨ t = 1 ∨ t = 2 := by omega
    all_goals rfl
  · obtain ⟨a, ha, hva⟩ := out (c % 4) (by omega)
    obtain ⟨b, hb, hvb⟩ := out ((c % 4 + 2) % 3) (by omega)
    refine ⟨[a.2, (4 * (c / 4) + 3 : Nat), b.1], by unfold newRow; rw [if_neg (by decide)]; dsimp only; rw [if_neg h3, ha, hb]; rfl, rfl, fun t ht => ?_⟩
    obtain rfl | rfl | rfl : t = 0 ∨ t = 1 ∨ t = 2 := by omega
    · have := hva false
      rw [show half (c / 4) (c % 4) false = (c, 0) by simp only [half, Bool.false_eq_true, if_false]; exact Prod.ext (by dsimp only; omega) rfl] at this
      exact this
    · right
      have := inner (c % 4) (by omega)
      rw [show 4 * (c / 4) + c % 4 = c by omega] at this
      refine ⟨_, this, ?_⟩
      dsimp only
      rw [if_pos (inKeys _ (by omega))]
      rfl
    · have := hvb true
      rw [show half (c / 4) ((c % 4 + 2) % 3) true = (c, 2) by simp only [half, if_true]; exact Prod.ext (by dsimp only; omega) rfl] at this
      exact this

end triangles

private theorem boundary2 {keys : List Nat} {conn : Nat → List Int} (c : Nat) (row : List Int) (hr : newRow 2 conn c = some row) :
    c ∈ newBoundary 2 keys conn ↔ c ∈ childKeys 2 keys ∧ ∃ t < 3, row.getD t 0 = -1 := by
  have key : ∀ x, x ∈ childKeys 2 keys ↔ x / 4 ∈ keys := fun x => by rw [mem_childKeys]; exact Iff.rfl
  have hout : ∀ e o, outer2 conn (c / 4) e = some o → ((o.1 = -1 ↔ (conn (c / 4)).getD e 0 = -1) ∧ (o.2 = -1 ↔ (conn (c / 4)).getD e 0 = -1)) := by
    intro e o ho
    unfold outer2 at ho
    dsimp only at ho
    generalize (conn (c / 4)).getD e 0 = j at *
    split at ho
    · obtain ⟨p, -, rfl⟩ := Option.map_eq_some_iff.1 ho
      constructor
      · dsimp only; omega
      · have : 0 ≤ Int.ofNat ((1 + p) % 3) := Int.natCast_nonneg _
        dsimp only
        omega
    · split at ho <;> · injection ho with ho; subst ho; simp_all
  have h1 : c ∈ newBoundary 2 keys conn ↔ c / 4 ∈ keys ∧ ∃ e < 3, (conn (c / 4)).getD e 0 = -1 ∧ (c % 4 = e ∨ c % 4 = (e + 1) % 3) := by
    unfold newBoundary
    simp only [List.mem_flatMap, List.mem_filter, List.mem_range, decide_eq_true_eq, show ¬ (2 = 1) by decide, if_false, List.mem_cons, List.not_mem_nil, or_false]
    constructor
    · rintro ⟨i, hi, e, ⟨he, hv⟩, hq⟩
      have hci : c / 4 = i := by omega
      rw [hci]
      exact ⟨hi, e, he, hv, by omega⟩
    · rintro ⟨hi, e, he, hv, hq⟩
      exact ⟨c / 4, hi, e, ⟨he, hv⟩, by omega⟩
  rw [h1, key]
  unfold newRow at hr
  rw [if_neg (by decide)] at hr
  dsimp only at hr
  refine and_congr_right fun _ => ?_
  by_cases h3 : c % 4 = 3
  · rw [if_pos h3] at hr
    injection hr with hr
    subst hr
    constructor
    · rintro ⟨e, he, _, hq⟩; omega
    · rintro ⟨t, ht, hv⟩
      exfalso
      obtain rfl | rfl | rfl : t = 0 ∨ t = 1 ∨ t = 2 := by omega
      · have : ((4 * (c / 4) + 1 : Nat) : Int) = -1 := hv
        omega
      · have : ((4 * (c / 4) + 2 : Nat) : Int) = -1 := hv
        omega
      · have : ((4 * (c / 4) : Nat) : Int) = -1 := hv
        omega
  · rw [if_neg h3] at hr
    obtain ⟨a, ha, hr⟩ := Option.bind_eq_some_iff.1 hr
    obtain ⟨b, hb, rfl⟩ := Option.map_eq_some_iff.1 hr
    constructor
    · rintro ⟨e, he, hv, hq | hq⟩
      · exact ⟨0, by omega, (hout _ _ ha).2.2 (by rw [hq]; exact hv)⟩
      · exact ⟨2, by omega, (hout _ _ hb).1.2 (by rw [show (c % 4 + 2) % 3 = e by omega]; exact hv)⟩
    · rintro ⟨t, ht, hv⟩
      obtain rfl | rfl | rfl : t = 0 ∨ t = 1 ∨ t = 2 := by omega
      · exact ⟨c % 4, by omega, (hout _ _ ha).2.1 hv, Or.inl rfl⟩
      · have : ((4 * (c / 4) + 3 : Nat) : Int) = -1 := hv
        omega
      · exact ⟨(c % 4 + 2) % 3, by omega, (hout _ _ hb).1.1 hv, by omega⟩

/-! Both dimensions -/

private theorem rows_linked {dim n : Nat} {cells : List (List Nat)} {new keys : List Nat} {row : Nat → List Int} (hc : Conforming dim n cells)
    (hsub : ∀ c ∈ keys, c ∈ new) (hr : ∀ c ∈ new, RowOk dim cells new c (row c)) : Linked dim cells keys fun c => pruneRow dim keys (row c) := by
  have val : ∀ c t, t < dim + 1 → (pruneRow dim keys (row c)).getD t 0 =
      if (row c).getD t 0 = -1 ∨ (0 ≤ (row c).getD t 0 ∧ ((row c).getD t 0).toNat ∈ keys) then (row c).getD t 0 else -2 := by
    intro c t ht
    unfold pruneRow
    rw [List.getD_eq_getElem _ _ (by simpa using ht), List.getElem_map, List.getElem_range]
  refine ⟨fun i _ => by unfold pruneRow; simp, fun i hi t q hq => ?_, fun i hi t ht hq => ?_⟩
  · have ht := hq.left.2
    rw [val i t ht]
    rcases (hr i (hsub i hi)).2 t ht with ⟨h1, _⟩ | ⟨q', h1, h2⟩
    · exact absurd hq (h1 q)
    · have := hc.two _ _ _ hq h1
      subst this
      rw [h2]
      by_cases hk : q.1 ∈ keys
      · rw [if_pos (hsub _ hk), if_pos (Or.inr ⟨Int.natCast_nonneg _, by simpa using hk⟩), if_pos hk]
      · rw [if_neg hk]
        by_cases hn : q.1 ∈ new
        · rw [if_pos hn, if_neg]
          rintro (h | ⟨_, h⟩)
          · omega
          · exact hk (by simpa using h)
        · rw [if_neg hn, if_neg]
          rintro (h | ⟨h, _⟩) <;> omega
  · rw [val i t ht]
    rcases (hr i (hsub i hi)).2 t ht with ⟨_, h1⟩ | ⟨q', h1, _⟩
    · rw [h1]; rfl
    · exact absurd h1 (hq q')

/-- Sides that belong to one cell have a boundary vertex. -/
def Level.Framed (dim : Nat) (L : Level) : Prop := ∀ i m, i < L.cells.length → m < dim + 1 → (∀ q, ¬ Meets dim L.cells (i, m) q) →
  ∃ v ∈ side dim (L.cells.getD i []) m, v ∈ L.boundary

/-- What is true of every mesh of the hierarchy. -/
structure Level.Good (dim n : Nat) (L : Level) : Prop extends L.Ok dim n where
  oriented : Oriented dim L.cells
  framed : L.Framed dim

/-- A hierarchy of meshes. -/
def Chain (dim : Nat) : Level → List Level → Prop
  | _, [] => True
  | A, B :: Ls => (∃ n m, A.Good dim n ∧ Refines dim n m A B) ∧ (∃ n, B.Good dim n) ∧ Chain dim B Ls

/-- The state describes the mesh and has at least `k` layers. -/
private structure Holds (dim k : Nat) (L : Level) (s : State) : Prop where
  range : ∀ c ∈ s.keys, c < L.cells.length
  layers : ∀ c, L.Within k c → c ∈ s.keys
  links : Linked dim L.cells s.keys s.conn
  boundary : ∀ c, c ∈ s.boundary ↔ Outermost dim L.cells c

private theorem side_subset {dim n : Nat} (hd : dim = 1 ∨ dim = 2) {cells : List (List Nat)} (hm : IsMesh dim n cells) (i m : Nat) (hi : i < cells.length) (hk : m < dim + 1) :
    ∀ v ∈ side dim (cells.getD i []) m, v ∈ cells.getD i [] := by
  have hc : cells.getD i [] ∈ cells := by rw [List.getD_eq_getElem _ _ hi]; exact List.getElem_mem _
  have hl := (hm _ hc).1
  have mem : ∀ j, j < dim + 1 → (cells.getD i []).getD j 0 ∈ cells.getD i [] := fun j hj => by
    rw [List.getD_eq_getElem (cells.getD i []) 0 (by omega)]; exact List.getElem_mem _
  intro v hv
  rcases hd with rfl | rfl
  · have : v = (cells.getD i []).getD m 0 := List.mem_singleton.1 hv
    rw [this]; exact mem m hk
  · have : v = (cells.getD i []).getD m 0 ∨ v = (cells.getD i []).getD ((m + 1) % 3) 0 := by
      have := List.mem_cons.1 hv
      rcases this with h | h
      · exact Or.inl h
      · exact Or.inr (List.mem_singleton.1 h)
    rcases this with h | h
    · rw [h]; exact mem m hk
    · rw [h]; exact mem _ (by omega)

private theorem refine_spec {dim n n' depth after d k : Nat} {m : Nat → Nat → Nat} {A B : Level} (hd : dim = 1 ∨ dim = 2) (hA : A.Good dim n) (hB : B.Good dim n')
    (hR : Refines dim n m A B) {s : State} (hs : Holds dim k A s) (hl : layersKept depth after = some d) (h1 : 1 ≤ d) (h2 : d ≤ 2 * k) :
    ∃ s', s.refine dim depth after (fun c => B.cells.getD c []) B.boundary = some s' ∧ (∀ c, c ∈ s'.keys ↔ B.Within d c) ∧ Holds dim d B s' := by
  have hp : 0 < 2 ^ dim := Nat.two_pow_pos dim
  have inB : ∀ c ∈ childKeys dim s.keys, c < B.cells.length := by
    intro c hc
    rw [mem_childKeys] at hc
    rw [len' hd hR]
    have := hs.range _ hc
    exact (Nat.div_lt_iff_lt_mul hp).1 this |>.trans_eq (Nat.mul_comm _ _)
  have wide : ∀ c, B.Within (2 * k) c → c ∈ childKeys dim s.keys := by
    intro c hc
    rw [mem_childKeys]
    exact hs.layers _ (coarse_layer hd hA.toOk hR k c (hc.key fun c h => h.1) hc)
  have rows : ∀ c ∈ childKeys dim s.keys, ∃ row, newRow dim s.conn c = some row ∧ RowOk dim B.cells (childKeys dim s.keys) c row := by
    rcases hd with rfl | rfl
    · exact fun c hc => row1 hA.toOk hR hA.oriented hs.range hs.links c hc
    · exact fun c hc => row2 hA.toOk hR hA.oriented hs.range hs.links c hc
  obtain ⟨keys, hk1, hk2⟩ := refineKeys_spec (keys := s.keys) hB.toOk inB hl h1 fun c hc => wide c (hc.mono h2)
  have hsub : ∀ c ∈ keys, c ∈ childKeys dim s.keys := fun c hc => wide c (((hk2 c).1 hc).mono h2)
  refine ⟨⟨keys, fun c => pruneRow dim keys ((newRow dim s.conn c).getD []), newBoundary dim s.keys s.conn⟩, ?_, hk2, ?_⟩
  · unfold State.refine
    rw [if_pos, hk1]
    · rfl
    · rw [List.all_eq_true]
      intro c hc
      obtain ⟨row, h, _⟩ := rows c hc
      rw [h]; rfl
  · refine ⟨fun c hc => inB c (hsub c hc), fun c hc => (hk2 c).2 hc, ?_, fun c => ?_⟩
    · refine rows_linked (new := childKeys dim s.keys) hB.conf hsub fun c hc => ?_
      obtain ⟨row, h, h'⟩ := rows c hc
      rw [h]; exact h'
    · have minus : c ∈ childKeys dim s.keys → (c ∈ newBoundary dim s.keys s.conn ↔ ∃ t < dim + 1, ∀ q, ¬ Meets dim B.cells (c, t) q) := by
        intro hc
        obtain ⟨row, h, hok⟩ := rows c hc
        have : c ∈ newBoundary dim s.keys s.conn ↔ c ∈ childKeys dim s.keys ∧ ∃ t < dim + 1, row.getD t 0 = -1 := by
          rcases hd with rfl | rfl
          · exact boundary1 c row h
          · exact boundary2 c row h
        rw [this]
        constructor
        · rintro ⟨_, t, ht, hv⟩
          refine ⟨t, ht, ?_⟩
          rcases hok.2 t ht with ⟨h1, _⟩ | ⟨q, _, h2⟩
          · exact h1
          · rw [hv] at h2
            split at h2 <;> omega
        · rintro ⟨t, ht, hq⟩
          refine ⟨hc, t, ht, ?_⟩
          rcases hok.2 t ht with ⟨_, h1⟩ | ⟨q, h1, _⟩
          · exact h1
          · exact absurd h1 (hq q)
      constructor
      · intro hc
        have hc' : c ∈ childKeys dim s.keys := by
          rw [mem_childKeys]
          unfold newBoundary at hc
          obtain ⟨i, hi, hc⟩ := List.mem_flatMap.1 hc
          obtain ⟨e, he, hc⟩ := List.mem_flatMap.1 hc
          have he := List.mem_range.1 (List.mem_filter.1 he).1
          rcases hd with rfl | rfl
          · rw [if_pos rfl, List.mem_singleton] at hc
            rw [hc, show (2 * i + e) / 2 ^ 1 = i by omega]; exact hi
          · rw [if_neg (by decide)] at hc
            simp only [List.mem_cons, List.not_mem_nil, or_false] at hc
            rw [show c / 2 ^ 2 = i by omega]; exact hi
        exact ⟨inB c hc', (minus hc').1 hc⟩
      · rintro ⟨hc, t, ht, hq⟩
        obtain ⟨v, hv, hvb⟩ := hB.framed c t hc ht hq
        have : B.Within 1 c := Or.inl ⟨hc, v, hvb, side_subset hd hB.conf.mesh c t hc ht v hv⟩
        exact (minus (wide c (this.mono (by omega)))).2 ⟨t, ht, hq⟩

private theorem kept_some (depth r : Nat) (hr : 1 ≤ r) : layersKept depth r = some ((depth + r - 1) / r) := by
  unfold layersKept; rw [if_neg (by omega)]

private theorem chain_spec {dim depth : Nat} (hd : dim = 1 ∨ dim = 2) (hdepth : 1 ≤ depth) : ∀ (Ls : List Level) (A : Level) (r k : Nat) (s : State), Chain dim A Ls →
    Ls.length ≤ r → Holds dim k A s → (Ls ≠ [] → (depth + r - 1) / r ≤ 2 * k) →
    ∃ s', s.refineAll dim depth r (Ls.map fun L => ((fun c => L.cells.getD c []), L.boundary)) = some s' ∧
      (Ls ≠ [] → (∀ c, c ∈ s'.keys ↔ (Ls.getLastD A).Within ((depth + (r - Ls.length + 1) - 1) / (r - Ls.length + 1)) c)) ∧
      Linked dim (Ls.getLastD A).cells s'.keys s'.conn ∧ ∀ c, c ∈ s'.boundary ↔ Outermost dim (Ls.getLastD A).cells c := by
  intro Ls
  induction Ls with
  | nil => intro A r k s _ _ hs _; exact ⟨s, rfl, fun h => absurd rfl h, hs.links, hs.boundary⟩
  | cons B Ls ih =>
    intro A r k s hC hr hs hk
    obtain ⟨⟨n, m, hA, hR⟩, ⟨n', hB⟩, hC'⟩ := hC
    have hr1 : 1 ≤ r := by simp at hr; omega
    have hpos : 1 ≤ (depth + r - 1) / r := (Nat.le_div_iff_mul_le (by omega)).2 (by omega)
    obtain ⟨s1, h1, h2, h3⟩ := refine_spec hd hA hB hR hs (kept_some depth r hr1) hpos (hk (by simp))
    obtain ⟨s', h4, h5, h6, h7⟩ := ih B (r - 1) _ s1 hC' (by simp at hr; omega) h3 (fun hne => by
      have hr2 : 2 ≤ r := by
        cases Ls with
        | nil => exact absurd rfl hne
        | cons L Ls => simp at hr; omega
      have := ceil_step depth (r - 1) (by omega)
      rwa [show r - 1 + 1 = r by omega] at this)
    refine ⟨s', ?_, fun _ => ?_, ?_⟩
    · simp only [List.map_cons]
      unfold State.refineAll
      dsimp only
      rw [h1]
      exact h4
    · cases Ls with
      | nil =>
        simp only [List.map_nil, State.refineAll, Option.some.injEq] at h4
        subst h4
        have e : r - [B].length + 1 = r := by simp; omega
        rw [e]
        exact h2
      | cons L Ls =>
        have := h5 (by simp)
        rw [show r - (B :: L :: Ls).length + 1 = r - 1 - (L :: Ls).length + 1 by simp; omega]
        exact this
    · cases Ls with
      | nil => exact ⟨h6, h7⟩
      | cons L Ls => exact ⟨h6, h7⟩

/-- Intervals and triangles: after some refinements, no more than `afterRefinements`, the cells that are kept are exactly those of the first layers of the
refined mesh, their number is the quotient of the depth and the number of refinements that were left, rounded up; the connectivity and
the boundary cells are those of the refined mesh. -/
theorem refined {dim depth : Nat} (hd : dim = 1 ∨ dim = 2) (hdepth : 1 ≤ depth) (A : Level) (Ls : List Level) (r : Nat) (hC : Chain dim A Ls) (hr : Ls.length ≤ r) (hne : Ls ≠ []) :
    ∃ s, (State.init dim A.cells).refineAll dim depth r (Ls.map fun L => ((fun c => L.cells.getD c []), L.boundary)) = some s ∧
      (∀ c, c ∈ s.keys ↔ (Ls.getLastD A).Within ((depth + (r - Ls.length)) / (r - Ls.length + 1)) c) ∧
      Linked dim (Ls.getLastD A).cells s.keys s.conn ∧ ∀ c, c ∈ s.boundary ↔ Outermost dim (Ls.getLastD A).cells c := by
  have hd' : dim = 1 ∨ dim = 2 ∨ dim = 3 := by omega
  obtain ⟨n, hA⟩ : ∃ n, A.Good dim n := by
    cases Ls with
    | nil => exact absurd rfl hne
    | cons B Ls => obtain ⟨⟨n, m, h, _⟩, _⟩ := hC; exact ⟨n, h⟩
  have hs : Holds dim depth A (State.init dim A.cells) :=
    ⟨fun c hc => List.mem_range.1 hc, fun c hc => List.mem_range.2 (hc.key fun c h => h.1), connectivity hd hA.conf, boundary_cells hd' hA.conf⟩
  obtain ⟨s, h1, h2, h3, h4⟩ := chain_spec hd hdepth Ls A r depth _ hC hr hs fun _ => by
    have hr1 : 1 ≤ r := by
      cases Ls with
      | nil => exact absurd rfl hne
      | cons B Ls => simp at hr; omega
    refine Nat.div_le_of_le_mul ?_
    have : depth + r - 1 ≤ depth * r + depth * r := by
      have h1 : depth ≤ depth * r := Nat.le_mul_of_pos_right _ hr1
      have h2 : r ≤ depth * r := Nat.le_mul_of_pos_left _ hdepth
      omega
    calc depth + r - 1 ≤ depth * r + depth * r := this
      _ = r * (2 * depth) := by ring
  refine ⟨s, h1, fun c => ?_, h3, h4⟩
  have := h2 hne c
  rwa [show depth + (r - Ls.length + 1) - 1 = depth + (r - Ls.length) by omega] at this

/-- After all refinements every layer up to the depth is the layer of the whole mesh. -/
theorem refined_layers {dim depth : Nat} (hd : dim = 1 ∨ dim = 2) (hdepth : 1 ≤ depth) (A : Level) (Ls : List Level) (hC : Chain dim A Ls) (hne : Ls ≠ []) (k : Nat) (hk : k ≤ depth)
    (ofCells : List Nat) (ho : ∀ c, c ∈ ofCells ↔ (Ls.getLastD A).Touches c) :
    ∃ s ls, (State.init dim A.cells).refineAll dim depth Ls.length (Ls.map fun L => ((fun c => L.cells.getD c []), L.boundary)) = some s ∧
      getLayer s.keys (fun c => (Ls.getLastD A).cells.getD c []) k ofCells = some ls ∧ ls.length = k ∧
      ∀ j, j < k → ∀ c, c ∈ ls.getD j [] ↔ (Ls.getLastD A).Within (j + 1) c ∧ ¬ (Ls.getLastD A).Within j c := by
  obtain ⟨s, h1, h2, h3, h4⟩ := refined hd hdepth A Ls Ls.length hC le_rfl hne
  have h2 : ∀ c, c ∈ s.keys ↔ (Ls.getLastD A).Within depth c := fun c => by
    have := h2 c
    simpa using this
  have hS : ∀ c ∈ ofCells, c ∈ s.keys := fun c hc => (h2 c).2 ((show (Ls.getLastD A).Within 1 c from Or.inl ((ho c).1 hc)).mono hdepth)
  obtain ⟨ls, h5, h6, h7, _⟩ := layers (cells := fun c => (Ls.getLastD A).cells.getD c []) hS k
  refine ⟨s, ls, h1, h5, h6, fun j hj c => ?_⟩
  have hin : ∀ c ∈ s.keys, c < (Ls.getLastD A).cells.length := fun c hc => ((h2 c).1 hc).key fun c h => h.1
  have ho' : ∀ c, c ∈ ofCells ↔ c ∈ s.keys ∧ (Ls.getLastD A).Touches c := fun c => ⟨fun h => ⟨hS c h, (ho c).1 h⟩, fun h => (ho c).2 h.2⟩
  rw [h7 j hj c, near_congr ho', near_congr ho', near_restrict hin (fun c => (h2 c).2) (j + 1) (by omega), near_restrict hin (fun c => (h2 c).2) j (by omega)]

/-- Refinement of triangles by the library, with the boundary vertices at the old boundary, is a refinement in the sense of the hierarchy. -/
theorem triangles_refine {K : Type} [Field K] [LinearOrder K] [IsStrictOrderedRing K] (dim : Nat) (u : Nat → List (List K)) (hu : ∀ n, (u n).length = n) (V : List (List K)) (hV : ∀ r ∈ V, r.length = dim)
    (cells : List (List Nat)) (hc : IsMesh 2 V.length cells) (hf : FewNeighbours cells) :
    ∃ m V' cells' lookup, refine2D dim u V cells = some (V', cells', lookup) ∧ ∀ b b' : List Nat,
      (∀ v ∈ b', v ∈ b ∨ ∃ a ∈ b, ∃ e ∈ b, IsEdge cells a e ∧ v = m a e) → Refines 2 V.length m ⟨cells, b⟩ ⟨cells', b'⟩ := by
  obtain ⟨m, V', cells', lookup, h, hR, hk⟩ := ordered_triangles dim u hu V hV cells hc hf
  exact ⟨m, V', cells', lookup, h, fun b b' hb => ⟨hk, hR.symm, fun a b h => (hR.range a b h).1, hR.inj, hb⟩⟩

/-- The same for intervals. -/
theorem intervals_refine {K : Type} [Field K] [LinearOrder K] [IsStrictOrderedRing K] (dim : Nat) (u : Nat → List (List K)) (hu : ∀ n, (u n).length = n) (V : List (List K)) (hV : ∀ r ∈ V, r.length = dim)
    (cells : List (List Nat)) (hc : IsMesh 1 V.length cells) (hp : cells.Pairwise fun a b => ¬ a.Perm b) :
    ∃ m V' cells' lookup, refine1D dim u V cells = some (V', cells', lookup) ∧ ∀ b b' : List Nat,
      (∀ v ∈ b', v ∈ b ∨ ∃ a ∈ b, ∃ e ∈ b, IsEdge cells a e ∧ v = m a e) → Refines 1 V.length m ⟨cells, b⟩ ⟨cells', b'⟩ := by
  obtain ⟨m, V', cells', lookup, h, hR, hk⟩ := ordered_intervals dim u hu V hV cells hc hp
  exact ⟨m, V', cells', lookup, h, fun b b' hb => ⟨hk, hR.symm, fun a b h => (hR.range a b h).1, hR.inj, hb⟩⟩

/-- One refinement more than `afterRefinements` is an error. -/
theorem exhausted_fails (dim depth : Nat) (newCells : Nat → List Nat) (b : List Nat) (s : State) : s.refine dim depth 0 newCells b = none := by
  unfold State.refine refineKeys layersKept
  split <;> rfl

/-! ### Tetrahedra -/

/-- A tetrahedron `0 1 2 3` in the interior of a ball with boundary `4 5 6 7`: the cells of a cross-polytope without one. -/
private def ball : Level := ⟨[[0, 1, 2, 3], [4, 1, 2, 3], [0, 5, 2, 3], [4, 5, 2, 3], [0, 1, 6, 3], [4, 1, 6, 3], [0, 5, 6, 3], [4, 5, 6, 3],
  [0, 1, 2, 7], [4, 1, 2, 7], [0, 5, 2, 7], [4, 5, 2, 7], [0, 1, 6, 7], [4, 1, 6, 7], [0, 5, 6, 7]], [4, 5, 6, 7]⟩

private def mid (a b : Nat) : Nat := 8 + 8 * min a b + max a b

private def tets (c : List Nat) : List (List Nat) :=
  let v := fun i => c.getD i 0
  children3 0 (v 0) (v 1) (v 2) (v 3) (mid (v 0) (v 1)) (mid (v 0) (v 2)) (mid (v 0) (v 3)) (mid (v 1) (v 2)) (mid (v 1) (v 3)) (mid (v 2) (v 3))

private def ball' : Level := ⟨ball.cells.flatMap tets, [4, 5, 6, 7, mid 4 5, mid 4 6, mid 4 7, mid 5 6, mid 5 7, mid 6 7]⟩

/-- Tetrahedra: the cells of the first layer are not enough for two layers after one refinement, since one cell of the subdivision has vertices on opposite edges. -/
theorem tetrahedra_fails : ∃ (A B : Level) (m : Nat → Nat → Nat) (keys : List Nat), IsMesh 3 8 A.cells ∧
    B.cells = A.cells.flatMap (fun c => let v := fun i => c.getD i 0
      children3 0 (v 0) (v 1) (v 2) (v 3) (m (v 0) (v 1)) (m (v 0) (v 2)) (m (v 0) (v 3)) (m (v 1) (v 2)) (m (v 1) (v 3)) (m (v 2) (v 3))) ∧
    (∀ a b, m a b = m b a ∧ 8 ≤ m a b) ∧ (∀ a < 8, ∀ b < 8, ∀ a' < 8, ∀ b' < 8, m a b = m a' b' → (a = a' ∧ b = b') ∨ (a = b' ∧ b = a')) ∧
    (∀ v, v ∈ A.boundary ↔ ∃ i < A.cells.length, ∃ k < 4, (∀ j < A.cells.length, ∀ l < 4, ¬ Meets 3 A.cells (i, k) (j, l)) ∧ v ∈ side 3 (A.cells.getD i []) k) ∧
    (∀ c, c ∈ keys ↔ A.Within 1 c) ∧ ∃ keys' c, refineKeys 3 2 1 (fun c => B.cells.getD c []) B.boundary keys = some keys' ∧ B.Within 2 c ∧ c ∉ keys' := by
  have key : ∀ c, c ∈ (List.range 15).drop 1 ↔ ball.Within 1 c := by
    intro c
    have h1 : ∀ c < 15, ball.Within 1 c ↔ ∃ v ∈ ball.boundary, v ∈ ball.cells.getD c [] := fun c hc => by
      constructor
      · rintro (h | ⟨_, h, _⟩)
        · exact h.2
        · exact h.elim
      · exact fun h => Or.inl ⟨hc, h⟩
    by_cases hc : c < 15
    · rw [h1 c hc]
      revert c
      decide +kernel
    · constructor
      · intro h
        exact absurd (List.mem_range.1 (List.mem_of_mem_drop h)) hc
      · intro h
        exact absurd (h.key fun c h => h.1) hc
  have hall : (ball'.boundary.all fun v => !(vertex2cells (childKeys 3 ((List.range 15).drop 1)) (fun c => ball'.cells.getD c []) v).isEmpty) = true := by decide +kernel
  have ht : touching (childKeys 3 ((List.range 15).drop 1)) (fun c => ball'.cells.getD c []) ball'.boundary =
      some (ball'.boundary.flatMap (vertex2cells (childKeys 3 ((List.range 15).drop 1)) (fun c => ball'.cells.getD c []))) := by
    unfold touching
    rw [if_pos hall]
  have hsub : ∀ c ∈ ball'.boundary.flatMap (vertex2cells (childKeys 3 ((List.range 15).drop 1)) (fun c => ball'.cells.getD c [])), c ∈ childKeys 3 ((List.range 15).drop 1) := by
    intro c hc
    obtain ⟨v, _, h⟩ := List.mem_flatMap.1 hc
    exact List.mem_of_mem_filter h
  obtain ⟨ls, h1, _, _, h2⟩ := layers (cells := fun c => ball'.cells.getD c []) hsub 2
  refine ⟨ball, ball', mid, (List.range 15).drop 1, by unfold IsMesh; decide +kernel, rfl, fun a b => ⟨?_, ?_⟩, ?_, fun v => ⟨fun hv => ?_, ?_⟩, key, ls.flatten, 2, ?_, ?_, fun h => ?_⟩
  · unfold mid; rw [Nat.min_comm, Nat.max_comm]
  · unfold mid; omega
  · unfold mid; intro a _ b _ a' _ b' _ h; omega
  · revert v
    decide +kernel
  · rintro ⟨i, hi, k, hk, h, hv⟩
    have all : ∀ i < ball.cells.length, ∀ k < 4, (∀ j < ball.cells.length, ∀ l < 4, ¬ Meets 3 ball.cells (i, k) (j, l)) → ∀ v ∈ side 3 (ball.cells.getD i []) k, v ∈ ball.boundary := by
      decide +kernel
    exact all i hi k hk h v hv
  · have hl : layersKept 2 1 = some 2 := rfl
    unfold refineKeys
    simp only [hl, ht, h1, Option.bind_eq_bind, Option.bind_some]
  · refine Or.inr ⟨28, Or.inl ⟨by decide +kernel, mid 4 5, by decide +kernel, by decide +kernel⟩, by decide +kernel, mid 2 3, by decide +kernel, by decide +kernel⟩
  · have := ((h2 2).1 h).key hsub
    rw [mem_childKeys] at this
    revert this
    decide

/-! ### a case -/

/-- The conditions on a mesh as a finite check. -/
private theorem good_of_check {dim n : Nat} (s : Nat) (hs : s = dim + 1) (L : Level) (h1 : ∀ c ∈ L.cells, c.length = dim + 1 ∧ c.Nodup ∧ ∀ v ∈ c, v < n)
    (h2 : ∀ i < L.cells.length, ∀ m < s, ∀ j < L.cells.length, ∀ k < s, Meets dim L.cells (i, m) (j, k) →
      ∀ j' < L.cells.length, ∀ k' < s, Meets dim L.cells (i, m) (j', k') → (j, k) = (j', k'))
    (h5 : ∀ i < L.cells.length, ∀ m < s, ∀ j < L.cells.length, ∀ k < s, Meets dim L.cells (i, m) (j, k) → ∀ m' < s, ∀ k' < s, Meets dim L.cells (i, m') (j, k') → m = m')
    (h6 : ∀ i < L.cells.length, ∀ m < s, ∀ j < L.cells.length, ∀ k < s, Meets dim L.cells (i, m) (j, k) →
      (L.cells.getD j []).getD k 0 = (L.cells.getD i []).getD ((m + 1) % 3) 0)
    (h3 : ∀ v ∈ L.boundary, ∃ c ∈ L.cells, v ∈ c)
    (h4 : ∀ i < L.cells.length, ∀ m < s, (∀ j < L.cells.length, ∀ k < s, ¬ Meets dim L.cells (i, m) (j, k)) → ∃ v ∈ side dim (L.cells.getD i []) m, v ∈ L.boundary) :
    L.Good dim n := by
  subst hs
  refine ⟨⟨⟨h1, ?_⟩, h3⟩, ⟨?_, ?_⟩, ?_⟩
  · rintro ⟨i, m⟩ ⟨j, k⟩ ⟨j', k'⟩ h h'
    exact (h2 i h.left.1 m h.left.2 j h.right.1 k h.right.2 h) j' h'.right.1 k' h'.right.2 h'
  · intro i m j k m' k' h h'
    exact (h5 i h.left.1 m h.left.2 j h.right.1 k h.right.2 h) m' h'.left.2 k' h'.right.2 h'
  · intro _ i m j k h
    exact h6 i h.left.1 m h.left.2 j h.right.1 k h.right.2 h
  · intro i m hi hm h
    exact h4 i hi m hm fun j _ k _ => h (j, k)

private def square : Level := ⟨[[0, 1, 2], [0, 2, 3]], [0, 1, 2, 3]⟩
private def half2 (a b : Nat) : Nat := 4 + 4 * min a b + max a b
private def square' : Level := ⟨square.cells.flatMap (kids 2 half2), [0, 1, 2, 3, half2 0 1, half2 1 2, half2 2 3, half2 0 3]⟩

set_option synthInstance.maxHeartbeats 400000 in
set_option synthInstance.maxSize 2000 in
private theorem square_chain : Chain 2 square [square'] := by
  refine ⟨⟨4, half2, ?_, ⟨rfl, ?_, ?_, ?_, ?_⟩⟩, ⟨24, ?_⟩, trivial⟩
  · exact good_of_check 3 rfl _ (by decide +kernel) (by decide +kernel) (by decide +kernel) (by decide +kernel) (by decide +kernel) (by decide +kernel)
  · intro a b; unfold half2; rw [Nat.min_comm, Nat.max_comm]
  · intro a b _; unfold half2; omega
  · intro a b a' b' h h' q
    have small : ∀ a b, IsEdge square.cells a b → a < 4 ∧ b < 4 := by
      rintro a b ⟨_, c, hc, ha, hb⟩
      have : ∀ c ∈ square.cells, ∀ v ∈ c, v < 4 := by decide
      exact ⟨this c hc a ha, this c hc b hb⟩
    have h1 := small a b h
    have h2 := small a' b' h'
    unfold half2 at q
    omega
  · intro v hv
    have e : ∀ a b, (∃ c ∈ square.cells, a ∈ c ∧ b ∈ c) → a ≠ b → IsEdge square.cells a b := fun a b h1 h2 => ⟨h2, h1⟩
    have : v ∈ [0, 1, 2, 3] ∨ v = half2 0 1 ∨ v = half2 1 2 ∨ v = half2 2 3 ∨ v = half2 0 3 := by
      revert v; decide +kernel
    rcases this with h | rfl | rfl | rfl | rfl
    · exact Or.inl h
    · exact Or.inr ⟨0, by decide, 1, by decide, e _ _ (by decide) (by decide), rfl⟩
    · exact Or.inr ⟨1, by decide, 2, by decide, e _ _ (by decide) (by decide), rfl⟩
    · exact Or.inr ⟨2, by decide, 3, by decide, e _ _ (by decide) (by decide), rfl⟩
    · exact Or.inr ⟨0, by decide, 3, by decide, e _ _ (by decide) (by decide), rfl⟩
  · exact good_of_check 3 rfl _ (by decide +kernel) (by decide +kernel) (by decide +kernel) (by decide +kernel) (by decide +kernel) (by decide +kernel)

/-- A square of two triangles and its refinement. -/
theorem sample_case : Chain 2 square [square'] ∧ Conforming 2 4 square.cells ∧ (connect 2 square.cells).conn 0 = [-1, -1, 1] ∧ (connect 2 square.cells).conn 1 = [0, -1, -1] ∧
    ((State.init 2 square.cells).refineAll 2 1 1 [((fun c => square'.cells.getD c []), square'.boundary)]).map (fun s => (s.conn 0, s.conn 3, s.keys.dedup.length, s.boundary.dedup.length)) =
      some ([-1, 3, 4], [1, 2, 0], 8, 6) ∧
    (getLayer (List.range 5) (fun i => [i, i + 1]) 3 [0]).map (fun ls => ls.map List.dedup) = some [[0], [1], [2]] := by
  refine ⟨square_chain, ?_, ?_, ?_, ?_, ?_⟩
  · obtain ⟨⟨n, m, h, _⟩, _⟩ := square_chain
    exact ⟨by unfold IsMesh; decide, h.conf.two⟩
  all_goals decide +kernel

end PyNucleus.Props.C85
