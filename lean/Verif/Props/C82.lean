import Verif.Proof.SharedMesh
import Verif.Props.C42

/-!
# C82: refinement of mesh interfaces

Full statement: a mesh interface lists vertices, edges and faces shared with another subdomain, edges and faces with an order of their vertices.
Refining the mesh and the interface keeps the vertices, replaces an edge by its two halves and a face by its four quarters, each with vertices in an order
that is determined by the points of the edge or face alone; so lists of the two sides that agree before the refinement agree after it.
-/

namespace PyNucleus.Props.C82

open PyNucleus.SharedMesh PyNucleus.SimplexMapper
open PyNucleus.Props.C42 (IsMesh IsEdge FewNeighbours Refined Subdivides coords)
open PyNucleus.Props.C81 (orders)

variable {K : Type} [Field K] [LinearOrder K] [IsStrictOrderedRing K]

/-- The vertex of an entry. -/
def vertexOf (cells : List (List Nat)) (e : Nat × Nat) : Nat := (cells.getD e.1 []).getD e.2 0
/-- The vertices of an edge entry, `getEdgeVerticesGlobal`. -/
def edgeOf (cells : List (List Nat)) (e : Nat × Nat × Int) : Nat × Nat := edgeGlobal (fun i => (cells.getD e.1 []).getD i 0) e.2.1 e.2.2
/-- The vertices of a face entry, `getFaceVerticesGlobal`. -/
def faceOf (cells : List (List Nat)) (e : Nat × Nat × Int) : Nat × Nat × Nat := faceGlobal (fun i => (cells.getD e.1 []).getD i 0) e.2.1 e.2.2

/-- The entries are within the mesh. -/
structure Valid (d : Nat) (cells : List (List Nat)) (S : Shared) : Prop where
  vertices : ∀ e ∈ S.vertices, e.1 < cells.length ∧ e.2 ≤ d
  edges : ∀ e ∈ S.edges, e.1 < cells.length ∧ e.2.1 < [0, 0, 3, 6].getD d 0 ∧ (e.2.2 = 0 ∨ e.2.2 = 1)
  faces : ∀ e ∈ S.faces, e.1 < cells.length ∧ e.2.1 < [0, 0, 0, 4].getD d 0 ∧ e.2.2 ∈ orders
  cells : ∀ c ∈ S.cells, c < cells.length

/-- Midpoint of two points. -/
def middlePoint (dim : Nat) (p q : List K) : List K := (List.range dim).map fun k => (p.getD k 0 + q.getD k 0) / 2

/-- The points of a list of entries, one or more points per entry. -/
def vertexPoints (V : List (List K)) (cells : List (List Nat)) (S : Shared) : List (List K) := S.vertices.map fun e => V.getD (vertexOf cells e) []
def edgePoints (V : List (List K)) (cells : List (List Nat)) (S : Shared) : List (List K × List K) :=
  S.edges.map fun e => (V.getD (edgeOf cells e).1 [], V.getD (edgeOf cells e).2 [])
def facePoints (V : List (List K)) (cells : List (List Nat)) (S : Shared) : List (List K × List K × List K) :=
  S.faces.map fun e => (V.getD (faceOf cells e).1 [], V.getD (faceOf cells e).2.1 [], V.getD (faceOf cells e).2.2 [])
def cellPoints (V : List (List K)) (cells : List (List Nat)) (S : Shared) : List (List (List K)) := S.cells.map fun c => (cells.getD c []).map fun v => V.getD v []

/-- The halves of an edge. -/
def halves {α : Type} (m : α → α → α) (e : α × α) : List (α × α) := [(e.1, m e.1 e.2), (m e.1 e.2, e.2)]
/-- The quarters of a face. -/
def quarters {α : Type} (m : α → α → α) (f : α × α × α) : List (α × α × α) :=
  [(f.1, m f.1 f.2.1, m f.1 f.2.2), (m f.1 f.2.1, f.2.1, m f.2.1 f.2.2), (m f.1 f.2.2, m f.2.1 f.2.2, f.2.2), (m f.1 f.2.1, m f.2.1 f.2.2, m f.2.2 f.1)]

/-- The refined interface `S'` of the refined mesh lists the old vertices, the halves of the edges, the quarters of the faces and the children of the cells. -/
structure Follows (d : Nat) (X : Nat → Nat → K) (m : Nat → Nat → Nat) (cells cells' : List (List Nat)) (S S' : Shared) : Prop where
  valid : Valid d cells' S'
  vertices : S'.vertices.map (vertexOf cells') = S.vertices.map (vertexOf cells)
  edges : S'.edges.map (edgeOf cells') = S.edges.flatMap fun e => halves m (edgeOf cells e)
  faces : S'.faces.map (faceOf cells') = S.faces.flatMap fun e => quarters m (faceOf cells e)
  cells : ∃ parts, List.Forall₂ (fun c kids => Subdivides d X m (cells.getD c []) kids) S.cells parts ∧ S'.cells.map (fun c => cells'.getD c []) = parts.flatten

/-! ### helpers -/

private theorem block {α β : Type} (g : α → List β) (dα : α) (dβ : β) (s j : Nat) (hj : j < s) : ∀ (l : List α), (∀ c ∈ l, (g c).length = s) → ∀ i, i < l.length →
    (l.flatMap g).getD (s * i + j) dβ = (g (l.getD i dα)).getD j dβ := by
  intro l
  induction l with
  | nil => intro _ i hi; exact absurd hi (by simp)
  | cons a l ih =>
    intro hl i hi
    have ha := hl a (by simp)
    rw [List.flatMap_cons]
    cases i with
    | zero =>
      rw [List.getD_append _ _ _ _ (by omega)]
      simp
    | succ i =>
      have e : s * (i + 1) + j = (g a).length + (s * i + j) := by rw [ha]; ring
      rw [e, List.getD_append_right _ _ _ _ (by omega), Nat.add_sub_cancel_left]
      rw [ih (fun c hc => hl c (by simp [hc])) i (by simpa using hi)]
      simp

private theorem parts_flatten {d : Nat} {X : Nat → Nat → K} {m : Nat → Nat → Nat} {cells cells' : List (List Nat)}
    (h : ∃ parts, List.Forall₂ (Subdivides d X m) cells parts ∧ cells' = parts.flatten) (l : List Nat) (hl : ∀ c ∈ l, c < cells.length) :
    cells'.length = 2 ^ d * cells.length ∧
    ∃ parts, List.Forall₂ (fun c kids => Subdivides d X m (cells.getD c []) kids) l parts ∧ (refineCells (2 ^ d) l).map (fun c => cells'.getD c []) = parts.flatten := by
  obtain ⟨parts, hp, rfl⟩ := h
  have hlen := hp.length_eq
  have hcount : ∀ p ∈ parts, p.length = 2 ^ d := by
    intro p hpm
    obtain ⟨i, hi, rfl⟩ := List.mem_iff_getElem.1 hpm
    have := (List.forall₂_iff_get.1 hp).2 i (by omega) hi
    exact this.count
  refine ⟨?_, l.map fun c => parts.getD c [], ?_, ?_⟩
  · rw [hlen]
    clear hp hlen
    induction parts with
    | nil => rfl
    | cons a t ih =>
      rw [List.flatten_cons, List.length_append, hcount a (by simp), ih fun p hp => hcount p (by simp [hp])]
      rw [List.length_cons]; ring
  · rw [List.forall₂_map_right_iff, List.forall₂_same]
    intro c hc
    have h1 := hl c hc
    have := (List.forall₂_iff_get.1 hp).2 c h1 (by omega)
    rw [List.getD_eq_getElem _ _ h1, List.getD_eq_getElem _ _ (show c < parts.length by omega)]
    exact this
  · induction l with
    | nil => rfl
    | cons c l ih =>
      have h1 := hl c (by simp)
      have e : refineCells (2 ^ d) (c :: l) = (List.range (2 ^ d)).map (fun k => 2 ^ d * c + k) ++ refineCells (2 ^ d) l := rfl
      rw [e, List.map_append, ih fun c' h => hl c' (by simp [h]), List.map_cons, List.flatten_cons]
      congr 1
      have hpm : parts.getD c [] ∈ parts := by rw [List.getD_eq_getElem _ _ (show c < parts.length by omega)]; exact List.getElem_mem _
      apply List.ext_getElem
      · rw [List.length_map, List.length_map, List.length_range]
        exact (hcount _ hpm).symm
      · intro j h2 h3
        have hj : j < 2 ^ d := by simpa using h2
        simp only [List.getElem_map, List.getElem_range]
        have := block (fun p : List (List Nat) => p) [] [] (2 ^ d) j hj parts hcount c (by omega)
        rw [List.flatMap_id'] at this
        rw [this, List.getD_eq_getElem _ _ h3]

private theorem length1 (c : List Nat) (h : c.length = 2) : ∃ a b, c = [a, b] := by
  match c, h with | [a, b], _ => exact ⟨a, b, rfl⟩
private theorem length2 (c : List Nat) (h : c.length = 3) : ∃ a b e, c = [a, b, e] := by
  match c, h with | [a, b, e], _ => exact ⟨a, b, e, rfl⟩
theorem length3 (c : List Nat) (h : c.length = 4) : ∃ a b e f, c = [a, b, e, f] := by
  match c, h with | [a, b, e, f], _ => exact ⟨a, b, e, f, rfl⟩

private theorem refineCells_lt (s n : Nat) (l : List Nat) (hl : ∀ c ∈ l, c < n) : ∀ c ∈ refineCells s l, c < s * n := by
  intro c hc
  obtain ⟨a, ha, hc⟩ := List.mem_flatMap.1 hc
  obtain ⟨k, hk, rfl⟩ := List.mem_map.1 hc
  have := hl a ha
  have hk := List.mem_range.1 hk
  calc s * a + k < s * a + s := by omega
    _ = s * (a + 1) := by ring
    _ ≤ s * n := Nat.mul_le_mul_left _ this

private theorem map_flatMap' {α β γ : Type} (l : List α) (f : α → List β) (g : β → γ) (h : α → List γ) (e : ∀ a ∈ l, (f a).map g = h a) : (l.flatMap f).map g = l.flatMap h := by
  rw [List.map_flatMap]
  exact List.flatMap_congr e

/-! ### the interface follows the mesh -/

/-- Intervals. -/
theorem interface_intervals (dim : Nat) (u : Nat → List (List K)) (hu : ∀ n, (u n).length = n) (V : List (List K)) (hV : ∀ r ∈ V, r.length = dim) (cells : List (List Nat))
    (hc : IsMesh 1 V.length cells) (hd : cells.Pairwise fun a b => ¬ a.Perm b) (S : Shared) (hS : Valid 1 cells S) :
    ∃ m V' cells' lookup, Refine.refine1D dim u V cells = some (V', cells', lookup) ∧ Refined 1 dim V cells m V' cells' lookup ∧
      Follows 1 (coords V') m cells cells' S (refine1 S) := by
  obtain ⟨m, V', cells', lookup, h, hR, ho⟩ := C42.ordered_intervals dim u hu V hV cells hc hd
  obtain ⟨hlen, hparts⟩ := parts_flatten hR.kids S.cells hS.cells
  have hg := fun i (hi : i < cells.length) j (hj : j < 2) => block (fun c : List Nat => [[c.getD 0 0, m (c.getD 0 0) (c.getD 1 0)], [m (c.getD 0 0) (c.getD 1 0), c.getD 1 0]]) [] [] 2 j hj cells (fun _ _ => rfl) i hi
  rw [← ho] at hg
  have hE : S.edges = [] := by
    cases hE : S.edges with
    | nil => rfl
    | cons a l => exact absurd (hS.edges a (by simp [hE])).2.1 (by simp)
  have hF : S.faces = [] := by
    cases hF : S.faces with
    | nil => rfl
    | cons a l => exact absurd (hS.faces a (by simp [hF])).2.1 (by simp)
  refine ⟨m, V', cells', lookup, h, hR, ⟨?_, ?_, ?_, ?_⟩, ?_, ?_, ?_, hparts⟩
  · intro e he
    obtain ⟨v, hv, rfl⟩ := List.mem_map.1 he
    have := hS.vertices v hv
    simp only
    omega
  · intro e he; rw [show (refine1 S).edges = S.edges from rfl, hE] at he; exact absurd he (by simp)
  · intro e he; rw [show (refine1 S).faces = S.faces from rfl, hF] at he; exact absurd he (by simp)
  · rw [hlen]; exact refineCells_lt 2 _ _ hS.cells
  · show (S.vertices.map _).map _ = _
    rw [List.map_map]
    apply List.map_congr_left
    intro v hv
    obtain ⟨h1, h2⟩ := hS.vertices v hv
    obtain ⟨c, v⟩ := v
    simp only at h1 h2
    show (cells'.getD (2 * c + v) []).getD v 0 = (cells.getD c []).getD v 0
    rw [hg c h1 v (by omega)]
    interval_cases v <;> rfl
  · show S.edges.map _ = _; rw [hE]; rfl
  · show S.faces.map _ = _; rw [hF]; rfl

/-- Triangles. -/
theorem interface_triangles (dim : Nat) (u : Nat → List (List K)) (hu : ∀ n, (u n).length = n) (V : List (List K)) (hV : ∀ r ∈ V, r.length = dim) (cells : List (List Nat))
    (hc : IsMesh 2 V.length cells) (hf : FewNeighbours cells) (S : Shared) (hS : Valid 2 cells S) :
    ∃ m V' cells' lookup, Refine.refine2D dim u V cells = some (V', cells', lookup) ∧ Refined 2 dim V cells m V' cells' lookup ∧
      Follows 2 (coords V') m cells cells' S (refine2 S) := by
  obtain ⟨m, V', cells', lookup, h, hR, ho⟩ := C42.ordered_triangles dim u hu V hV cells hc hf
  obtain ⟨hlen, hparts⟩ := parts_flatten hR.kids S.cells hS.cells
  have hg := fun i (hi : i < cells.length) j (hj : j < 4) => block (fun c : List Nat => Refine.children2 (c.getD 0 0) (c.getD 1 0) (c.getD 2 0) (m (c.getD 0 0) (c.getD 1 0)) (m (c.getD 1 0) (c.getD 2 0)) (m (c.getD 0 0) (c.getD 2 0)))
    [] [] 4 j hj cells (fun _ _ => rfl) i hi
  rw [← ho] at hg
  have hF : S.faces = [] := by
    cases hF : S.faces with
    | nil => rfl
    | cons a l => exact absurd (hS.faces a (by simp [hF])).2.1 (by simp)
  refine ⟨m, V', cells', lookup, h, hR, ⟨?_, ?_, ?_, ?_⟩, ?_, ?_, ?_, hparts⟩
  · intro e he
    obtain ⟨v, hv, rfl⟩ := List.mem_map.1 he
    have := hS.vertices v hv
    simp only
    omega
  · intro e he
    obtain ⟨v, hv, he⟩ := List.mem_flatMap.1 he
    obtain ⟨h1, h2, h3⟩ := hS.edges v hv
    have h2 : v.2.1 < 3 := h2
    have h4 := Nat.mod_lt (v.2.1 + 1) (show 0 < 3 by omega)
    unfold halves2 at he
    split_ifs at he <;> simp only [List.mem_cons, List.not_mem_nil, or_false] at he <;> rcases he with rfl | rfl <;>
      exact ⟨by simp only; omega, by simp, h3⟩
  · intro e he; rw [show (refine2 S).faces = S.faces from rfl, hF] at he; exact absurd he (by simp)
  · rw [hlen]; exact refineCells_lt 4 _ _ hS.cells
  · show (S.vertices.map _).map _ = _
    rw [List.map_map]
    apply List.map_congr_left
    intro v hv
    obtain ⟨h1, h2⟩ := hS.vertices v hv
    obtain ⟨c, v⟩ := v
    simp only at h1 h2
    show (cells'.getD (4 * c + v) []).getD 0 0 = (cells.getD c []).getD v 0
    rw [hg c h1 v (by omega)]
    interval_cases v <;> rfl
  · apply map_flatMap'
    rintro ⟨c, n, o⟩ he
    obtain ⟨h1, h2, h3⟩ := hS.edges _ he
    have h2 : n < 3 := h2
    simp only at h1 h3
    have s1 := hR.symm (cells.getD c [] |>.getD 0 0) (cells.getD c [] |>.getD 1 0)
    have s2 := hR.symm (cells.getD c [] |>.getD 1 0) (cells.getD c [] |>.getD 2 0)
    have s3 := hR.symm (cells.getD c [] |>.getD 0 0) (cells.getD c [] |>.getD 2 0)
    have k0 := hg c h1 0 (by omega)
    have k1 := hg c h1 1 (by omega)
    have k2 := hg c h1 2 (by omega)
    rcases h3 with rfl | rfl <;> interval_cases n <;>
      simp [halves2, halves, edgeOf, edgeGlobal, edgeVertices, k0, k1, k2, Refine.children2, s1, s2, s3] <;> simp_all [Refine.children2]
  · show S.faces.map _ = _; rw [hF]; rfl

/-- The ten nodes of a refined tetrahedron. -/
private def nodes (m : Nat → Nat → Nat) (c : List Nat) : List Nat :=
  [c.getD 0 0, c.getD 1 0, c.getD 2 0, c.getD 3 0, m (c.getD 0 0) (c.getD 1 0), m (c.getD 0 0) (c.getD 2 0), m (c.getD 0 0) (c.getD 3 0), m (c.getD 1 0) (c.getD 2 0),
    m (c.getD 1 0) (c.getD 3 0), m (c.getD 2 0) (c.getD 3 0)]

private theorem nodes_nodup (m : Nat → Nat → Nat) (c : List Nat) (hl : c.length = 4) (hn : c.Nodup) (n : Nat) (h2 : ∀ a ∈ c, a < n) (h3 : ∀ a ∈ c, ∀ b ∈ c, a ≠ b → n ≤ m a b)
    (h4 : ∀ a ∈ c, ∀ b ∈ c, ∀ a' ∈ c, ∀ b' ∈ c, a ≠ b → a' ≠ b' → m a b = m a' b' → (a = a' ∧ b = b') ∨ (a = b' ∧ b = a')) : (nodes m c).Nodup := by
  have hmem : ∀ i, i < 4 → c.getD i 0 ∈ c := fun i h => by rw [List.getD_eq_getElem _ _ (by omega)]; exact List.getElem_mem _
  have hinj : ∀ i j, i < 4 → j < 4 → c.getD i 0 = c.getD j 0 → i = j := fun i j hi hj h => by
    rw [List.getD_eq_getElem _ _ (by omega), List.getD_eq_getElem _ _ (by omega)] at h
    exact (hn.getElem_inj_iff).1 h
  have hP : ∀ q ∈ [((0, 1) : Nat × Nat), (0, 2), (0, 3), (1, 2), (1, 3), (2, 3)], q.1 < q.2 ∧ q.2 < 4 := by decide
  have e : nodes m c = c ++ [(0, 1), (0, 2), (0, 3), (1, 2), (1, 3), (2, 3)].map fun q : Nat × Nat => m (c.getD q.1 0) (c.getD q.2 0) := by
    obtain ⟨v0, v1, v2, v3, rfl⟩ := length3 c hl
    rfl
  rw [e, List.nodup_append]
  refine ⟨hn, List.Nodup.map_on (fun x hx y hy h => ?_) (by decide), fun a ha b hb => ?_⟩
  · obtain ⟨x1, x2⟩ := hP x hx
    obtain ⟨y1, y2⟩ := hP y hy
    rcases h4 _ (hmem x.1 (by omega)) _ (hmem x.2 x2) _ (hmem y.1 (by omega)) _ (hmem y.2 y2) (fun h => by have := hinj _ _ (by omega) (by omega) h; omega)
      (fun h => by have := hinj _ _ (by omega) (by omega) h; omega) h with ⟨p, q⟩ | ⟨p, q⟩
    · exact Prod.ext (hinj _ _ (by omega) (by omega) p) (hinj _ _ (by omega) (by omega) q)
    · have := hinj _ _ (by omega) (by omega) p
      have := hinj _ _ (by omega) (by omega) q
      omega
  · obtain ⟨q, hq, rfl⟩ := List.mem_map.1 hb
    obtain ⟨q1, q2⟩ := hP q hq
    have := h2 a ha
    have := h3 _ (hmem q.1 (by omega)) _ (hmem q.2 q2) (fun h => by have := hinj _ _ (by omega) (by omega) h; omega)
    omega

private theorem kids_mod (k : Nat) (N : Nat → Nat) : ∃ k' < 3, kidsOf k N = kidsOf k' N := by
  unfold kidsOf Refine.children3
  by_cases h0 : k = 0
  · exact ⟨0, by omega, by rw [h0]⟩
  · by_cases h1 : k = 1
    · exact ⟨1, by omega, by rw [h1]⟩
    · exact ⟨2, by omega, by simp [h0, h1]⟩

private theorem corner (k : Nat) (N : Nat → Nat) (i j : Nat) (hi : i < 4) (hj : j < 4) : ((kidsOf k N).getD i []).getD j 0 = N (mid i j) := by
  unfold kidsOf Refine.children3
  interval_cases i <;> interval_cases j <;> rfl

private theorem mid_node (m : Nat → Nat → Nat) (hs : ∀ a b, m a b = m b a) (c : List Nat) (i j : Nat) (hi : i < 4) (hj : j < 4) :
    (nodes m c).getD (mid i j) 0 = if i = j then c.getD i 0 else m (c.getD i 0) (c.getD j 0) := by
  have s1 := hs (c.getD 1 0) (c.getD 0 0)
  have s2 := hs (c.getD 2 0) (c.getD 0 0)
  have s3 := hs (c.getD 3 0) (c.getD 0 0)
  have s4 := hs (c.getD 2 0) (c.getD 1 0)
  have s5 := hs (c.getD 3 0) (c.getD 1 0)
  have s6 := hs (c.getD 3 0) (c.getD 2 0)
  interval_cases i <;> interval_cases j <;> first | rfl | exact s1.symm | exact s2.symm | exact s3.symm | exact s4.symm | exact s5.symm | exact s6.symm

private theorem middle_congr (pop : List Nat → Option Nat) (w : Nat → Nat) (k k' : Nat → List Nat) (h : ∀ j < 8, k j = k' j) (n : Nat) (o : Int) (f1 : (faceVertices n o).1 < 8)
    (f2 : (faceVertices n o).2.1 < 8) (f3 : (faceVertices n o).2.2 < 8) : middle pop w k n o = middle pop w k' n o := by
  have hi : inner k n = inner k' n := by
    unfold inner
    rw [h 0 (by omega), h 1 (by omega), h 2 (by omega)]
  have hfind : ∀ (C : Nat × Nat × Nat), [4, 5, 6, 7].find? (fun q => decide (C.1 ∈ k q ∧ C.2.1 ∈ k q ∧ C.2.2 ∈ k q)) =
      [4, 5, 6, 7].find? (fun q => decide (C.1 ∈ k' q ∧ C.2.1 ∈ k' q ∧ C.2.2 ∈ k' q)) := by
    intro C
    simp only [List.find?_cons, List.find?_nil, h 4 (by omega), h 5 (by omega), h 6 (by omega), h 7 (by omega)]
  unfold middle
  dsimp only
  rw [hi, hfind, h _ f1, h _ f2, h _ f3]
  cases hq : [4, 5, 6, 7].find? _ with
  | none => rfl
  | some q =>
    have hq8 : q < 8 := by
      have := List.mem_of_find?_eq_some hq
      simp at this
      omega
    simp only [Option.bind_eq_bind, Option.bind_some, h q hq8]

/-- Tetrahedra; `pop` takes the element out of a set of one element, `w` are contents of an array that was not initialised. -/
theorem interface_tetrahedra (u : Nat → List (List K)) (hu : ∀ n, (u n).length = n) (V : List (List K)) (hV : ∀ r ∈ V, r.length = 3) (cells : List (List Nat))
    (hc : IsMesh 3 V.length cells) (hf : FewNeighbours cells) (S : Shared) (hS : Valid 3 cells S) (pop : List Nat → Option Nat) (hp : ∀ a, pop [a] = some a) (w : Nat → Nat → Nat) :
    ∃ m V' cells' lookup, Refine.refine3D u V cells = some (V', cells', lookup) ∧ Refined 3 3 V cells m V' cells' lookup ∧
      ∃ S', refine3 pop w cells' S = some S' ∧ Follows 3 (coords V') m cells cells' S S' := by
  obtain ⟨m, V', cells', lookup, h, hR, -, kk, ho⟩ := C42.ordered_tetrahedra u hu V hV cells hc hf
  obtain ⟨hlen, hparts⟩ := parts_flatten hR.kids S.cells hS.cells
  have hk8 : ∀ k (N : Nat → Nat), (kidsOf k N).length = 8 := fun k N => by unfold kidsOf Refine.children3; split_ifs <;> rfl
  have ho : cells' = cells.flatMap fun c => kidsOf (kk c) (fun i => (nodes m c).getD i 0) := ho
  have hg := fun i (hi : i < cells.length) j (hj : j < 8) => block (fun c : List Nat => kidsOf (kk c) (fun i => (nodes m c).getD i 0)) [] [] 8 j hj cells (fun _ _ => hk8 _ _) i hi
  rw [← ho] at hg
  have hcorner : ∀ c, c < cells.length → ∀ i < 4, ∀ j < 4, (cells'.getD (8 * c + i) []).getD j 0 =
      if i = j then (cells.getD c []).getD i 0 else m ((cells.getD c []).getD i 0) ((cells.getD c []).getD j 0) := by
    intro c h1 i hi j hj
    rw [hg c h1 i (by omega), corner _ _ i j hi hj]
    exact mid_node m hR.symm _ i j hi hj
  have hface : ∀ c n o, (c, n, o) ∈ S.faces → ∀ w : Nat → Nat, ∃ q no o', middle pop w (fun j => row cells' (8 * c + j)) n o = some (q, no, o') ∧ q < 8 ∧ no < 4 ∧ o' ∈ orders ∧
      faceOf cells' (8 * c + q, no, o') = (m (faceOf cells (c, n, o)).1 (faceOf cells (c, n, o)).2.1, m (faceOf cells (c, n, o)).2.1 (faceOf cells (c, n, o)).2.2,
        m (faceOf cells (c, n, o)).2.2 (faceOf cells (c, n, o)).1) := by
    intro c n o he w
    obtain ⟨h1, h2, h3⟩ := hS.faces _ he
    have h2 : n < 4 := h2
    simp only at h1 h3
    have hcm : cells.getD c [] ∈ cells := by rw [List.getD_eq_getElem _ _ h1]; exact List.getElem_mem _
    obtain ⟨c1, c2, c3⟩ := hc _ hcm
    have hnd := nodes_nodup m (cells.getD c []) c1 c2 V.length c3 (fun a ha b hb hab => (hR.range a b ⟨hab, _, hcm, ha, hb⟩).1)
      (fun a ha b hb a' ha' b' hb' hab hab' e => hR.inj a b a' b' ⟨hab, _, hcm, ha, hb⟩ ⟨hab', _, hcm, ha', hb'⟩ e)
    have hN : ∀ i j, i < 10 → j < 10 → ((nodes m (cells.getD c [])).getD i 0 = (nodes m (cells.getD c [])).getD j 0 ↔ i = j) := by
      intro i j hi hj
      have hl : (nodes m (cells.getD c [])).length = 10 := rfl
      rw [List.getD_eq_getElem _ _ (show i < _ from by omega), List.getD_eq_getElem _ _ (show j < _ from by omega)]
      exact hnd.getElem_inj_iff
    obtain ⟨k', hk', ek⟩ := kids_mod (kk (cells.getD c [])) (fun i => (nodes m (cells.getD c [])).getD i 0)
    obtain ⟨q, no, o', e1, hq, hno, ho', e2⟩ := middle_eq pop hp w k' hk' (fun i => (nodes m (cells.getD c [])).getD i 0) hN n h2 o h3
    refine ⟨q, no, o', ?_, hq, hno, ho', ?_⟩
    · rw [← e1, ← ek]
      have hrow : ∀ j < 8, row cells' (8 * c + j) = (kidsOf (kk (cells.getD c [])) (fun i => (nodes m (cells.getD c [])).getD i 0)).getD j [] := fun j hj => hg c h1 j hj
      have hf : ∀ n < 4, ∀ o ∈ orders, (faceVertices n o).1 < 8 ∧ (faceVertices n o).2.1 < 8 ∧ (faceVertices n o).2.2 < 8 := by decide
      obtain ⟨f1, f2, f3⟩ := hf n h2 o h3
      exact middle_congr pop w _ _ hrow n o f1 f2 f3
    · have hf : ∀ n < 4, ∀ o ∈ orders, (faceVertices n o).1 < 4 ∧ (faceVertices n o).2.1 < 4 ∧ (faceVertices n o).2.2 < 4 ∧ (faceVertices n o).1 ≠ (faceVertices n o).2.1 ∧
        (faceVertices n o).2.1 ≠ (faceVertices n o).2.2 ∧ (faceVertices n o).2.2 ≠ (faceVertices n o).1 := by decide
      obtain ⟨f1, f2, f3, f4, f5, f6⟩ := hf n h2 o h3
      have e3 : faceOf cells' (8 * c + q, no, o') = faceGlobal (at' ((kidsOf k' (fun i => (nodes m (cells.getD c [])).getD i 0)).getD q [])) no o' := by
        unfold faceOf
        rw [← ek, ← hg c h1 q hq]
        rfl
      rw [e3, e2, mid_node m hR.symm _ _ _ f1 f2, mid_node m hR.symm _ _ _ f2 f3, mid_node m hR.symm _ _ _ f3 f1, if_neg f4, if_neg f5, if_neg f6]
      rfl
  have hfaces : ∀ (l : List ((Nat × Nat × Int) × Nat)), (∀ p ∈ l, p.1 ∈ S.faces) → ∃ f, l.mapM (fun p => SharedMesh.quarters pop (w p.2) cells' p.1) = some f ∧
      f.flatten.map (faceOf cells') = (l.map Prod.fst).flatMap (fun e => quarters m (faceOf cells e)) ∧ ∀ e ∈ f.flatten, e.1 < cells'.length ∧ e.2.1 < 4 ∧ e.2.2 ∈ orders := by
    intro l
    induction l with
    | nil => intro _; exact ⟨[], rfl, rfl, by simp⟩
    | cons p l ih =>
      intro hl
      obtain ⟨f, e1, e2, e3⟩ := ih fun p' hp' => hl p' (by simp [hp'])
      obtain ⟨⟨c, n, o⟩, i⟩ := p
      have he := hl _ List.mem_cons_self
      obtain ⟨h1, h2, h3⟩ := hS.faces _ he
      have h2 : n < 4 := h2
      simp only at h1 h3
      obtain ⟨q, no, o', g1, g2, g3, g4, g5⟩ := hface c n o he (w i)
      have hf : ∀ n < 4, ∀ o ∈ orders, (faceVertices n o).1 < 4 ∧ (faceVertices n o).2.1 < 4 ∧ (faceVertices n o).2.2 < 4 ∧ (faceVertices n o).1 ≠ (faceVertices n o).2.1 ∧
        (faceVertices n o).2.1 ≠ (faceVertices n o).2.2 ∧ (faceVertices n o).2.2 ≠ (faceVertices n o).1 := by decide
      obtain ⟨f1, f2, f3, f4, f5, f6⟩ := hf n h2 o h3
      refine ⟨[(8 * c + (faceVertices n o).1, n, o), (8 * c + (faceVertices n o).2.1, n, o), (8 * c + (faceVertices n o).2.2, n, o), (8 * c + q, no, o')] :: f, ?_, ?_, ?_⟩
      · rw [List.mapM_cons, e1]
        have : SharedMesh.quarters pop (w i) cells' (c, n, o) = some [(8 * c + (faceVertices n o).1, n, o), (8 * c + (faceVertices n o).2.1, n, o), (8 * c + (faceVertices n o).2.2, n, o), (8 * c + q, no, o')] := by
          unfold SharedMesh.quarters
          simp only [g1, Option.map_some]
        simp only [this]
        rfl
      · rw [List.flatten_cons, List.map_append, e2, show ((((c, n, o), i) :: l).map Prod.fst) = (c, n, o) :: l.map Prod.fst from rfl, List.flatMap_cons]
        congr 1
        simp only [List.map_cons, List.map_nil, g5]
        have hx : ∀ a < 4, faceOf cells' (8 * c + a, n, o) = ((cells'.getD (8 * c + a) []).getD (faceVertices n o).1 0, (cells'.getD (8 * c + a) []).getD (faceVertices n o).2.1 0,
            (cells'.getD (8 * c + a) []).getD (faceVertices n o).2.2 0) := fun _ _ => rfl
        rw [hx _ f1, hx _ f2, hx _ f3]
        rw [hcorner c h1 _ f1 _ f1, hcorner c h1 _ f1 _ f2, hcorner c h1 _ f1 _ f3, hcorner c h1 _ f2 _ f1, hcorner c h1 _ f2 _ f2, hcorner c h1 _ f2 _ f3, hcorner c h1 _ f3 _ f1, hcorner c h1 _ f3 _ f2,
          hcorner c h1 _ f3 _ f3]
        simp only [if_pos, if_neg f4, if_neg f5, if_neg f6, if_neg f4.symm, if_neg f5.symm, if_neg f6.symm]
        unfold quarters faceOf faceGlobal
        simp only [hR.symm ((cells.getD c []).getD (faceVertices n o).2.1 0) ((cells.getD c []).getD (faceVertices n o).1 0), hR.symm ((cells.getD c []).getD (faceVertices n o).2.2 0) ((cells.getD c []).getD (faceVertices n o).1 0),
          hR.symm ((cells.getD c []).getD (faceVertices n o).2.2 0) ((cells.getD c []).getD (faceVertices n o).2.1 0)]
      · intro e he'
        rw [List.flatten_cons, List.mem_append] at he'
        rcases he' with he' | he'
        · have : cells'.length = 8 * cells.length := hlen
          simp only [List.mem_cons, List.not_mem_nil, or_false] at he'
          rcases he' with rfl | rfl | rfl | rfl
          · exact ⟨by simp only; omega, h2, h3⟩
          · exact ⟨by simp only; omega, h2, h3⟩
          · exact ⟨by simp only; omega, h2, h3⟩
          · exact ⟨by simp only; omega, g3, g4⟩
        · exact e3 e he'
  obtain ⟨f, e1, e2, e3⟩ := hfaces S.faces.zipIdx fun p hp => by
    obtain ⟨e, i⟩ := p
    exact List.fst_mem_of_mem_zipIdx hp
  rw [List.zipIdx_map_fst] at e2
  refine ⟨m, V', cells', lookup, h, hR, _, by unfold refine3; rw [e1]; rfl, ⟨?_, ?_, e3, ?_⟩, ?_, ?_, e2, hparts⟩
  · intro e he
    obtain ⟨v, hv, rfl⟩ := List.mem_map.1 he
    have := hS.vertices v hv
    simp only
    omega
  · intro e he
    obtain ⟨v, hv, he⟩ := List.mem_flatMap.1 he
    obtain ⟨h1, h2, h3⟩ := hS.edges v hv
    have h2 : v.2.1 < 6 := h2
    have h4 := Nat.mod_lt (v.2.1 + 1) (show 0 < 3 by omega)
    have : cells'.length = 8 * cells.length := hlen
    unfold halves3 at he
    dsimp only at he
    split_ifs at he <;> simp only [List.mem_cons, List.not_mem_nil, or_false, List.reverse_cons, List.reverse_nil, List.nil_append, List.cons_append] at he <;> rcases he with rfl | rfl <;>
      exact ⟨by simp only; omega, h2, h3⟩
  · rw [hlen]; exact refineCells_lt 8 _ _ hS.cells
  · show (S.vertices.map _).map _ = _
    rw [List.map_map]
    apply List.map_congr_left
    intro v hv
    obtain ⟨h1, h2⟩ := hS.vertices v hv
    obtain ⟨c, v⟩ := v
    simp only at h1 h2
    show (cells'.getD (8 * c + v) []).getD v 0 = (cells.getD c []).getD v 0
    rw [hcorner c h1 v (by omega) v (by omega), if_pos rfl]
  · apply map_flatMap'
    rintro ⟨c, n, o⟩ he
    obtain ⟨h1, h2, h3⟩ := hS.edges _ he
    have h2 : n < 6 := h2
    simp only at h1 h3
    have hx : ∀ a < 4, ∀ o, edgeOf cells' (8 * c + a, n, o) = ((cells'.getD (8 * c + a) []).getD (edgeVertices n o).1 0, (cells'.getD (8 * c + a) []).getD (edgeVertices n o).2 0) := fun _ _ _ => rfl
    have hs := hR.symm
    rcases h3 with rfl | rfl <;> interval_cases n <;>
      simp only [halves3, halves, List.map_cons, List.map_nil, List.reverse_cons, List.reverse_nil, List.nil_append, List.cons_append, if_pos, if_neg, reduceIte, Nat.reduceLT, Nat.reduceAdd, Nat.reduceMod, Nat.reduceSub,
        Int.reduceEq, one_ne_zero] <;>
      rw [hx _ (by omega), hx _ (by omega)] <;> simp only [edgeVertices, edgeOf, edgeGlobal, reduceIte, Nat.reduceEqDiff, one_ne_zero, zero_ne_one, Nat.succ_ne_self, OfNat.ofNat_ne_zero, OfNat.ofNat_ne_one] <;>
      rw [hcorner c h1 _ (by omega) _ (by omega), hcorner c h1 _ (by omega) _ (by omega), hcorner c h1 _ (by omega) _ (by omega), hcorner c h1 _ (by omega) _ (by omega)] <;>
      simp <;> first | exact hs _ _ | exact ⟨hs _ _, hs _ _⟩ | skip

/-! ### points of the interface -/

theorem getD_old {d dim : Nat} {V : List (List K)} {cells : List (List Nat)} {m : Nat → Nat → Nat} {V' : List (List K)} {cells' : List (List Nat)} {lookup : List ((Nat × Nat) × Nat)}
    (hR : Refined d dim V cells m V' cells' lookup) (v : Nat) (hv : v < V.length) : V'.getD v [] = V.getD v [] := by
  have hl : V.length ≤ V'.length := by
    have := congrArg List.length hR.old
    rw [List.length_take] at this
    omega
  rw [List.getD_eq_getElem _ _ hv, List.getD_eq_getElem _ _ (show v < V'.length by omega)]
  have : (V'.take V.length)[v]'(by rw [hR.old]; exact hv) = V[v] := by simp only [hR.old]
  rw [← this, List.getElem_take]

theorem getD_mid {d dim : Nat} {V : List (List K)} {cells : List (List Nat)} {m : Nat → Nat → Nat} {V' : List (List K)} {cells' : List (List Nat)} {lookup : List ((Nat × Nat) × Nat)}
    (hR : Refined d dim V cells m V' cells' lookup) (a b : Nat) (hab : IsEdge cells a b) : V'.getD (m a b) [] = middlePoint dim (V.getD a []) (V.getD b []) := by
  have hr := (hR.range a b hab).2
  have hl : (V'.getD (m a b) []).length = dim := by
    rw [List.getD_eq_getElem _ _ hr]
    exact hR.row _ (List.getElem_mem _)
  apply List.ext_getElem
  · rw [hl]; unfold middlePoint; rw [List.length_map, List.length_range]
  · intro k h1 h2
    have := hR.mid a b hab k
    unfold coords at this
    rw [List.getD_eq_getElem _ _ h1] at this
    rw [this]
    simp only [middlePoint, List.getElem_map, List.getElem_range]

/-- The vertices of an edge are different vertices of the cell. -/
theorem edge_local (d : Nat) : ∀ n < [0, 0, 3, 6].getD d 0, ∀ o ∈ [(0 : Int), 1], (edgeVertices n o).1 ≤ d ∧ (edgeVertices n o).2 ≤ d ∧ (edgeVertices n o).1 ≠ (edgeVertices n o).2 := by
  rcases d with _ | _ | _ | _ | d
  · decide
  · decide
  · decide
  · decide
  · intro n hn; exact absurd hn (by simp)

/-- The points of the refined interface are determined by the points of the interface: vertices stay, edges are halved, faces are quartered at their midpoints. -/
theorem points {d dim : Nat} {V : List (List K)} {cells : List (List Nat)} {m : Nat → Nat → Nat} {V' : List (List K)} {cells' : List (List Nat)} {lookup : List ((Nat × Nat) × Nat)}
    (hc : IsMesh d V.length cells) (hR : Refined d dim V cells m V' cells' lookup) {S S' : Shared} (hS : Valid d cells S) (hF : Follows d (coords V') m cells cells' S S') :
    vertexPoints V' cells' S' = vertexPoints V cells S ∧
    edgePoints V' cells' S' = (edgePoints V cells S).flatMap (halves (middlePoint dim)) ∧
    facePoints V' cells' S' = (facePoints V cells S).flatMap (quarters (middlePoint dim)) := by
  have hv : ∀ c i, c < cells.length → i ≤ d → (cells.getD c []).getD i 0 ∈ cells.getD c [] ∧ (cells.getD c []).getD i 0 < V.length ∧ cells.getD c [] ∈ cells := by
    intro c i h1 h2
    have hm : cells.getD c [] ∈ cells := by rw [List.getD_eq_getElem _ _ h1]; exact List.getElem_mem _
    obtain ⟨c1, c2, c3⟩ := hc _ hm
    have : (cells.getD c []).getD i 0 ∈ cells.getD c [] := by
      rw [List.getD_eq_getElem _ _ (show i < (cells.getD c []).length by omega)]; exact List.getElem_mem _
    exact ⟨this, c3 _ this, hm⟩
  have he : ∀ c i j, c < cells.length → i ≤ d → j ≤ d → i ≠ j → IsEdge cells ((cells.getD c []).getD i 0) ((cells.getD c []).getD j 0) := by
    intro c i j h1 h2 h3 h4
    obtain ⟨a1, a2, a3⟩ := hv c i h1 h2
    obtain ⟨c1, c2, c3⟩ := hc _ a3
    refine ⟨fun h => h4 ?_, _, a3, a1, (hv c j h1 h3).1⟩
    rw [List.getD_eq_getElem _ _ (show i < (cells.getD c []).length by omega), List.getD_eq_getElem _ _ (show j < (cells.getD c []).length by omega)] at h
    exact (c2.getElem_inj_iff).1 h
  refine ⟨?_, ?_, ?_⟩
  · unfold vertexPoints
    have := congrArg (List.map fun v => V'.getD v []) hF.vertices
    rw [List.map_map, List.map_map] at this
    refine this.trans (List.map_congr_left fun e h => ?_)
    obtain ⟨h1, h2⟩ := hS.vertices e h
    exact getD_old hR _ (hv _ _ h1 h2).2.1
  · unfold edgePoints
    have := congrArg (List.map fun p : Nat × Nat => (V'.getD p.1 [], V'.getD p.2 [])) hF.edges
    rw [List.map_map, List.map_flatMap] at this
    rw [List.flatMap_map]
    refine this.trans (List.flatMap_congr fun e h => ?_)
    obtain ⟨h1, h2, h3⟩ := hS.edges e h
    obtain ⟨x1, x2, x3⟩ := edge_local d _ h2 e.2.2 (by simpa using h3)
    have ee := he e.1 _ _ h1 x1 x2 x3
    have p1 : V'.getD (edgeOf cells e).1 [] = V.getD (edgeOf cells e).1 [] := getD_old hR _ (hv _ _ h1 x1).2.1
    have p2 : V'.getD (edgeOf cells e).2 [] = V.getD (edgeOf cells e).2 [] := getD_old hR _ (hv _ _ h1 x2).2.1
    have p3 : V'.getD (m (edgeOf cells e).1 (edgeOf cells e).2) [] = middlePoint dim (V.getD (edgeOf cells e).1 []) (V.getD (edgeOf cells e).2 []) := getD_mid hR _ _ ee
    simp only [halves, List.map_cons, List.map_nil, p1, p2, p3]
  · unfold facePoints
    have := congrArg (List.map fun p : Nat × Nat × Nat => (V'.getD p.1 [], V'.getD p.2.1 [], V'.getD p.2.2 [])) hF.faces
    rw [List.map_map, List.map_flatMap] at this
    rw [List.flatMap_map]
    refine this.trans (List.flatMap_congr fun e h => ?_)
    obtain ⟨h1, h2, h3⟩ := hS.faces e h
    have hd : d = 3 := by
      rcases d with _ | _ | _ | _ | d
      · exact absurd h2 (by simp)
      · exact absurd h2 (by simp)
      · exact absurd h2 (by simp)
      · rfl
      · exact absurd h2 (by simp)
    subst hd
    have hx : ∀ n < 4, ∀ o ∈ orders, (faceVertices n o).1 ≤ 3 ∧ (faceVertices n o).2.1 ≤ 3 ∧ (faceVertices n o).2.2 ≤ 3 ∧ (faceVertices n o).1 ≠ (faceVertices n o).2.1 ∧
        (faceVertices n o).2.1 ≠ (faceVertices n o).2.2 ∧ (faceVertices n o).1 ≠ (faceVertices n o).2.2 := by decide
    obtain ⟨x1, x2, x3, x4, x5, x6⟩ := hx _ h2 _ h3
    have p1 : V'.getD (faceOf cells e).1 [] = V.getD (faceOf cells e).1 [] := getD_old hR _ (hv _ _ h1 x1).2.1
    have p2 : V'.getD (faceOf cells e).2.1 [] = V.getD (faceOf cells e).2.1 [] := getD_old hR _ (hv _ _ h1 x2).2.1
    have p3 : V'.getD (faceOf cells e).2.2 [] = V.getD (faceOf cells e).2.2 [] := getD_old hR _ (hv _ _ h1 x3).2.1
    have p4 : V'.getD (m (faceOf cells e).1 (faceOf cells e).2.1) [] = middlePoint dim (V.getD (faceOf cells e).1 []) (V.getD (faceOf cells e).2.1 []) :=
      getD_mid hR _ _ (he e.1 _ _ h1 x1 x2 x4)
    have p5 : V'.getD (m (faceOf cells e).2.1 (faceOf cells e).2.2) [] = middlePoint dim (V.getD (faceOf cells e).2.1 []) (V.getD (faceOf cells e).2.2 []) :=
      getD_mid hR _ _ (he e.1 _ _ h1 x2 x3 x5)
    have p6 : V'.getD (m (faceOf cells e).1 (faceOf cells e).2.2) [] = middlePoint dim (V.getD (faceOf cells e).1 []) (V.getD (faceOf cells e).2.2 []) :=
      getD_mid hR _ _ (he e.1 _ _ h1 x1 x3 x6)
    have p7 : V'.getD (m (faceOf cells e).2.2 (faceOf cells e).1) [] = middlePoint dim (V.getD (faceOf cells e).2.2 []) (V.getD (faceOf cells e).1 []) :=
      getD_mid hR _ _ (he e.1 _ _ h1 x3 x1 x6.symm)
    simp only [quarters, List.map_cons, List.map_nil, p1, p2, p3, p4, p5, p6, p7]

/-- Two sides of an interface list the same points in the same order. -/
def Agree (V₁ : List (List K)) (cells₁ : List (List Nat)) (S₁ : Shared) (V₂ : List (List K)) (cells₂ : List (List Nat)) (S₂ : Shared) : Prop :=
  vertexPoints V₁ cells₁ S₁ = vertexPoints V₂ cells₂ S₂ ∧ edgePoints V₁ cells₁ S₁ = edgePoints V₂ cells₂ S₂ ∧ facePoints V₁ cells₁ S₁ = facePoints V₂ cells₂ S₂

private theorem agree {d dim : Nat} {V₁ : List (List K)} {cells₁ : List (List Nat)} {m₁ : Nat → Nat → Nat} {V₁' : List (List K)} {cells₁' : List (List Nat)} {lookup₁ : List ((Nat × Nat) × Nat)}
    (hc₁ : IsMesh d V₁.length cells₁) (hR₁ : Refined d dim V₁ cells₁ m₁ V₁' cells₁' lookup₁) {S₁ S₁' : Shared} (hS₁ : Valid d cells₁ S₁) (hF₁ : Follows d (coords V₁') m₁ cells₁ cells₁' S₁ S₁')
    {V₂ : List (List K)} {cells₂ : List (List Nat)} {m₂ : Nat → Nat → Nat} {V₂' : List (List K)} {cells₂' : List (List Nat)} {lookup₂ : List ((Nat × Nat) × Nat)}
    (hc₂ : IsMesh d V₂.length cells₂) (hR₂ : Refined d dim V₂ cells₂ m₂ V₂' cells₂' lookup₂) {S₂ S₂' : Shared} (hS₂ : Valid d cells₂ S₂) (hF₂ : Follows d (coords V₂') m₂ cells₂ cells₂' S₂ S₂')
    (h : Agree V₁ cells₁ S₁ V₂ cells₂ S₂) : Agree V₁' cells₁' S₁' V₂' cells₂' S₂' := by
  obtain ⟨a1, a2, a3⟩ := points hc₁ hR₁ hS₁ hF₁
  obtain ⟨b1, b2, b3⟩ := points hc₂ hR₂ hS₂ hF₂
  exact ⟨by rw [a1, b1, h.1], by rw [a2, b2, h.2.1], by rw [a3, b3, h.2.2]⟩

/-- Interfaces of interval meshes whose sides agree still agree after both sides are refined. -/
theorem sides_intervals (dim : Nat) (u₁ u₂ : Nat → List (List K)) (hu₁ : ∀ n, (u₁ n).length = n) (hu₂ : ∀ n, (u₂ n).length = n) (V₁ V₂ : List (List K)) (hV₁ : ∀ r ∈ V₁, r.length = dim)
    (hV₂ : ∀ r ∈ V₂, r.length = dim) (cells₁ cells₂ : List (List Nat)) (hc₁ : IsMesh 1 V₁.length cells₁) (hc₂ : IsMesh 1 V₂.length cells₂) (hd₁ : cells₁.Pairwise fun a b => ¬ a.Perm b)
    (hd₂ : cells₂.Pairwise fun a b => ¬ a.Perm b) (S₁ S₂ : Shared) (hS₁ : Valid 1 cells₁ S₁) (hS₂ : Valid 1 cells₂ S₂) (h : Agree V₁ cells₁ S₁ V₂ cells₂ S₂) :
    ∃ V₁' cells₁' lookup₁ V₂' cells₂' lookup₂, Refine.refine1D dim u₁ V₁ cells₁ = some (V₁', cells₁', lookup₁) ∧ Refine.refine1D dim u₂ V₂ cells₂ = some (V₂', cells₂', lookup₂) ∧
      Agree V₁' cells₁' (refine1 S₁) V₂' cells₂' (refine1 S₂) := by
  obtain ⟨m₁, V₁', cells₁', l₁, e₁, hR₁, hF₁⟩ := interface_intervals dim u₁ hu₁ V₁ hV₁ cells₁ hc₁ hd₁ S₁ hS₁
  obtain ⟨m₂, V₂', cells₂', l₂, e₂, hR₂, hF₂⟩ := interface_intervals dim u₂ hu₂ V₂ hV₂ cells₂ hc₂ hd₂ S₂ hS₂
  exact ⟨V₁', cells₁', l₁, V₂', cells₂', l₂, e₁, e₂, agree hc₁ hR₁ hS₁ hF₁ hc₂ hR₂ hS₂ hF₂ h⟩

/-- Triangles. -/
theorem sides_triangles (dim : Nat) (u₁ u₂ : Nat → List (List K)) (hu₁ : ∀ n, (u₁ n).length = n) (hu₂ : ∀ n, (u₂ n).length = n) (V₁ V₂ : List (List K)) (hV₁ : ∀ r ∈ V₁, r.length = dim)
    (hV₂ : ∀ r ∈ V₂, r.length = dim) (cells₁ cells₂ : List (List Nat)) (hc₁ : IsMesh 2 V₁.length cells₁) (hc₂ : IsMesh 2 V₂.length cells₂) (hf₁ : FewNeighbours cells₁)
    (hf₂ : FewNeighbours cells₂) (S₁ S₂ : Shared) (hS₁ : Valid 2 cells₁ S₁) (hS₂ : Valid 2 cells₂ S₂) (h : Agree V₁ cells₁ S₁ V₂ cells₂ S₂) :
    ∃ V₁' cells₁' lookup₁ V₂' cells₂' lookup₂, Refine.refine2D dim u₁ V₁ cells₁ = some (V₁', cells₁', lookup₁) ∧ Refine.refine2D dim u₂ V₂ cells₂ = some (V₂', cells₂', lookup₂) ∧
      Agree V₁' cells₁' (refine2 S₁) V₂' cells₂' (refine2 S₂) := by
  obtain ⟨m₁, V₁', cells₁', l₁, e₁, hR₁, hF₁⟩ := interface_triangles dim u₁ hu₁ V₁ hV₁ cells₁ hc₁ hf₁ S₁ hS₁
  obtain ⟨m₂, V₂', cells₂', l₂, e₂, hR₂, hF₂⟩ := interface_triangles dim u₂ hu₂ V₂ hV₂ cells₂ hc₂ hf₂ S₂ hS₂
  exact ⟨V₁', cells₁', l₁, V₂', cells₂', l₂, e₁, e₂, agree hc₁ hR₁ hS₁ hF₁ hc₂ hR₂ hS₂ hF₂ h⟩

/-- Tetrahedra; which interior diagonal the refinement chooses may differ between the two sides. -/
theorem sides_tetrahedra (u₁ u₂ : Nat → List (List K)) (hu₁ : ∀ n, (u₁ n).length = n) (hu₂ : ∀ n, (u₂ n).length = n) (V₁ V₂ : List (List K)) (hV₁ : ∀ r ∈ V₁, r.length = 3)
    (hV₂ : ∀ r ∈ V₂, r.length = 3) (cells₁ cells₂ : List (List Nat)) (hc₁ : IsMesh 3 V₁.length cells₁) (hc₂ : IsMesh 3 V₂.length cells₂) (hf₁ : FewNeighbours cells₁)
    (hf₂ : FewNeighbours cells₂) (S₁ S₂ : Shared) (hS₁ : Valid 3 cells₁ S₁) (hS₂ : Valid 3 cells₂ S₂) (pop : List Nat → Option Nat) (hp : ∀ a, pop [a] = some a) (w₁ w₂ : Nat → Nat → Nat)
    (h : Agree V₁ cells₁ S₁ V₂ cells₂ S₂) :
    ∃ V₁' cells₁' lookup₁ S₁' V₂' cells₂' lookup₂ S₂', Refine.refine3D u₁ V₁ cells₁ = some (V₁', cells₁', lookup₁) ∧ Refine.refine3D u₂ V₂ cells₂ = some (V₂', cells₂', lookup₂) ∧
      refine3 pop w₁ cells₁' S₁ = some S₁' ∧ refine3 pop w₂ cells₂' S₂ = some S₂' ∧ Agree V₁' cells₁' S₁' V₂' cells₂' S₂' := by
  obtain ⟨m₁, V₁', cells₁', l₁, e₁, hR₁, S₁', s₁, hF₁⟩ := interface_tetrahedra u₁ hu₁ V₁ hV₁ cells₁ hc₁ hf₁ S₁ hS₁ pop hp w₁
  obtain ⟨m₂, V₂', cells₂', l₂, e₂, hR₂, S₂', s₂, hF₂⟩ := interface_tetrahedra u₂ hu₂ V₂ hV₂ cells₂ hc₂ hf₂ S₂ hS₂ pop hp w₂
  exact ⟨V₁', cells₁', l₁, S₁', V₂', cells₂', l₂, S₂', e₁, e₂, s₁, s₂, agree hc₁ hR₁ hS₁ hF₁ hc₂ hR₂ hS₂ hF₂ h⟩

/-! ### concrete cases -/

/-- Two tetrahedra on the two sides of a face, the face in a different place and order. -/
example : Agree (K := ℚ) [[0, 0, 0], [1, 0, 0], [0, 1, 0], [0, 0, 1]] [[0, 1, 2, 3]] ⟨[(0, 0)], [(0, 0, 0)], [(0, 0, 0)], [0]⟩
    [[0, 0, -1], [0, 1, 0], [0, 0, 0], [1, 0, 0]] [[0, 1, 2, 3]] ⟨[(0, 2)], [(0, 5, 0)], [(0, 2, -1)], [0]⟩ := by
  unfold Agree; decide +kernel

example : Valid 3 [[0, 1, 2, 3]] ⟨[(0, 2)], [(0, 5, 0)], [(0, 2, -1)], [0]⟩ := ⟨by decide, by decide, by decide, by decide⟩

/-- The refined interfaces of the two sides. -/
example : ∃ V₁' cells₁' lookup₁ S₁' V₂' cells₂' lookup₂ S₂',
    Refine.refine3D (fun n => List.replicate n []) ([[0, 0, 0], [1, 0, 0], [0, 1, 0], [0, 0, 1]] : List (List ℚ)) [[0, 1, 2, 3]] = some (V₁', cells₁', lookup₁) ∧
    Refine.refine3D (fun n => List.replicate n []) ([[0, 0, -1], [0, 1, 0], [0, 0, 0], [1, 0, 0]] : List (List ℚ)) [[0, 1, 2, 3]] = some (V₂', cells₂', lookup₂) ∧
    refine3 List.head? (fun _ _ => 0) cells₁' ⟨[(0, 0)], [(0, 0, 0)], [(0, 0, 0)], [0]⟩ = some S₁' ∧ refine3 List.head? (fun _ _ => 9) cells₂' ⟨[(0, 2)], [(0, 5, 0)], [(0, 2, -1)], [0]⟩ = some S₂' ∧
    Agree V₁' cells₁' S₁' V₂' cells₂' S₂' :=
  sides_tetrahedra _ _ (fun n => by simp) (fun n => by simp) _ _ (by decide) (by decide) _ _ (by unfold IsMesh; decide) (by unfold IsMesh; decide) (C42.few_of_small _ 4 (by omega) (by decide))
    (C42.few_of_small _ 4 (by omega) (by decide)) _ _ ⟨by decide, by decide, by decide, by decide⟩ ⟨by decide, by decide, by decide, by decide⟩ _ (fun _ => rfl) _ _ (by unfold Agree; decide +kernel)

/-- Two triangles on the two sides of an edge. -/
example : ∃ V₁' cells₁' lookup₁ V₂' cells₂' lookup₂,
    Refine.refine2D 2 (fun n => List.replicate n []) ([[0, 0], [1, 0], [0, 1]] : List (List ℚ)) [[0, 1, 2]] = some (V₁', cells₁', lookup₁) ∧
    Refine.refine2D 2 (fun n => List.replicate n []) ([[1, 1], [0, 1], [1, 0]] : List (List ℚ)) [[0, 1, 2]] = some (V₂', cells₂', lookup₂) ∧
    Agree V₁' cells₁' (refine2 ⟨[(0, 1)], [(0, 1, 0)], [], [0]⟩) V₂' cells₂' (refine2 ⟨[(0, 2)], [(0, 1, 1)], [], []⟩) :=
  sides_triangles 2 _ _ (fun n => by simp) (fun n => by simp) _ _ (by decide) (by decide) _ _ (by unfold IsMesh; decide) (by unfold IsMesh; decide) (C42.few_of_small _ 3 (by omega) (by decide))
    (C42.few_of_small _ 3 (by omega) (by decide)) _ _ ⟨by decide, by decide, by decide, by decide⟩ ⟨by decide, by decide, by decide, by decide⟩ (by unfold Agree; decide +kernel)

end PyNucleus.Props.C82
