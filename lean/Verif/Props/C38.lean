import Verif.Proof.DoFMap2
import Verif.Proof.DoFReset

/-!
# C38: numbering of the degrees of freedom

Full statement: for every simplicial mesh and element, global dof numbers are gap-free, interior dofs are nonnegative and boundary dofs
negative; two local dofs have the same number iff they sit on the same mesh entity at the same node.  Renumbering keeps this.

Violated for elements with several dofs per edge: on a boundary edge that is traversed from the larger to the smaller vertex the numbers
are counted in the wrong direction (`p3_boundary_fails`).  Proved without such edges (`Forward`; always true for P1 and P2, and for P3
without boundary dofs).
-/

namespace PyNucleus.Props.C38

open PyNucleus.DoFMap

variable {E : Element} {dim : Nat} {cells : List (List Nat)} {bnd : List Key} {skip : Nat}

private theorem entry_eq {T : Key → Option Int} {m : Map} {i : Nat} (h : m.dofs.getD i [] = (E.entities dim i (cells.getD i [])).flatMap (out E T)) (l : Nat) :
    m.entry i l = (nodeAt E dim cells i l).map (number T) := by
  unfold Map.entry nodeAt
  rw [h, row_eq, List.getElem?_map]

/-- Two edges are the same entity iff they have the same vertices. -/
theorem edge_iff (a b c d : Nat) : sortEdge a b = sortEdge c d ↔ [a, b].Perm [c, d] := by
  have key : ∀ a b, ∃ u v, sortEdge a b = .edge u v ∧ u ≤ v ∧ [u, v].Perm [a, b] := fun a b => by
    unfold sortEdge
    split
    · exact ⟨a, b, rfl, by omega, .refl _⟩
    · exact ⟨b, a, rfl, by omega, .swap _ _ _⟩
  obtain ⟨u, v, h1, h2, h3⟩ := key a b
  obtain ⟨u', v', h1', h2', h3'⟩ := key c d
  rw [h1, h1']
  constructor
  · intro h
    injection h with e1 e2
    subst e1 e2
    exact h3.symm.trans h3'
  · intro h
    have h6 := List.Perm.eq_of_pairwise (le := fun a b : Nat => a ≤ b) (fun a b _ _ h1 h2 => Nat.le_antisymm h1 h2) (by simp; omega) (by simp; omega)
      (h3.trans (h.trans h3'.symm))
    simp only [List.cons.injEq, and_true] at h6
    rw [h6.1, h6.2]

/-- Two faces are the same entity iff they have the same vertices. -/
theorem face_iff (a b c u v w : Nat) : sortFace a b c = sortFace u v w ↔ [a, b, c].Perm [u, v, w] := by
  have key : ∀ a b c, ∃ u v w, sortFace a b c = .face u v w ∧ u ≤ v ∧ v ≤ w ∧ [u, v, w].Perm [a, b, c] := fun a b c => by
    have p1 : [a, c, b].Perm [a, b, c] := List.Perm.cons a (.swap _ _ _)
    have p2 : [b, a, c].Perm [a, b, c] := .swap _ _ _
    have p3 : [b, c, a].Perm [a, b, c] := (List.Perm.cons b (.swap _ _ _)).trans p2
    have p4 : [c, a, b].Perm [a, b, c] := (List.Perm.swap _ _ _).trans p1
    have p5 : [c, b, a].Perm [a, b, c] := (List.Perm.swap _ _ _).trans p3
    unfold sortFace
    split <;> split <;> (try split)
    · exact ⟨_, _, _, rfl, by omega, by omega, .refl _⟩
    · exact ⟨_, _, _, rfl, by omega, by omega, p1⟩
    · exact ⟨_, _, _, rfl, by omega, by omega, p4⟩
    · exact ⟨_, _, _, rfl, by omega, by omega, p2⟩
    · exact ⟨_, _, _, rfl, by omega, by omega, p3⟩
    · exact ⟨_, _, _, rfl, by omega, by omega, p5⟩
  obtain ⟨x, y, z, h1, h2, h3, h4⟩ := key a b c
  obtain ⟨x', y', z', h1', h2', h3', h4'⟩ := key u v w
  rw [h1, h1']
  constructor
  · intro h
    injection h with e1 e2 e3
    subst e1 e2 e3
    exact h4.symm.trans h4'
  · intro h
    have h5 : [x, y, z].Perm [x', y', z'] := h4.trans (h.trans h4'.symm)
    have h6 := List.Perm.eq_of_pairwise (le := fun a b : Nat => a ≤ b) (fun a b _ _ h1 h2 => Nat.le_antisymm h1 h2) (by simp; omega) (by simp; omega) h5
    simp only [List.cons.injEq, and_true] at h6
    rw [h6.1, h6.2.1, h6.2.2]

/-- Shape of the table: one row for each cell, with one entry for each node of the cell. -/
theorem table_shape_partial (ha : Admissible E dim cells bnd) (hf : Forward E dim cells bnd) :
    (build E dim cells bnd skip).dofs.length = cells.length ∧
    ∀ i, i < cells.length → ((build E dim cells bnd skip).dofs.getD i []).length = E.perElement dim := by
  obtain ⟨T, nb, -, -, h3, h4, -⟩ := build_spec E dim cells bnd skip ha hf
  refine ⟨h3, fun i hi => ?_⟩
  rw [h4 i hi, row_eq, List.length_map, nodesOf_length]

/-- Two local dofs have the same number iff they are the same node.  (`nodeAt`: entity, and position counted from the smaller vertex.) -/
theorem same_number_iff_partial (ha : Admissible E dim cells bnd) (hf : Forward E dim cells bnd) (i j : Nat) (hi : i < cells.length) (his : i < skip)
    (hj : j < cells.length) (hjs : j < skip) (l m : Nat) (hl : l < E.perElement dim) (hm : m < E.perElement dim) :
    (build E dim cells bnd skip).entry i l = (build E dim cells bnd skip).entry j m ↔ nodeAt E dim cells i l = nodeAt E dim cells j m := by
  obtain ⟨T, nb, hg, -, -, h4, -, -, -, h8⟩ := build_spec E dim cells bnd skip ha hf
  rw [entry_eq (h4 i hi), entry_eq (h4 j hj)]
  have get : ∀ i l, i < cells.length → i < skip → l < E.perElement dim → ∃ a b, nodeAt E dim cells i l = some a ∧ T a.1 = some b ∧ a.2 < E.count a.1 := by
    intro i l hi his hl
    rw [← nodesOf_length E dim i (cells.getD i [])] at hl
    have hmem := List.getElem_mem hl
    obtain ⟨h1, e, he, h2⟩ := mem_nodesOf hmem
    obtain ⟨b, hb⟩ := h8 i hi his e he
    exact ⟨_, b, List.getElem?_eq_getElem hl, by rw [← h2]; exact hb, h1⟩
  obtain ⟨a, b, e1, e2, e3⟩ := get i l hi his hl
  obtain ⟨a', b', e1', e2', e3'⟩ := get j m hj hjs hm
  rw [e1, e1']
  simp only [Option.map_some, Option.some.injEq]
  refine ⟨fun h => ?_, fun h => by rw [h]⟩
  unfold number at h
  rw [e2, e2'] at h
  obtain ⟨q1, q2⟩ := hg.inj _ _ _ _ _ _ e2 e2' e3 e3' h
  exact Prod.ext q1 q2

/-- The number is negative iff the entity is on the boundary. -/
theorem negative_iff_boundary_partial (ha : Admissible E dim cells bnd) (hf : Forward E dim cells bnd) (i : Nat) (hi : i < cells.length) (his : i < skip)
    (l : Nat) (d : Int) (hd : (build E dim cells bnd skip).entry i l = some d) (a : Key × Nat) (hn : nodeAt E dim cells i l = some a) :
    d < 0 ↔ a.1 ∈ bnd := by
  obtain ⟨T, nb, hg, -, -, h4, h5, -, -, h8⟩ := build_spec E dim cells bnd skip ha hf
  rw [entry_eq (h4 i hi), hn] at hd
  simp only [Option.map_some, Option.some.injEq] at hd
  obtain ⟨h1, e, he, h2⟩ := mem_nodesOf (List.mem_of_getElem? hn)
  obtain ⟨b, hb⟩ := h8 i hi his e he
  rw [h2] at hb
  rw [← h5 _ b hb, ← hd]
  unfold number
  rw [hb]
  dsimp only
  unfold at'
  split <;> omega

/-- The numbers in use are exactly `0, …, num_dofs - 1` and the boundary numbers `-1, …, -num_boundary_dofs`.  (`hb`: every boundary entity belongs to a
cell.) -/
theorem gap_free_partial (ha : Admissible E dim cells bnd) (hf : Forward E dim cells bnd)
    (hb : ∀ k ∈ bnd, ∃ i, i < cells.length ∧ i < skip ∧ ∃ e ∈ entities dim i (cells.getD i []), e.1 = k) (d : Int) :
    (-(build E dim cells bnd skip).numBoundaryDofs ≤ d ∧ d < (build E dim cells bnd skip).numDofs) ↔
      ∃ i l, i < cells.length ∧ i < skip ∧ (build E dim cells bnd skip).entry i l = some d := by
  obtain ⟨T, nb, hg, h2, -, h4, h5, h6, h7, h8⟩ := build_spec E dim cells bnd skip ha hf
  rw [h2]
  constructor
  · rintro ⟨q1, q2⟩
    obtain ⟨k, b, j, e1, e2, e3⟩ := hg.onto d q1 q2
    have : ∃ i, i < cells.length ∧ i < skip ∧ ∃ e ∈ E.entities dim i (cells.getD i []), e.1 = k := by
      by_cases hk : k ∈ bnd
      · obtain ⟨i, hi, his, e, he, hek⟩ := hb k hk
        refine ⟨i, hi, his, e, ?_, hek⟩
        unfold Element.entities
        exact List.mem_filter.2 ⟨he, decide_eq_true (by rw [hek]; omega)⟩
      · exact h7 k b e1 hk
    obtain ⟨i, hi, his, e, he, hek⟩ := this
    have hm := nodesOf_complete he (j := j) (by rw [hek]; exact e2)
    obtain ⟨l, hl⟩ := List.mem_iff_getElem?.1 hm
    refine ⟨i, l, hi, his, ?_⟩
    rw [entry_eq (h4 i hi)]
    unfold nodeAt
    rw [hl, Option.map_some]
    unfold number
    dsimp only
    rw [hek, e1, ← e3]
  · rintro ⟨i, l, hi, his, h⟩
    rw [entry_eq (h4 i hi)] at h
    cases hn : nodeAt E dim cells i l with
    | none => rw [hn] at h; cases h
    | some a =>
      rw [hn] at h
      simp only [Option.map_some, Option.some.injEq] at h
      obtain ⟨h1, e, he, h2⟩ := mem_nodesOf (List.mem_of_getElem? hn)
      obtain ⟨b, hb⟩ := h8 i hi his e he
      rw [h2] at hb
      unfold number at h
      rw [hb] at h
      dsimp only at h
      have hr := hg.range _ b _ hb h1
      rw [h] at hr
      unfold at' at h
      split at h
      · have := hr.1 (by omega); omega
      · have := hr.2 (by omega); omega

/-- Cells behind `skipCellsAfter` have the numbers of the nodes they share with the other cells, and `-MAX_INT` at inner nodes of their own. -/
theorem skipped_cells_partial (ha : Admissible E dim cells bnd) (hf : Forward E dim cells bnd) (i : Nat) (hi : i < cells.length) (l : Nat) :
    (∀ j m, j < cells.length → nodeAt E dim cells i l = nodeAt E dim cells j m →
      (build E dim cells bnd skip).entry i l = (build E dim cells bnd skip).entry j m) ∧
    ∀ a, nodeAt E dim cells i l = some a → a.1 ∉ bnd → (∀ j, j < cells.length → j < skip → ∀ e ∈ entities dim j (cells.getD j []), e.1 ≠ a.1) →
      (build E dim cells bnd skip).entry i l = some unset := by
  obtain ⟨T, nb, -, -, -, h4, -, -, h7, -⟩ := build_spec E dim cells bnd skip ha hf
  refine ⟨fun j m hj h => ?_, fun a hn hb hno => ?_⟩
  · rw [entry_eq (h4 i hi), entry_eq (h4 j hj), h]
  · rw [entry_eq (h4 i hi), hn, Option.map_some]
    cases hT : T a.1 with
    | none => unfold number; rw [hT]
    | some b =>
      obtain ⟨j, hj, hjs, e, he, hea⟩ := h7 _ b hT hb
      unfold Element.entities at he
      exact absurd hea (hno j hj hjs e (List.mem_filter.1 he).1)

/-- Lagrange elements: dofs with the same number are at the same point, whatever the coordinates of the vertices. -/
theorem same_number_same_point_partial {K M : Type} [Field K] [AddCommGroup M] [Module K M] (L : Lagrange K) (hL : L ∈ lagrange K)
    (ha : Admissible L.element L.dim cells bnd) (hf : Forward L.element L.dim cells bnd) (x : Nat → M) (hc : ∀ c ∈ cells, c.length = L.dim + 1)
    (i j : Nat) (hi : i < cells.length) (his : i < skip) (hj : j < cells.length) (hjs : j < skip) (l m : Nat) (hl : l < L.nodes.length) (hm : m < L.nodes.length)
    (h : (build L.element L.dim cells bnd skip).entry i l = (build L.element L.dim cells bnd skip).entry j m) :
    point x (cells.getD i []) (L.nodes.getD l []) = point x (cells.getD j []) (L.nodes.getD m []) := by
  have hlen : ∀ i, i < cells.length → (cells.getD i []).length = L.dim + 1 := fun i hi => by
    rw [List.getD_eq_getElem _ _ hi]; exact hc _ (List.getElem_mem hi)
  have hpt : ∀ i l, i < cells.length → l < L.nodes.length → l < L.element.perElement L.dim ∧
      some (point x (cells.getD i []) (L.nodes.getD l [])) = (nodeAt L.element L.dim cells i l).map (nodePoint L cells x) := by
    intro i l hi hl
    have hp := lagrange_points L hL cells x i (hlen i hi)
    constructor
    · have := congrArg List.length hp
      rw [List.length_map, List.length_map, nodesOf_length] at this
      omega
    · unfold nodeAt
      rw [← List.getElem?_map, ← hp, List.getElem?_map, List.getElem?_eq_getElem hl, List.getD_eq_getElem _ _ hl]
      rfl
  obtain ⟨l1, l2⟩ := hpt i l hi hl
  obtain ⟨m1, m2⟩ := hpt j m hj hm
  rw [same_number_iff_partial ha hf i j hi his hj hjs l m l1 m1] at h
  rw [h] at l2
  exact Option.some.inj (l2.trans m2.symm)

/-- `reorder` with a permutation of the dofs: the same dofs have the same number, boundary numbers are unchanged, and every number is used as before. -/
theorem reorder_keeps (dofs : List (List Int)) (n : Nat) (perm : List Int) (hp : perm.Perm ((List.range n).map fun k : Nat => (k : Int)))
    (hd : ∀ d ∈ dofs.flatten, d < n) :
    ∃ f : Int → Int, reorder dofs perm = dofs.map (fun row => row.map f) ∧
      (∀ d ∈ dofs.flatten, ∀ d' ∈ dofs.flatten, (f d = f d' ↔ d = d')) ∧ (∀ d, d < 0 → f d = d) ∧
      (∀ d ∈ dofs.flatten, 0 ≤ d → 0 ≤ f d ∧ f d < n) ∧ ∀ v : Int, 0 ≤ v → v < n → ∃ d, 0 ≤ d ∧ d < n ∧ f d = v := by
  have hlen : perm.length = n := by rw [hp.length_eq, List.length_map, List.length_range]
  have hnd : perm.Nodup := hp.nodup_iff.2 (List.Nodup.map (fun a b h => by simpa using h) List.nodup_range)
  have hmem : ∀ v : Int, v ∈ perm ↔ 0 ≤ v ∧ v < n := by
    intro v
    rw [hp.mem_iff, List.mem_map]
    constructor
    · rintro ⟨k, hk, rfl⟩; have := List.mem_range.1 hk; omega
    · rintro ⟨h1, h2⟩; exact ⟨v.toNat, List.mem_range.2 (by omega), by omega⟩
  have hget : ∀ d : Int, 0 ≤ d → d < n → perm.getD d.toNat 0 ∈ perm := by
    intro d h1 h2
    rw [List.getD_eq_getElem _ _ (show d.toNat < perm.length by omega)]
    exact List.getElem_mem _
  have hinj : ∀ d d' : Int, 0 ≤ d → d < n → 0 ≤ d' → d' < n → perm.getD d.toNat 0 = perm.getD d'.toNat 0 → d = d' := by
    intro d d' h1 h2 h3 h4 h
    rw [List.getD_eq_getElem _ _ (show d.toNat < perm.length by omega), List.getD_eq_getElem _ _ (show d'.toNat < perm.length by omega)] at h
    have := (List.Nodup.getElem_inj_iff hnd).1 h
    omega
  refine ⟨fun d => if 0 ≤ d then perm.getD d.toNat 0 else d, rfl, fun d h1 d' h2 => ⟨fun h => ?_, fun h => by rw [h]⟩, fun d h => if_neg (by omega),
    fun d h1 h2 => ?_, fun v h1 h2 => ?_⟩
  · have q1 := hd d h1
    have q2 := hd d' h2
    dsimp only at h
    by_cases c1 : 0 ≤ d <;> by_cases c2 : 0 ≤ d'
    · rw [if_pos c1, if_pos c2] at h; exact hinj d d' c1 q1 c2 q2 h
    · rw [if_pos c1, if_neg c2] at h; have := (hmem _).1 (hget d c1 q1); omega
    · rw [if_neg c1, if_pos c2] at h; have := (hmem _).1 (hget d' c2 q2); omega
    · rw [if_neg c1, if_neg c2] at h; exact h
  · dsimp only
    rw [if_pos h2]
    exact (hmem _).1 (hget d h2 (hd d h1))
  · obtain ⟨k, hk, e⟩ := List.getElem_of_mem ((hmem v).2 ⟨h1, h2⟩)
    refine ⟨k, by omega, by omega, ?_⟩
    dsimp only
    rw [if_pos (by omega), Int.toNat_natCast, List.getD_eq_getElem _ _ hk, e]

/-- `resetUsingFEVector`: the same dofs have the same number; those inside and with positive indicator get `0, …, num_dofs - 1`, all others
`-1, …, -num_boundary_dofs`. -/
theorem reset_keeps (dofs : List (List Int)) (ind : Int → Bool) :
    ∃ f : Int → Int, (resetUsingFEVector dofs ind).dofs = dofs.map (fun row => row.map f) ∧
      (∀ d d', d ∈ dofs.flatten → d' ∈ dofs.flatten → (f d = f d' ↔ d = d')) ∧
      (∀ d ∈ dofs.flatten, (0 ≤ f d ↔ 0 ≤ d ∧ ind d = true)) ∧
      ∀ v : Int, (-(resetUsingFEVector dofs ind).numBoundaryDofs ≤ v ∧ v < (resetUsingFEVector dofs ind).numDofs) ↔ ∃ d ∈ dofs.flatten, f d = v :=
  reset_spec dofs ind

/-- P3 on one triangle, all entities on the boundary: the two dofs of the edge from vertex 2 to vertex 0 get `-7` and `-6`; `-6` and `-7` also
belong to the edge from 1 to 2. -/
theorem p3_boundary_fails :
    (build ⟨1, 2, 0, 1⟩ 2 [[0, 1, 2]] [.vertex 0, .vertex 1, .vertex 2, .edge 0 1, .edge 1 2, .edge 0 2] 1).entry 0 8 =
      (build ⟨1, 2, 0, 1⟩ 2 [[0, 1, 2]] [.vertex 0, .vertex 1, .vertex 2, .edge 0 1, .edge 1 2, .edge 0 2] 1).entry 0 5 ∧
    nodeAt ⟨1, 2, 0, 1⟩ 2 [[0, 1, 2]] 0 8 ≠ nodeAt ⟨1, 2, 0, 1⟩ 2 [[0, 1, 2]] 0 5 ∧
    Admissible ⟨1, 2, 0, 1⟩ 2 [[0, 1, 2]] [.vertex 0, .vertex 1, .vertex 2, .edge 0 1, .edge 1 2, .edge 0 2] := by
  refine ⟨by decide, by decide, by decide, by decide, fun h => absurd h (by decide)⟩

/-- Example: P3 on two tetrahedra with a common face; a face and one of its edges are on the boundary, traversed forward. -/
example : Admissible ⟨1, 2, 1, 0⟩ 3 [[0, 1, 2, 3], [1, 3, 2, 4]] [.vertex 0, .vertex 1, .edge 0 1, .face 0 1 2] ∧
    Forward ⟨1, 2, 1, 0⟩ 3 [[0, 1, 2, 3], [1, 3, 2, 4]] [.vertex 0, .vertex 1, .edge 0 1, .face 0 1 2] := by
  refine ⟨⟨by decide, by decide, fun _ k hk => ?_⟩, Or.inr (by decide)⟩
  by_cases h : k ∈ allEntities 3 [[0, 1, 2, 3], [1, 3, 2, 4]]
  · have : ∀ k ∈ allEntities 3 [[0, 1, 2, 3], [1, 3, 2, 4]], k.isFace = true → (allEntities 3 [[0, 1, 2, 3], [1, 3, 2, 4]]).count k ≤
        if k ∈ [Key.vertex 0, .vertex 1, .edge 0 1, .face 0 1 2] then 1 else 2 := by decide
    exact this k h hk
  · rw [List.count_eq_zero_of_not_mem h]; omega

/-- In this example the edge between vertices 2 and 3 is traversed in different directions by the two cells. -/
example : (build ⟨1, 2, 1, 0⟩ 3 [[0, 1, 2, 3], [1, 3, 2, 4]] [.vertex 0, .vertex 1, .edge 0 1, .face 0 1 2] 2).dofs =
    [[-1, -2, 0, 1, -3, -4, 2, 3, 5, 4, 6, 7, 8, 9, 10, 11, -5, 12, 13, 14],
     [-2, 1, 0, 15, 8, 9, 11, 10, 3, 2, 16, 17, 18, 19, 20, 21, 13, 22, 23, 24]] := by decide

/-- Example for renumbering. -/
example : resetUsingFEVector [[0, 1, -1], [1, 2, -1]] (fun d => d ≠ 1) = ⟨[[0, -1, -2], [-1, 1, -2]], 2, 2⟩ ∧
    reorder [[0, 1, -1], [1, 2, -1]] [2, 0, 1] = [[2, 0, -1], [0, 1, -1]] := by decide

end PyNucleus.Props.C38
