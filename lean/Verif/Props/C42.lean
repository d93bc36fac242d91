import Verif.Proof.Refine2
import Verif.Proof.RefineTiling
import Verif.Props.C56
import Mathlib.Tactic.IntervalCases
import Mathlib.Data.List.Sublists

/-!
# C42: uniform refinement

Full statement: refining a mesh of intervals, triangles or tetrahedra keeps the old vertices, adds one vertex per edge at its midpoint, shared by all
cells with the edge, and replaces each cell by 2, 4 or 8 cells of equal signed volume which tile it.
-/

namespace PyNucleus.Props.C42

open PyNucleus.Refine PyNucleus.Loops
open PyNucleus.Props.C56 (edgeDet)

variable {K : Type} [Field K] [LinearOrder K] [IsStrictOrderedRing K]

/-- Cells with `d + 1` different vertices. -/
def IsMesh (d n : Nat) (cells : List (List Nat)) : Prop := ∀ c ∈ cells, c.length = d + 1 ∧ c.Nodup ∧ ∀ v ∈ c, v < n

/-- Edges of the mesh. -/
def IsEdge (cells : List (List Nat)) (a b : Nat) : Prop := a ≠ b ∧ ∃ c ∈ cells, a ∈ c ∧ b ∈ c

/-- No vertex has more than 253 neighbours of larger number; the table of edges holds no more. -/
def FewNeighbours (cells : List (List Nat)) : Prop := ∀ a, ∀ l : List Nat, l.Nodup → (∀ b ∈ l, a < b ∧ IsEdge cells a b) → l.length ≤ 253

/-- Coordinates of the vertices. -/
def coords (V : List (List K)) (v k : Nat) : K := (V.getD v []).getD k 0

/-- Coordinates of the vertices of a simplex. -/
def corners (X : Nat → Nat → K) (c : List Nat) (i k : Nat) : K := X (c.getD i 0) k

/-- Subdivision of the cell `c` into the cells `kids`; `m a b` is the vertex on the edge `a b`. -/
structure Subdivides (d : Nat) (X : Nat → Nat → K) (m : Nat → Nat → Nat) (c : List Nat) (kids : List (List Nat)) : Prop where
  count : kids.length = 2 ^ d
  nodes : ∀ k ∈ kids, k.length = d + 1 ∧ k.Nodup ∧ ∀ v ∈ k, v ∈ c ∨ ∃ a ∈ c, ∃ b ∈ c, a ≠ b ∧ v = m a b
  cover : ∀ p, InSimplex (0 ≤ ·) X c p ↔ ∃ k ∈ kids, InSimplex (0 ≤ ·) X k p
  disjoint : AffIndep X c → kids.Pairwise fun a b => ∀ p, ¬ (InSimplex (0 < ·) X a p ∧ InSimplex (0 < ·) X b p)
  volume : ∀ k ∈ kids, edgeDet d (corners X k) = edgeDet d (corners X c) / 2 ^ d

/-- Refinement of a mesh; `m a b` is the vertex on the edge `a b`. -/
structure Refined (d dim : Nat) (V : List (List K)) (cells : List (List Nat)) (m : Nat → Nat → Nat) (V' : List (List K)) (cells' : List (List Nat))
    (lookup : List ((Nat × Nat) × Nat)) : Prop where
  old : V'.take V.length = V
  symm : ∀ a b, m a b = m b a
  range : ∀ a b, IsEdge cells a b → V.length ≤ m a b ∧ m a b < V'.length
  inj : ∀ a b a' b', IsEdge cells a b → IsEdge cells a' b' → m a b = m a' b' → (a = a' ∧ b = b') ∨ (a = b' ∧ b = a')
  onto : ∀ i, V.length ≤ i → i < V'.length → ∃ a b, IsEdge cells a b ∧ m a b = i
  row : ∀ r ∈ V', r.length = dim
  mid : ∀ a b, IsEdge cells a b → ∀ k, coords V' (m a b) k = (coords V a k + coords V b k) / 2
  keys : (lookup.map Prod.fst).Nodup
  table : ∀ a b v, ((a, b), v) ∈ lookup ↔ a < b ∧ IsEdge cells a b ∧ v = m a b
  kids : ∃ parts, List.Forall₂ (Subdivides d (coords V') m) cells parts ∧ cells' = parts.flatten

/-! ### subdivisions -/

private theorem det1 (x : Nat → Nat → K) : edgeDet 1 x = x 1 0 - x 0 0 := by unfold edgeDet; simp
private theorem det2 (x : Nat → Nat → K) : edgeDet 2 x = (x 1 0 - x 0 0) * (x 2 1 - x 0 1) - (x 1 1 - x 0 1) * (x 2 0 - x 0 0) := by
  unfold edgeDet
  rw [Matrix.det_fin_two]
  simp
private theorem det3 (x : Nat → Nat → K) : edgeDet 3 x =
    (x 1 0 - x 0 0) * (x 2 1 - x 0 1) * (x 3 2 - x 0 2) - (x 1 0 - x 0 0) * (x 2 2 - x 0 2) * (x 3 1 - x 0 1)
    - (x 1 1 - x 0 1) * (x 2 0 - x 0 0) * (x 3 2 - x 0 2) + (x 1 1 - x 0 1) * (x 2 2 - x 0 2) * (x 3 0 - x 0 0)
    + (x 1 2 - x 0 2) * (x 2 0 - x 0 0) * (x 3 1 - x 0 1) - (x 1 2 - x 0 2) * (x 2 1 - x 0 1) * (x 3 0 - x 0 0) := by
  unfold edgeDet
  rw [Matrix.det_fin_three]
  simp

private theorem sub1 (X : Nat → Nat → K) (m : Nat → Nat → Nat) (v0 v1 : Nat) (hm : [v0, v1, m v0 v1].Nodup)
    (h : IsMid1 X v0 v1 (m v0 v1)) : Subdivides 1 X m [v0, v1] [[v0, m v0 v1], [m v0 v1, v1]] := by
  simp only [List.nodup_cons, List.mem_cons, List.not_mem_nil, or_false, not_or] at hm
  constructor
  · rfl
  · simp only [List.mem_cons, List.not_mem_nil, or_false]
    rintro k (rfl | rfl)
    · refine ⟨rfl, by simp; tauto, fun v hv => ?_⟩
      simp at hv ⊢
      tauto
    · refine ⟨rfl, by simp; tauto, fun v hv => ?_⟩
      simp at hv ⊢
      tauto
  · exact tile1_cover X _ _ _ h
  · exact tile1_disjoint X _ _ _ h
  · unfold IsMid1 at h
    simp only [List.mem_cons, List.not_mem_nil, or_false]
    rintro k (rfl | rfl) <;> rw [det1, det1] <;> simp [corners, h] <;> ring

private theorem sub2 (X : Nat → Nat → K) (m : Nat → Nat → Nat) (v0 v1 v2 : Nat) (hm : [v0, v1, v2, m v0 v1, m v0 v2, m v1 v2].Nodup)
    (h : IsMid2 X v0 v1 v2 (m v0 v1) (m v0 v2) (m v1 v2)) : Subdivides 2 X m [v0, v1, v2] (children2 v0 v1 v2 (m v0 v1) (m v1 v2) (m v0 v2)) := by
  simp only [List.nodup_cons, List.mem_cons, List.not_mem_nil, or_false, not_or] at hm
  unfold children2
  constructor
  · rfl
  · simp only [List.mem_cons, List.not_mem_nil, or_false]
    rintro k (rfl | rfl | rfl | rfl) <;>
    · refine ⟨rfl, by simp; tauto, fun v hv => ?_⟩
      simp only [List.mem_cons, List.not_mem_nil, or_false] at hv
      rcases hv with rfl | rfl | rfl <;> first
        | exact Or.inl (by simp)
        | exact Or.inr ⟨v0, by simp, v1, by simp, by tauto, rfl⟩
        | exact Or.inr ⟨v0, by simp, v2, by simp, by tauto, rfl⟩
        | exact Or.inr ⟨v1, by simp, v2, by simp, by tauto, rfl⟩
  · exact tile2_cover X _ _ _ _ _ _ h
  · exact tile2_disjoint X _ _ _ _ _ _ h
  · obtain ⟨h1, h2, h3⟩ := h
    simp only [List.mem_cons, List.not_mem_nil, or_false]
    rintro k (rfl | rfl | rfl | rfl) <;> rw [det2, det2] <;> simp [corners, h1, h2, h3] <;> ring

/-- The ten nodes of a refined tetrahedron. -/
private def nodes3 (m : Nat → Nat → Nat) (v0 v1 v2 v3 : Nat) : List Nat := [v0, v1, v2, v3, m v0 v1, m v0 v2, m v0 v3, m v1 v2, m v1 v3, m v2 v3]

private theorem children3_map (N : List Nat) (k : Nat) : children3 k (N.getD 0 0) (N.getD 1 0) (N.getD 2 0) (N.getD 3 0) (N.getD 4 0) (N.getD 5 0) (N.getD 6 0) (N.getD 7 0) (N.getD 8 0) (N.getD 9 0) =
    (children3 k 0 1 2 3 4 5 6 7 8 9).map (List.map fun i => N.getD i 0) := by
  unfold children3
  split_ifs <;> rfl

private theorem children3_mod (k : Nat) {α : Type} (v0 v1 v2 v3 v4 v5 v6 v7 v8 v9 : α) : ∃ k' < 3, children3 k v0 v1 v2 v3 v4 v5 v6 v7 v8 v9 = children3 k' v0 v1 v2 v3 v4 v5 v6 v7 v8 v9 := by
  by_cases h0 : k = 0
  · exact ⟨0, by omega, by rw [h0]⟩
  by_cases h1 : k = 1
  · exact ⟨1, by omega, by rw [h1]⟩
  · refine ⟨2, by omega, ?_⟩
    unfold children3
    rw [if_neg h0, if_neg h1]
    rfl

private theorem getD_inj {N : List Nat} (hN : N.Nodup) {i j : Nat} (hi : i < N.length) (hj : j < N.length) (h : N.getD i 0 = N.getD j 0) : i = j := by
  rw [List.getD_eq_getElem _ _ hi, List.getD_eq_getElem _ _ hj] at h
  exact (List.Nodup.getElem_inj_iff hN).1 h

private theorem nodes3_ok (m : Nat → Nat → Nat) (k v0 v1 v2 v3 : Nat) (hm : (nodes3 m v0 v1 v2 v3).Nodup) :
    ∀ c ∈ children3 k v0 v1 v2 v3 (m v0 v1) (m v0 v2) (m v0 v3) (m v1 v2) (m v1 v3) (m v2 v3),
      c.length = 4 ∧ c.Nodup ∧ ∀ v ∈ c, v ∈ [v0, v1, v2, v3] ∨ ∃ a ∈ [v0, v1, v2, v3], ∃ b ∈ [v0, v1, v2, v3], a ≠ b ∧ v = m a b := by
  intro c hc
  have e := children3_map (nodes3 m v0 v1 v2 v3) k
  have e' : c ∈ (children3 k 0 1 2 3 4 5 6 7 8 9).map (List.map fun i => (nodes3 m v0 v1 v2 v3).getD i 0) := e ▸ hc
  obtain ⟨s, hs, rfl⟩ := List.mem_map.1 e'
  obtain ⟨k', hk', ek⟩ := children3_mod k 0 1 2 3 4 5 6 7 8 9
  rw [ek] at hs
  have dec : ∀ k' < 3, ∀ s ∈ children3 k' 0 1 2 3 4 5 6 7 8 9, s.length = 4 ∧ s.Nodup ∧ ∀ i ∈ s, i < 10 := by decide
  obtain ⟨g1, g2, g3⟩ := dec k' hk' s hs
  refine ⟨by rw [List.length_map, g1], List.Nodup.map_on (fun x hx y hy h => getD_inj hm (g3 x hx) (g3 y hy) h) g2, fun v hv => ?_⟩
  obtain ⟨i, hi, rfl⟩ := List.mem_map.1 hv
  have hi10 := g3 i hi
  have hne : ∀ i j, i < j → j < 10 → (nodes3 m v0 v1 v2 v3).getD i 0 ≠ (nodes3 m v0 v1 v2 v3).getD j 0 := fun i j hij hj h => by
    have := getD_inj hm (i := i) (j := j) (show i < 10 by omega) hj h
    omega
  have nn : ∀ v a b, v = m a b → a ∈ [v0, v1, v2, v3] → b ∈ [v0, v1, v2, v3] → a ≠ b → (v ∈ [v0, v1, v2, v3] ∨ ∃ a ∈ [v0, v1, v2, v3], ∃ b ∈ [v0, v1, v2, v3], a ≠ b ∧ v = m a b) :=
    fun v a b e ha hb hab => Or.inr ⟨a, ha, b, hb, hab, e⟩
  interval_cases i
  · exact Or.inl (by simp [nodes3])
  · exact Or.inl (by simp [nodes3])
  · exact Or.inl (by simp [nodes3])
  · exact Or.inl (by simp [nodes3])
  · exact nn _ v0 v1 rfl (by simp) (by simp) (hne 0 1 (by omega) (by omega))
  · exact nn _ v0 v2 rfl (by simp) (by simp) (hne 0 2 (by omega) (by omega))
  · exact nn _ v0 v3 rfl (by simp) (by simp) (hne 0 3 (by omega) (by omega))
  · exact nn _ v1 v2 rfl (by simp) (by simp) (hne 1 2 (by omega) (by omega))
  · exact nn _ v1 v3 rfl (by simp) (by simp) (hne 1 3 (by omega) (by omega))
  · exact nn _ v2 v3 rfl (by simp) (by simp) (hne 2 3 (by omega) (by omega))

private theorem volume3 (X : Nat → Nat → K) (k v0 v1 v2 v3 v01 v02 v03 v12 v13 v23 : Nat) (h : IsMid3 X v0 v1 v2 v3 v01 v02 v03 v12 v13 v23) :
    ∀ c ∈ children3 k v0 v1 v2 v3 v01 v02 v03 v12 v13 v23, edgeDet 3 (corners X c) = edgeDet 3 (corners X [v0, v1, v2, v3]) / 2 ^ 3 := by
  intro c hc
  obtain ⟨h1, h2, h3, h4, h5, h6⟩ := h
  obtain ⟨k', hk', ek⟩ := children3_mod k v0 v1 v2 v3 v01 v02 v03 v12 v13 v23
  rw [ek] at hc
  rw [det3, det3]
  interval_cases k' <;>
  · simp only [children3, if_true, one_ne_zero, OfNat.ofNat_ne_zero, OfNat.ofNat_ne_one, if_false, List.cons_append, List.nil_append, List.mem_cons, List.not_mem_nil, or_false] at hc
    rcases hc with rfl | rfl | rfl | rfl | rfl | rfl | rfl | rfl <;>
    · simp only [corners, List.getD_cons_zero, List.getD_cons_succ, h1, h2, h3, h4, h5, h6]
      ring

private theorem sub3 (X : Nat → Nat → K) (m : Nat → Nat → Nat) (k v0 v1 v2 v3 : Nat) (hm : (nodes3 m v0 v1 v2 v3).Nodup)
    (h : IsMid3 X v0 v1 v2 v3 (m v0 v1) (m v0 v2) (m v0 v3) (m v1 v2) (m v1 v3) (m v2 v3)) :
    Subdivides 3 X m [v0, v1, v2, v3] (children3 k v0 v1 v2 v3 (m v0 v1) (m v0 v2) (m v0 v3) (m v1 v2) (m v1 v3) (m v2 v3)) := by
  have g1 := nodes3_ok m k v0 v1 v2 v3 hm
  have g2 := volume3 X k v0 v1 v2 v3 _ _ _ _ _ _ h
  obtain ⟨k', hk', ek⟩ := children3_mod k v0 v1 v2 v3 (m v0 v1) (m v0 v2) (m v0 v3) (m v1 v2) (m v1 v3) (m v2 v3)
  rw [ek] at g1 g2 ⊢
  interval_cases k'
  · exact ⟨rfl, g1, tile3_0_cover X _ _ _ _ _ _ _ _ _ _ h, tile3_0_disjoint X _ _ _ _ _ _ _ _ _ _ h, g2⟩
  · exact ⟨rfl, g1, tile3_1_cover X _ _ _ _ _ _ _ _ _ _ h, tile3_1_disjoint X _ _ _ _ _ _ _ _ _ _ h, g2⟩
  · exact ⟨rfl, g1, tile3_2_cover X _ _ _ _ _ _ _ _ _ _ h, tile3_2_disjoint X _ _ _ _ _ _ _ _ _ _ h, g2⟩

/-! ### all tables -/

/-- Number of the vertex on an edge. -/
private def numb (n : Nat) (E : List (Nat × Nat)) (a b : Nat) : Nat := n + E.idxOf (sortEdge a b)

private theorem sortEdge_mem {cells : List (List Nat)} {a b : Nat} {E : List (Nat × Nat)} (hE : ∀ e, e ∈ E ↔ e.1 < e.2 ∧ IsEdge cells e.1 e.2) (h : IsEdge cells a b) : sortEdge a b ∈ E := by
  rw [hE]
  unfold sortEdge
  split
  · exact ⟨by assumption, h⟩
  · exact ⟨by have := h.1; dsimp only; omega, h.1.symm, h.2.imp fun c hc => ⟨hc.1, hc.2.2, hc.2.1⟩⟩

private theorem of_table (d dim : Nat) (V : List (List K)) (cells : List (List Nat)) (hV : ∀ r ∈ V, r.length = dim) (hc : IsMesh d V.length cells)
    (E : List (Nat × Nat)) (hE : E.Nodup) (he : ∀ e, e ∈ E ↔ e.1 < e.2 ∧ IsEdge cells e.1 e.2) (L : List ((Nat × Nat) × Nat)) (hL : IsTable V.length E L)
    (f : List Nat → List (List Nat)) (hf : ∀ c ∈ cells, (∀ a ∈ c, ∀ b ∈ c, a ≠ b → ∀ k, coords (V ++ E.map (midpoint dim V)) (numb V.length E a b) k =
        (coords (V ++ E.map (midpoint dim V)) a k + coords (V ++ E.map (midpoint dim V)) b k) / 2) → (∀ a ∈ c, a < V.length) →
        (∀ a b, V.length ≤ numb V.length E a b) → (∀ a ∈ c, ∀ b ∈ c, ∀ a' ∈ c, ∀ b' ∈ c, a ≠ b → a' ≠ b' → numb V.length E a b = numb V.length E a' b' → (a = a' ∧ b = b') ∨ (a = b' ∧ b = a')) →
        Subdivides d (coords (V ++ E.map (midpoint dim V))) (numb V.length E) c (f c)) :
    Refined d dim V cells (numb V.length E) (V ++ E.map (midpoint dim V)) (cells.flatMap f) L := by
  have hlt : ∀ a b, IsEdge cells a b → a < V.length ∧ b < V.length := fun a b h => by
    obtain ⟨-, c, hm, ha, hb⟩ := h
    exact ⟨(hc c hm).2.2 a ha, (hc c hm).2.2 b hb⟩
  have hinj : ∀ a b a' b', IsEdge cells a b → IsEdge cells a' b' → numb V.length E a b = numb V.length E a' b' → (a = a' ∧ b = b') ∨ (a = b' ∧ b = a') := fun a b a' b' h h' e => by
    unfold numb at e
    have := (List.idxOf_inj (sortEdge_mem he h)).1 (show E.idxOf (sortEdge a b) = E.idxOf (sortEdge a' b') by omega)
    exact (sortEdge_eq_iff h.1).1 this
  have hold : ∀ v k, v < V.length → coords (V ++ E.map (midpoint dim V)) v k = coords V v k := fun v k hv => by
    unfold coords
    rw [List.getD_append _ _ _ _ hv]
  have hmid : ∀ a b, IsEdge cells a b → ∀ k, coords (V ++ E.map (midpoint dim V)) (numb V.length E a b) k = (coords V a k + coords V b k) / 2 := fun a b h k => by
    have hm := sortEdge_mem he h
    have hi := List.idxOf_lt_length_of_mem hm
    unfold coords numb
    rw [List.getD_append_right _ _ _ _ (by omega), Nat.add_sub_cancel_left, List.getD_eq_getElem (E.map (midpoint dim V)) [] (show E.idxOf (sortEdge a b) < (E.map (midpoint dim V)).length by rw [List.length_map]; exact hi), List.getElem_map, List.getElem_idxOf]
    have e : midpoint dim V (sortEdge a b) = midpoint dim V (a, b) := by
      unfold sortEdge
      split
      · rfl
      · unfold midpoint
        simp only [add_comm]
    rw [e]
    unfold midpoint
    by_cases hk : k < dim
    · rw [List.getD_eq_getElem _ _ (by simpa using hk)]
      simp
      ring
    · rw [List.getD_eq_default _ _ (by simpa using hk)]
      have hz : ∀ v, v < V.length → (V.getD v []).getD k 0 = 0 := fun v hv => by
        rw [List.getD_eq_default]
        rw [List.getD_eq_getElem _ _ hv, hV _ (List.getElem_mem _)]
        omega
      rw [hz a (hlt a b h).1, hz b (hlt a b h).2]
      ring
  refine ⟨List.take_left, fun a b => by unfold numb; rw [sortEdge_comm], fun a b h => ?_, hinj, fun i h1 h2 => ?_, ?_, hmid, hL.nodup, fun a b v => ?_, cells.map f, ?_, ?_⟩
  · have := List.idxOf_lt_length_of_mem (sortEdge_mem he h)
    unfold numb
    rw [List.length_append, List.length_map]
    omega
  · rw [List.length_append, List.length_map] at h2
    have hi : i - V.length < E.length := by omega
    have hm := (he _).1 (List.getElem_mem hi)
    refine ⟨_, _, hm.2, ?_⟩
    unfold numb sortEdge
    rw [if_pos hm.1, Prod.mk.eta, List.Nodup.idxOf_getElem hE]
    omega
  · intro r hr
    rcases List.mem_append.1 hr with hr | hr
    · exact hV r hr
    · obtain ⟨e, -, rfl⟩ := List.mem_map.1 hr
      unfold midpoint
      simp
  · rw [hL.mem, he]
    constructor
    · rintro ⟨⟨h1, h2⟩, h3⟩
      refine ⟨h1, h2, ?_⟩
      unfold numb sortEdge
      rw [if_pos h1]
      exact h3
    · rintro ⟨h1, h2, h3⟩
      refine ⟨⟨h1, h2⟩, ?_⟩
      unfold numb sortEdge at h3
      rw [if_pos h1] at h3
      exact h3
  · rw [List.forall₂_map_right_iff, List.forall₂_same]
    intro c hm
    have hed : ∀ a ∈ c, ∀ b ∈ c, a ≠ b → IsEdge cells a b := fun a ha b hb hab => ⟨hab, c, hm, ha, hb⟩
    refine hf c hm (fun a ha b hb hab k => ?_) (hc c hm).2.2 (fun a b => by unfold numb; omega) (fun a ha b hb a' ha' b' hb' h h' => hinj a b a' b' (hed a ha b hb h) (hed a' ha' b' hb' h'))
    rw [hmid a b (hed a ha b hb hab), hold a k ((hc c hm).2.2 a ha), hold b k ((hc c hm).2.2 b hb)]
  · rw [List.flatMap_def]

private theorem length2 (c : List Nat) (h : c.length = 2) : ∃ v0 v1, c = [v0, v1] := by
  match c, h with
  | [a, b], _ => exact ⟨a, b, rfl⟩
private theorem length3 (c : List Nat) (h : c.length = 3) : ∃ v0 v1 v2, c = [v0, v1, v2] := by
  match c, h with
  | [a, b, e], _ => exact ⟨a, b, e, rfl⟩
private theorem length4 (c : List Nat) (h : c.length = 4) : ∃ v0 v1 v2 v3, c = [v0, v1, v2, v3] := by
  match c, h with
  | [a, b, e, f], _ => exact ⟨a, b, e, f, rfl⟩

private theorem edge_iff {d n : Nat} {cells : List (List Nat)} (hc : IsMesh d n cells) (edges : List Nat → List (Nat × Nat))
    (h : ∀ c, c.length = d + 1 → ∀ e, e ∈ edges c ↔ ∃ i j, i < j ∧ j < c.length ∧ e = sortEdge (c.getD i 0) (c.getD j 0)) (e : Nat × Nat) :
    e ∈ cells.flatMap edges ↔ e.1 < e.2 ∧ IsEdge cells e.1 e.2 := by
  rw [List.mem_flatMap]
  constructor
  · rintro ⟨c, hm, he⟩
    have := (pairs_iff c (hc c hm).2.1 e).1 ((h c (hc c hm).1 e).1 he)
    exact ⟨this.1, by omega, c, hm, this.2⟩
  · rintro ⟨h1, -, c, hm, h2⟩
    exact ⟨c, hm, (h c (hc c hm).1 e).2 ((pairs_iff c (hc c hm).2.1 e).2 ⟨h1, h2⟩)⟩

private theorem few {cells : List (List Nat)} (hf : FewNeighbours cells) (E : List (Nat × Nat)) (he : ∀ e, e ∈ E ↔ e.1 < e.2 ∧ IsEdge cells e.1 e.2) : Few E :=
  fun I l hn hl => hf I l hn fun b hb => (he (I, b)).1 (hl b hb)

private theorem getD_mem {c : List Nat} {i : Nat} (h : i < c.length) : c.getD i 0 ∈ c := by
  rw [List.getD_eq_getElem _ _ h]; exact List.getElem_mem _

private theorem numb_getD {d n : Nat} {cells : List (List Nat)} (hc : IsMesh d n cells) {E : List (Nat × Nat)} (he : ∀ e, e ∈ E ↔ e.1 < e.2 ∧ IsEdge cells e.1 e.2) :
    ∀ c ∈ cells, ∀ i j, i < j → j < c.length → sortEdge (c.getD i 0) (c.getD j 0) ∈ E := fun c hm i j hij hj => by
  refine sortEdge_mem he ⟨fun h => ?_, c, hm, getD_mem (by omega), getD_mem hj⟩
  have := getD_inj (hc c hm).2.1 (show i < c.length by omega) hj h
  omega

private theorem kids2 {V : List (List K)} {E : List (Nat × Nat)} {X : Nat → Nat → K} (c : List Nat) (hl : c.length = 3 ∧ c.Nodup)
    (h1 : ∀ a ∈ c, ∀ b ∈ c, a ≠ b → ∀ k, X (numb V.length E a b) k = (X a k + X b k) / 2) (h2 : ∀ a ∈ c, a < V.length)
    (h3 : ∀ a b, V.length ≤ numb V.length E a b) (h4 : ∀ a ∈ c, ∀ b ∈ c, ∀ a' ∈ c, ∀ b' ∈ c, a ≠ b → a' ≠ b' → numb V.length E a b = numb V.length E a' b' → (a = a' ∧ b = b') ∨ (a = b' ∧ b = a')) :
    Subdivides 2 X (numb V.length E) c (children2 (c.getD 0 0) (c.getD 1 0) (c.getD 2 0) (numb V.length E (c.getD 0 0) (c.getD 1 0)) (numb V.length E (c.getD 1 0) (c.getD 2 0)) (numb V.length E (c.getD 0 0) (c.getD 2 0))) := by
  obtain ⟨v0, v1, v2, rfl⟩ := length3 c hl.1
  have hn := hl.2
  simp only [List.nodup_cons, List.mem_cons, List.not_mem_nil, or_false, not_or] at hn
  have g0 := h2 v0 (by simp)
  have g1 := h2 v1 (by simp)
  have g2 := h2 v2 (by simp)
  have m01 := h3 v0 v1
  have m02 := h3 v0 v2
  have m12 := h3 v1 v2
  have a1 : numb V.length E v0 v1 ≠ numb V.length E v0 v2 := fun h => by have := h4 v0 (by simp) v1 (by simp) v0 (by simp) v2 (by simp) (by omega) (by omega) h; omega
  have a2 : numb V.length E v0 v1 ≠ numb V.length E v1 v2 := fun h => by have := h4 v0 (by simp) v1 (by simp) v1 (by simp) v2 (by simp) (by omega) (by omega) h; omega
  have a3 : numb V.length E v0 v2 ≠ numb V.length E v1 v2 := fun h => by have := h4 v0 (by simp) v2 (by simp) v1 (by simp) v2 (by simp) (by omega) (by omega) h; omega
  refine sub2 X (numb V.length E) v0 v1 v2 ?_ ⟨h1 v0 (by simp) v1 (by simp) (by omega), h1 v0 (by simp) v2 (by simp) (by omega), h1 v1 (by simp) v2 (by simp) (by omega)⟩
  simp only [List.nodup_cons, List.mem_cons, List.not_mem_nil, or_false, not_or, List.nodup_nil, and_true, not_false_eq_true]
  omega

private theorem kids1 {V : List (List K)} {E : List (Nat × Nat)} {X : Nat → Nat → K} (c : List Nat) (hl : c.length = 2 ∧ c.Nodup)
    (h1 : ∀ a ∈ c, ∀ b ∈ c, a ≠ b → ∀ k, X (numb V.length E a b) k = (X a k + X b k) / 2) (h2 : ∀ a ∈ c, a < V.length)
    (h3 : ∀ a b, V.length ≤ numb V.length E a b) :
    Subdivides 1 X (numb V.length E) c [[c.getD 0 0, numb V.length E (c.getD 0 0) (c.getD 1 0)], [numb V.length E (c.getD 0 0) (c.getD 1 0), c.getD 1 0]] := by
  obtain ⟨v0, v1, rfl⟩ := length2 c hl.1
  have hn := hl.2
  simp only [List.nodup_cons, List.mem_cons, List.not_mem_nil, or_false] at hn
  have g0 := h2 v0 (by simp)
  have g1 := h2 v1 (by simp)
  have m01 := h3 v0 v1
  refine sub1 X (numb V.length E) v0 v1 ?_ (h1 v0 (by simp) v1 (by simp) (by omega))
  simp only [List.nodup_cons, List.mem_cons, List.not_mem_nil, or_false, not_or, List.nodup_nil, and_true, not_false_eq_true]
  omega

private theorem nodup3 {n : Nat} {E : List (Nat × Nat)} (v0 v1 v2 v3 : Nat) (hn : [v0, v1, v2, v3].Nodup) (h2 : ∀ a ∈ [v0, v1, v2, v3], a < n)
    (h3 : ∀ a b, n ≤ numb n E a b) (h4 : ∀ a ∈ [v0, v1, v2, v3], ∀ b ∈ [v0, v1, v2, v3], ∀ a' ∈ [v0, v1, v2, v3], ∀ b' ∈ [v0, v1, v2, v3], a ≠ b → a' ≠ b' → numb n E a b = numb n E a' b' → (a = a' ∧ b = b') ∨ (a = b' ∧ b = a')) :
    (nodes3 (numb n E) v0 v1 v2 v3).Nodup := by
  have e : nodes3 (numb n E) v0 v1 v2 v3 = [v0, v1, v2, v3] ++ [(0, 1), (0, 2), (0, 3), (1, 2), (1, 3), (2, 3)].map
      fun q : Nat × Nat => numb n E ([v0, v1, v2, v3].getD q.1 0) ([v0, v1, v2, v3].getD q.2 0) := rfl
  have hP : ∀ q ∈ [((0, 1) : Nat × Nat), (0, 2), (0, 3), (1, 2), (1, 3), (2, 3)], q.1 < q.2 ∧ q.2 < 4 := by decide
  rw [e, List.nodup_append]
  refine ⟨hn, List.Nodup.map_on (fun x hx y hy h => ?_) (by decide), fun a ha b hb => ?_⟩
  · obtain ⟨x1, x2⟩ := hP x hx
    obtain ⟨y1, y2⟩ := hP y hy
    have hl : ∀ i, i < 4 → i < [v0, v1, v2, v3].length := fun i h => h
    have hmem : ∀ i, i < 4 → [v0, v1, v2, v3].getD i 0 ∈ [v0, v1, v2, v3] := fun i h => getD_mem (hl i h)
    have hinj : ∀ i j, i < 4 → j < 4 → [v0, v1, v2, v3].getD i 0 = [v0, v1, v2, v3].getD j 0 → i = j := fun i j hi hj h => getD_inj hn (hl i hi) (hl j hj) h
    rcases h4 _ (hmem x.1 (by omega)) _ (hmem x.2 x2) _ (hmem y.1 (by omega)) _ (hmem y.2 y2) (fun h => by have := hinj _ _ (by omega) (by omega) h; omega)
      (fun h => by have := hinj _ _ (by omega) (by omega) h; omega) h with ⟨p, q⟩ | ⟨p, q⟩
    · exact Prod.ext (hinj _ _ (by omega) (by omega) p) (hinj _ _ (by omega) (by omega) q)
    · have := hinj _ _ (by omega) (by omega) p
      have := hinj _ _ (by omega) (by omega) q
      omega
  · obtain ⟨q, -, rfl⟩ := List.mem_map.1 hb
    have := h2 a ha
    have := h3 ([v0, v1, v2, v3].getD q.1 0) ([v0, v1, v2, v3].getD q.2 0)
    omega

private theorem kids3 {V : List (List K)} {E : List (Nat × Nat)} {X : Nat → Nat → K} (k : Nat) (c : List Nat) (hl : c.length = 4 ∧ c.Nodup)
    (h1 : ∀ a ∈ c, ∀ b ∈ c, a ≠ b → ∀ k, X (numb V.length E a b) k = (X a k + X b k) / 2) (h2 : ∀ a ∈ c, a < V.length)
    (h3 : ∀ a b, V.length ≤ numb V.length E a b) (h4 : ∀ a ∈ c, ∀ b ∈ c, ∀ a' ∈ c, ∀ b' ∈ c, a ≠ b → a' ≠ b' → numb V.length E a b = numb V.length E a' b' → (a = a' ∧ b = b') ∨ (a = b' ∧ b = a')) :
    Subdivides 3 X (numb V.length E) c (children3 k (c.getD 0 0) (c.getD 1 0) (c.getD 2 0) (c.getD 3 0)
      (numb V.length E (c.getD 0 0) (c.getD 1 0)) (numb V.length E (c.getD 0 0) (c.getD 2 0)) (numb V.length E (c.getD 0 0) (c.getD 3 0))
      (numb V.length E (c.getD 1 0) (c.getD 2 0)) (numb V.length E (c.getD 1 0) (c.getD 3 0)) (numb V.length E (c.getD 2 0) (c.getD 3 0))) := by
  obtain ⟨v0, v1, v2, v3, rfl⟩ := length4 c hl.1
  have hn := hl.2
  simp only [List.nodup_cons, List.mem_cons, List.not_mem_nil, or_false, not_or] at hn
  exact sub3 X (numb V.length E) k v0 v1 v2 v3 (nodup3 v0 v1 v2 v3 hl.2 h2 h3 h4)
    ⟨h1 v0 (by simp) v1 (by simp) (by omega), h1 v0 (by simp) v2 (by simp) (by omega), h1 v0 (by simp) v3 (by simp) (by omega),
      h1 v1 (by simp) v2 (by simp) (by omega), h1 v1 (by simp) v3 (by simp) (by omega), h1 v2 (by simp) v3 (by simp) (by omega)⟩

private theorem entered {d : Nat} (V : List (List K)) (cells : List (List Nat)) (hc : IsMesh d V.length cells) (hf : FewNeighbours cells) (edges : List Nat → List (Nat × Nat))
    (h : ∀ c, c.length = d + 1 → ∀ e, e ∈ edges c ↔ ∃ i j, i < j ∧ j < c.length ∧ e = sortEdge (c.getD i 0) (c.getD j 0)) :
    ∃ (E : List (Nat × Nat)) (t : PyNucleus.TupleDict.Dict Nat), E.Nodup ∧ (∀ e, e ∈ E ↔ e.1 < e.2 ∧ IsEdge cells e.1 e.2) ∧
      enterEdges (cells.flatMap edges) (PyNucleus.TupleDict.init config V.length, V.length) = some (t, V.length + E.length) ∧ PyNucleus.TupleDict.Rel V.length t (mapOf V.length E) ∧
      ∀ c ∈ cells, ∀ i j, i < j → j < c.length → getEdge t (sortEdge (c.getD i 0) (c.getD j 0)) = some (V.length + E.idxOf (sortEdge (c.getD i 0) (c.getD j 0))) := by
  have hes := edge_iff hc edges h
  obtain ⟨hnd, hm⟩ := fold_addE (cells.flatMap edges) [] List.nodup_nil
  have he : ∀ e, e ∈ (cells.flatMap edges).foldl addE [] ↔ e.1 < e.2 ∧ IsEdge cells e.1 e.2 := fun e => by rw [hm, ← hes e]; simp
  have hlt : ∀ e : Nat × Nat, e.1 < e.2 ∧ IsEdge cells e.1 e.2 → e.1 < V.length := fun e h => by
    obtain ⟨-, -, c, hm, ha, -⟩ := h
    exact (hc c hm).2.2 _ ha
  obtain ⟨t, h1, h2⟩ := enterEdges_eq V.length (cells.flatMap edges) (few hf _ hes) (fun e h => hlt e ((hes e).1 h)) (cells.flatMap edges) [] (PyNucleus.TupleDict.init config V.length)
    (by
      have := PyNucleus.TupleDict.rel_init config V.length
      rwa [show mapOf V.length [] = fun _ => none by funext k; unfold mapOf; simp]) List.nodup_nil (fun e h => absurd h List.not_mem_nil) (fun e h => h)
  refine ⟨_, t, hnd, he, h1, h2, fun c hm i j hij hj => ?_⟩
  have := numb_getD hc he c hm i j hij hj
  exact getEdge_eq V.length _ t h2 (few hf _ he) _ this (hlt _ ((he _).1 this))

/-! ### the theorems -/

/-- Triangles, in the plane or in space, with the order of the new triangles. -/
theorem ordered_triangles (dim : Nat) (u : Nat → List (List K)) (hu : ∀ n, (u n).length = n) (V : List (List K)) (hV : ∀ r ∈ V, r.length = dim) (cells : List (List Nat))
    (hc : IsMesh 2 V.length cells) (hf : FewNeighbours cells) :
    ∃ m V' cells' lookup, refine2D dim u V cells = some (V', cells', lookup) ∧ Refined 2 dim V cells m V' cells' lookup ∧
      cells' = cells.flatMap fun c => children2 (c.getD 0 0) (c.getD 1 0) (c.getD 2 0) (m (c.getD 0 0) (c.getD 1 0)) (m (c.getD 1 0) (c.getD 2 0)) (m (c.getD 0 0) (c.getD 2 0)) := by
  obtain ⟨E, t, hnd, he, h1, h2, hg⟩ := entered V cells hc hf edges2 (fun c h => mem_edges2 c h)
  obtain ⟨L, h3, h4⟩ := newVertices_eq dim u hu V hV _ hnd t h2
  have h5 := cells2_eq (getEdge t) (fun e => V.length + E.idxOf e) cells (fun c h => (hc c h).1) hg
  refine ⟨numb V.length E, _, _, L, ?_, of_table 2 dim V cells hV hc _ hnd he L h4 _ fun c hm a b e f => kids2 c ⟨(hc c hm).1, (hc c hm).2.1⟩ a b e f, rfl⟩
  unfold refine2D
  rw [h1]
  show (do let v ← newVertices dim u V (t, V.length + E.length); let c ← cells2 (getEdge t) cells; pure (v.1, c, v.2)) = _
  rw [h3]
  show (do let c ← cells2 (getEdge t) cells; pure (V ++ E.map (midpoint dim V), c, L)) = _
  rw [h5]
  rfl

/-- Triangles, in the plane or in space. -/
theorem refine_triangles (dim : Nat) (u : Nat → List (List K)) (hu : ∀ n, (u n).length = n) (V : List (List K)) (hV : ∀ r ∈ V, r.length = dim) (cells : List (List Nat))
    (hc : IsMesh 2 V.length cells) (hf : FewNeighbours cells) :
    ∃ m V' cells' lookup, refine2D dim u V cells = some (V', cells', lookup) ∧ Refined 2 dim V cells m V' cells' lookup := by
  obtain ⟨m, V', cells', lookup, h, hR, -⟩ := ordered_triangles dim u hu V hV cells hc hf
  exact ⟨m, V', cells', lookup, h, hR⟩

/-- The four triangles of the face `a b e`. -/
def triangles (m : Nat → Nat → Nat) (a b e : Nat) : List (List Nat) := [[a, m a b, m a e], [b, m b e, m a b], [e, m a e, m b e], [m a b, m b e, m a e]]

/-- Faces of the new tetrahedra on a face of the old one: the four triangles of the face, the same for both tetrahedra with that face. -/
def Conforms (m : Nat → Nat → Nat) (c : List Nat) (kids : List (List Nat)) : Prop := ∀ a ∈ c, ∀ b ∈ c, ∀ e ∈ c, a ≠ b → a ≠ e → b ≠ e →
  (∀ k ∈ kids, ∀ t : List Nat, t.Sublist k → t.length = 3 → (∀ v ∈ t, v ∈ [a, b, e, m a b, m b e, m a e]) → ∃ t' ∈ triangles m a b e, t.Perm t') ∧
  ∀ t' ∈ triangles m a b e, ∃ k ∈ kids, ∀ v ∈ t', v ∈ k

/-- Squared distance of two vertices. -/
def sqDist (X : Nat → Nat → K) (v w : Nat) : K := ∑ k ∈ Finset.range 3, (X v k - X w k) ^ 2

/-- The octahedron in the middle is cut along its shortest diagonal. -/
def Shortest (X : Nat → Nat → K) (m : Nat → Nat → Nat) (c : List Nat) (kids : List (List Nat)) : Prop :=
  ∃ q ∈ [((0, 1, 2, 3) : Nat × Nat × Nat × Nat), (0, 2, 1, 3), (0, 3, 1, 2)],
    (∀ k ∈ kids.drop 4, m (c.getD q.1 0) (c.getD q.2.1 0) ∈ k ∧ m (c.getD q.2.2.1 0) (c.getD q.2.2.2 0) ∈ k) ∧
    ∀ r ∈ [((0, 1, 2, 3) : Nat × Nat × Nat × Nat), (0, 2, 1, 3), (0, 3, 1, 2)],
      sqDist X (m (c.getD q.1 0) (c.getD q.2.1 0)) (m (c.getD q.2.2.1 0) (c.getD q.2.2.2 0)) ≤
        sqDist X (m (c.getD r.1 0) (c.getD r.2.1 0)) (m (c.getD r.2.2.1 0) (c.getD r.2.2.2 0))

/-- Number of the node on the edge `i j` of the reference tetrahedron. -/
private def mid (i j : Nat) : Nat := ([[0, 4, 5, 6], [4, 0, 7, 8], [5, 7, 0, 9], [6, 8, 9, 0]].getD i []).getD j 0

private theorem conforms_sym : ∀ k < 3, ∀ a < 4, ∀ b < 4, ∀ e < 4, a ≠ b → a ≠ e → b ≠ e →
    (∀ s ∈ children3 k 0 1 2 3 4 5 6 7 8 9, ∀ t ∈ s.sublists, t.length = 3 → (∀ v ∈ t, v ∈ [a, b, e, mid a b, mid b e, mid a e]) → ∃ t' ∈ triangles mid a b e, t.Perm t') ∧
    ∀ t' ∈ triangles mid a b e, ∃ s ∈ children3 k 0 1 2 3 4 5 6 7 8 9, ∀ v ∈ t', v ∈ s := by
  have hsub : ∀ (s f : List Nat) (T : List (List Nat)), (∀ t ∈ s.sublists.filter (fun t => decide (t.length = 3) && t.all fun v => f.contains v), T.any fun t' => t.isPerm t') →
      ∀ t ∈ s.sublists, t.length = 3 → (∀ v ∈ t, v ∈ f) → ∃ t' ∈ T, t.Perm t' := fun s f T h t ht h3 hv => by
    have := h t (List.mem_filter.2 ⟨ht, by
      rw [Bool.and_eq_true]
      exact ⟨by simpa using h3, by rw [List.all_eq_true]; intro v hm; simpa using hv v hm⟩⟩)
    obtain ⟨t', h1, h2⟩ := List.any_eq_true.1 this
    exact ⟨t', h1, List.isPerm_iff.1 h2⟩
  have d1 : ∀ k ∈ List.range 3, ∀ a ∈ List.range 4, ∀ b ∈ List.range 4, ∀ e ∈ List.range 4, a ≠ b → a ≠ e → b ≠ e → ∀ s ∈ children3 k 0 1 2 3 4 5 6 7 8 9,
      ∀ t ∈ s.sublists.filter (fun t => decide (t.length = 3) && t.all fun v => [a, b, e, mid a b, mid b e, mid a e].contains v), (triangles mid a b e).any fun t' => t.isPerm t' := by decide +kernel
  have d2 : ∀ k ∈ List.range 3, ∀ a ∈ List.range 4, ∀ b ∈ List.range 4, ∀ e ∈ List.range 4, a ≠ b → a ≠ e → b ≠ e → ∀ t' ∈ triangles mid a b e, (children3 k 0 1 2 3 4 5 6 7 8 9).any fun s => t'.all fun v => s.contains v := by decide +kernel
  intro k hk a ha b hb e he h1 h2 h3
  refine ⟨fun s hs => hsub s _ _ (d1 k (List.mem_range.2 hk) a (List.mem_range.2 ha) b (List.mem_range.2 hb) e (List.mem_range.2 he) h1 h2 h3 s hs), fun t' ht' => ?_⟩
  obtain ⟨s, g1, g2⟩ := List.any_eq_true.1 (d2 k (List.mem_range.2 hk) a (List.mem_range.2 ha) b (List.mem_range.2 hb) e (List.mem_range.2 he) h1 h2 h3 t' ht')
  rw [List.all_eq_true] at g2
  exact ⟨s, g1, fun v hv => by simpa using g2 v hv⟩

private theorem conforms (m : Nat → Nat → Nat) (hs : ∀ a b, m a b = m b a) (k v0 v1 v2 v3 : Nat) (hm : (nodes3 m v0 v1 v2 v3).Nodup) :
    Conforms m [v0, v1, v2, v3] (children3 k v0 v1 v2 v3 (m v0 v1) (m v0 v2) (m v0 v3) (m v1 v2) (m v1 v3) (m v2 v3)) := by
  have hmap := children3_map (nodes3 m v0 v1 v2 v3) k
  change children3 k v0 v1 v2 v3 (m v0 v1) (m v0 v2) (m v0 v3) (m v1 v2) (m v1 v3) (m v2 v3) = _ at hmap
  rw [hmap]
  obtain ⟨k', hk', ek⟩ := children3_mod k 0 1 2 3 4 5 6 7 8 9
  rw [ek]
  set φ := fun i => (nodes3 m v0 v1 v2 v3).getD i 0 with hφ
  have hmem : ∀ a ∈ [v0, v1, v2, v3], ∃ i < 4, a = φ i := by
    intro a ha
    simp only [List.mem_cons, List.not_mem_nil, or_false] at ha
    rcases ha with rfl | rfl | rfl | rfl
    · exact ⟨0, by omega, rfl⟩
    · exact ⟨1, by omega, rfl⟩
    · exact ⟨2, by omega, rfl⟩
    · exact ⟨3, by omega, rfl⟩
  have hmid : ∀ i < 4, ∀ j < 4, i ≠ j → m (φ i) (φ j) = φ (mid i j) := by
    intro i hi j hj hij
    interval_cases i <;> interval_cases j <;> first | exact absurd rfl hij | rfl | exact hs _ _
  have hmidlt : ∀ i < 4, ∀ j < 4, mid i j < 10 := by decide
  have hinj : ∀ i < 10, ∀ j < 10, φ i = φ j → i = j := fun i hi j hj h => getD_inj hm hi hj h
  intro a ha b hb e he hab hae hbe
  obtain ⟨i, hi, rfl⟩ := hmem a ha
  obtain ⟨j, hj, rfl⟩ := hmem b hb
  obtain ⟨l, hl, rfl⟩ := hmem e he
  have ij : i ≠ j := fun h => hab (by rw [h])
  have il : i ≠ l := fun h => hae (by rw [h])
  have jl : j ≠ l := fun h => hbe (by rw [h])
  obtain ⟨s1, s2⟩ := conforms_sym k' hk' i hi j hj l hl ij il jl
  have htri : triangles m (φ i) (φ j) (φ l) = (triangles mid i j l).map (List.map φ) := by
    unfold triangles
    rw [hmid i hi j hj ij, hmid j hj l hl jl, hmid i hi l hl il]
    rfl
  have hkid : ∀ s ∈ children3 k' 0 1 2 3 4 5 6 7 8 9, ∀ x ∈ s, x < 10 := (by decide : ∀ k' < 3, ∀ s ∈ children3 k' 0 1 2 3 4 5 6 7 8 9, ∀ x ∈ s, x < 10) k' hk'
  rw [htri]
  constructor
  · intro k hk t ht h3 hv
    obtain ⟨s, hs', rfl⟩ := List.mem_map.1 hk
    obtain ⟨t0, ht0, rfl⟩ := List.sublist_map_iff.1 ht
    have hface : ∀ v ∈ t0, v ∈ [i, j, l, mid i j, mid j l, mid i l] := fun v hv0 => by
      have := hv (φ v) (List.mem_map_of_mem hv0)
      rw [hmid i hi j hj ij, hmid j hj l hl jl, hmid i hi l hl il] at this
      have hv10 := hkid s hs' v (ht0.subset hv0)
      simp only [List.mem_cons, List.not_mem_nil, or_false] at this ⊢
      have a1 := hmidlt i hi j hj
      have a2 := hmidlt j hj l hl
      have a3 := hmidlt i hi l hl
      rcases this with h | h | h | h | h | h
      · exact Or.inl (hinj _ hv10 _ (by omega) h)
      · exact Or.inr (Or.inl (hinj _ hv10 _ (by omega) h))
      · exact Or.inr (Or.inr (Or.inl (hinj _ hv10 _ (by omega) h)))
      · exact Or.inr (Or.inr (Or.inr (Or.inl (hinj _ hv10 _ (by omega) h))))
      · exact Or.inr (Or.inr (Or.inr (Or.inr (Or.inl (hinj _ hv10 _ (by omega) h)))))
      · exact Or.inr (Or.inr (Or.inr (Or.inr (Or.inr (hinj _ hv10 _ (by omega) h)))))
    obtain ⟨t', h1, h2⟩ := s1 s hs' t0 (List.mem_sublists.2 ht0) (by simpa using h3) hface
    exact ⟨t'.map φ, List.mem_map_of_mem h1, h2.map φ⟩
  · intro t' ht'
    obtain ⟨t0, h0, rfl⟩ := List.mem_map.1 ht'
    obtain ⟨s, h1, h2⟩ := s2 t0 h0
    refine ⟨s.map φ, List.mem_map_of_mem h1, fun v hv => ?_⟩
    obtain ⟨x, hx, rfl⟩ := List.mem_map.1 hv
    exact List.mem_map_of_mem (h2 x hx)

private theorem dist2_eq (V : List (List K)) (v w : Nat) : dist2 (V.getD v []) (V.getD w []) = sqDist (coords V) v w := by
  unfold dist2 sqDist coords
  simp only [Finset.sum_range_succ, Finset.sum_range_zero]
  ring

private theorem shortest (X : Nat → Nat → K) (m : Nat → Nat → Nat) (v0 v1 v2 v3 : Nat) :
    Shortest X m [v0, v1, v2, v3] (children3 (diagonal (sqDist X (m v0 v1) (m v2 v3)) (sqDist X (m v0 v2) (m v1 v3)) (sqDist X (m v0 v3) (m v1 v2)))
      v0 v1 v2 v3 (m v0 v1) (m v0 v2) (m v0 v3) (m v1 v2) (m v1 v3) (m v2 v3)) := by
  unfold diagonal
  split
  · rename_i h
    refine ⟨(0, 1, 2, 3), by simp, by simp [children3], ?_⟩
    simp only [List.mem_cons, List.not_mem_nil, or_false]
    rintro r (rfl | rfl | rfl)
    · exact le_refl _
    · exact h.1.le
    · exact h.2.le
  · rename_i h
    split
    · rename_i h'
      refine ⟨(0, 2, 1, 3), by simp, by simp [children3], ?_⟩
      simp only [List.mem_cons, List.not_mem_nil, or_false]
      rintro r (rfl | rfl | rfl)
      · exact not_lt.1 fun hh => h ⟨hh, hh.trans h'⟩
      · exact le_refl _
      · exact h'.le
    · rename_i h'
      refine ⟨(0, 3, 1, 2), by simp, by simp [children3], ?_⟩
      simp only [List.mem_cons, List.not_mem_nil, or_false]
      rintro r (rfl | rfl | rfl)
      · exact not_lt.1 fun hh => h ⟨hh.trans_le (not_lt.1 h'), hh⟩
      · exact not_lt.1 h'
      · exact le_refl _

/-- Tetrahedra, with the order of the new tetrahedra. -/
theorem ordered_tetrahedra (u : Nat → List (List K)) (hu : ∀ n, (u n).length = n) (V : List (List K)) (hV : ∀ r ∈ V, r.length = 3) (cells : List (List Nat))
    (hc : IsMesh 3 V.length cells) (hf : FewNeighbours cells) :
    ∃ m V' cells' lookup, refine3D u V cells = some (V', cells', lookup) ∧ Refined 3 3 V cells m V' cells' lookup ∧
      (∃ parts, List.Forall₂ (fun c kids => kids.length = 8 ∧ Conforms m c kids ∧ Shortest (coords V') m c kids) cells parts ∧ cells' = parts.flatten) ∧
      ∃ k : List Nat → Nat, cells' = cells.flatMap fun c => children3 (k c) (c.getD 0 0) (c.getD 1 0) (c.getD 2 0) (c.getD 3 0) (m (c.getD 0 0) (c.getD 1 0)) (m (c.getD 0 0) (c.getD 2 0))
        (m (c.getD 0 0) (c.getD 3 0)) (m (c.getD 1 0) (c.getD 2 0)) (m (c.getD 1 0) (c.getD 3 0)) (m (c.getD 2 0) (c.getD 3 0)) := by
  obtain ⟨E, t, hnd, he, h1, h2, hg⟩ := entered V cells hc hf edges3 (fun c h => mem_edges3 c h)
  obtain ⟨L, h3, h4⟩ := newVertices_eq 3 u hu V hV _ hnd t h2
  have h5 := cells3_eq (getEdge t) (fun e => V.length + E.idxOf e) (V ++ E.map (midpoint 3 V)) cells (fun c h => (hc c h).1) hg
  simp only [dist2_eq] at h5
  change cells3 _ _ _ = some (cells.flatMap fun c => children3 (diagonal (sqDist (coords (V ++ E.map (midpoint 3 V))) (numb V.length E (c.getD 0 0) (c.getD 1 0)) (numb V.length E (c.getD 2 0) (c.getD 3 0)))
      (sqDist (coords (V ++ E.map (midpoint 3 V))) (numb V.length E (c.getD 0 0) (c.getD 2 0)) (numb V.length E (c.getD 1 0) (c.getD 3 0)))
      (sqDist (coords (V ++ E.map (midpoint 3 V))) (numb V.length E (c.getD 0 0) (c.getD 3 0)) (numb V.length E (c.getD 1 0) (c.getD 2 0))))
      (c.getD 0 0) (c.getD 1 0) (c.getD 2 0) (c.getD 3 0)
      (numb V.length E (c.getD 0 0) (c.getD 1 0)) (numb V.length E (c.getD 0 0) (c.getD 2 0)) (numb V.length E (c.getD 0 0) (c.getD 3 0))
      (numb V.length E (c.getD 1 0) (c.getD 2 0)) (numb V.length E (c.getD 1 0) (c.getD 3 0)) (numb V.length E (c.getD 2 0) (c.getD 3 0))) at h5
  have hR := of_table 3 3 V cells hV hc _ hnd he L h4 _ fun c hm a b e f => kids3 (diagonal (sqDist (coords (V ++ E.map (midpoint 3 V))) (numb V.length E (c.getD 0 0) (c.getD 1 0)) (numb V.length E (c.getD 2 0) (c.getD 3 0)))
      (sqDist (coords (V ++ E.map (midpoint 3 V))) (numb V.length E (c.getD 0 0) (c.getD 2 0)) (numb V.length E (c.getD 1 0) (c.getD 3 0)))
      (sqDist (coords (V ++ E.map (midpoint 3 V))) (numb V.length E (c.getD 0 0) (c.getD 3 0)) (numb V.length E (c.getD 1 0) (c.getD 2 0)))) c ⟨(hc c hm).1, (hc c hm).2.1⟩ a b e f
  refine ⟨numb V.length E, _, _, L, ?_, hR, ⟨cells.map _, ?_, List.flatMap_def ..⟩, _, rfl⟩
  · unfold refine3D
    rw [h1]
    show (do let v ← newVertices 3 u V (t, V.length + E.length); let c ← cells3 (getEdge t) v.1 cells; pure (v.1, c, v.2)) = _
    rw [h3]
    show (do let c ← cells3 (getEdge t) (V ++ E.map (midpoint 3 V)) cells; pure (V ++ E.map (midpoint 3 V), c, L)) = _
    rw [h5]
    rfl
  · rw [List.forall₂_map_right_iff, List.forall₂_same]
    intro c hm
    have hn := (hc c hm).2.1
    have hlt := (hc c hm).2.2
    have hed : ∀ a ∈ c, ∀ b ∈ c, a ≠ b → IsEdge cells a b := fun a ha b hb hab => ⟨hab, c, hm, ha, hb⟩
    have hi := hR.inj
    obtain ⟨v0, v1, v2, v3, rfl⟩ := length4 c (hc c hm).1
    refine ⟨?_, conforms _ hR.symm _ v0 v1 v2 v3 (nodup3 v0 v1 v2 v3 hn hlt (fun a b => by unfold numb; omega)
      fun a ha b hb a' ha' b' hb' h h' => hi a b a' b' (hed a ha b hb h) (hed a' ha' b' hb' h')), shortest _ _ v0 v1 v2 v3⟩
    unfold children3
    split_ifs <;> rfl

/-- Tetrahedra. -/
theorem refine_tetrahedra (u : Nat → List (List K)) (hu : ∀ n, (u n).length = n) (V : List (List K)) (hV : ∀ r ∈ V, r.length = 3) (cells : List (List Nat))
    (hc : IsMesh 3 V.length cells) (hf : FewNeighbours cells) :
    ∃ m V' cells' lookup, refine3D u V cells = some (V', cells', lookup) ∧ Refined 3 3 V cells m V' cells' lookup ∧
      ∃ parts, List.Forall₂ (fun c kids => kids.length = 8 ∧ Conforms m c kids ∧ Shortest (coords V') m c kids) cells parts ∧ cells' = parts.flatten := by
  obtain ⟨m, V', cells', lookup, h, hR, hp, -⟩ := ordered_tetrahedra u hu V hV cells hc hf
  exact ⟨m, V', cells', lookup, h, hR, hp⟩

/-- Intervals, on the line, in the plane or in space, with the order of the new intervals. -/
theorem ordered_intervals (dim : Nat) (u : Nat → List (List K)) (hu : ∀ n, (u n).length = n) (V : List (List K)) (hV : ∀ r ∈ V, r.length = dim) (cells : List (List Nat))
    (hc : IsMesh 1 V.length cells) (hd : cells.Pairwise fun a b => ¬ a.Perm b) :
    ∃ m V' cells' lookup, refine1D dim u V cells = some (V', cells', lookup) ∧ Refined 1 dim V cells m V' cells' lookup ∧
      cells' = cells.flatMap fun c => [[c.getD 0 0, m (c.getD 0 0) (c.getD 1 0)], [m (c.getD 0 0) (c.getD 1 0), c.getD 1 0]] := by
  have hes : ∀ e, e ∈ cells.map (fun c => sortEdge (c.getD 0 0) (c.getD 1 0)) ↔ e.1 < e.2 ∧ IsEdge cells e.1 e.2 := fun e => by
    rw [← edge_iff hc (fun c => [sortEdge (c.getD 0 0) (c.getD 1 0)]) (fun c hl e => by
      rw [List.mem_singleton]
      constructor
      · exact fun h => ⟨0, 1, by omega, by omega, h⟩
      · rintro ⟨i, j, hij, hj, h⟩
        obtain ⟨rfl, rfl⟩ : i = 0 ∧ j = 1 := by omega
        exact h) e, List.mem_flatMap, List.mem_map]
    simp only [List.mem_singleton, eq_comm]
  have hnd : (cells.map fun c => sortEdge (c.getD 0 0) (c.getD 1 0)).Nodup := by
    rw [List.nodup_iff_pairwise_ne, List.pairwise_map]
    refine (List.Pairwise.imp_of_mem ?_ hd)
    intro a b ha hb hp he
    obtain ⟨a0, a1, rfl⟩ := length2 a (hc a ha).1
    obtain ⟨b0, b1, rfl⟩ := length2 b (hc b hb).1
    have hn := (hc _ ha).2.1
    simp only [List.nodup_cons, List.mem_cons, List.not_mem_nil, or_false] at hn
    rcases (sortEdge_eq_iff hn.1).1 he with ⟨h1, h2⟩ | ⟨h1, h2⟩
    · exact hp (by simp at h1 h2; rw [h1, h2])
    · exact hp (by simp at h1 h2; rw [h1, h2]; exact List.Perm.swap _ _ _)
  have h0 := count_fold V.length (fun c => sortEdge (c.getD 0 0) (c.getD 1 0)) cells [] (by simpa using hnd)
  simp only [List.nil_append, List.zipIdx_nil, List.length_nil, Nat.add_zero] at h0
  generalize hE : cells.map (fun c => sortEdge (c.getD 0 0) (c.getD 1 0)) = E at *
  have h4 := zipIdx_table E V.length hnd
  have h5 := cells1_eq (dget (E.zipIdx V.length)) (fun e => V.length + E.idxOf e) cells (fun c h => (hc c h).1)
    (fun c hm i j hij hj => dget_zipIdx E _ (numb_getD hc hes c hm i j hij hj) V.length)
  refine ⟨numb V.length E, _, _, E.zipIdx V.length, ?_, of_table 1 dim V cells hV hc _ hnd hes _ h4 _ fun c hm a b e _ => kids1 c ⟨(hc c hm).1, (hc c hm).2.1⟩ a b e, rfl⟩
  unfold refine1D
  dsimp only
  rw [h0]
  dsimp only
  rw [vertices_eq dim V (u (V.length + E.length)) hV E hnd (hu _) _ h4, h5]
  rfl

/-- Intervals, on the line, in the plane or in space. -/
theorem refine_intervals (dim : Nat) (u : Nat → List (List K)) (hu : ∀ n, (u n).length = n) (V : List (List K)) (hV : ∀ r ∈ V, r.length = dim) (cells : List (List Nat))
    (hc : IsMesh 1 V.length cells) (hd : cells.Pairwise fun a b => ¬ a.Perm b) :
    ∃ m V' cells' lookup, refine1D dim u V cells = some (V', cells', lookup) ∧ Refined 1 dim V cells m V' cells' lookup := by
  obtain ⟨m, V', cells', lookup, h, hR, -⟩ := ordered_intervals dim u hu V hV cells hc hd
  exact ⟨m, V', cells', lookup, h, hR⟩

/-- The results of `qsort`. -/
def Sorts (sort : List (Nat × Nat) → List (Nat × Nat)) : Prop :=
  ∀ l, (sort l).Perm l ∧ (sort l).Pairwise fun a b => a.1 < b.1 ∨ (a.1 = b.1 ∧ a.2 ≤ b.2)

/-- Triangles in the plane with sorted edges. -/
theorem refine_sorted (sort : List (Nat × Nat) → List (Nat × Nat)) (hs : Sorts sort) (u : Nat → List (List K)) (hu : ∀ n, (u n).length = n)
    (V : List (List K)) (hV : ∀ r ∈ V, r.length = 2) (cells : List (List Nat)) (hc : IsMesh 2 V.length cells) :
    ∃ m V' cells' lookup, refine2Dsort sort u V cells = some (V', cells', lookup) ∧ Refined 2 2 V cells m V' cells' lookup := by
  have hes := edge_iff hc edges2 (fun c h => mem_edges2 c h)
  have hps := hs (cells.flatMap edges2)
  obtain ⟨hnd, hm⟩ := fold_addE (sort (cells.flatMap edges2)) [] List.nodup_nil
  have hes' : ∀ e, e ∈ sort (cells.flatMap edges2) ↔ e.1 < e.2 ∧ IsEdge cells e.1 e.2 := fun e => by rw [hps.1.mem_iff, hes]
  have he : ∀ e, e ∈ (sort (cells.flatMap edges2)).foldl addE [] ↔ e.1 < e.2 ∧ IsEdge cells e.1 e.2 := fun e => by rw [hm, ← hes' e]; simp
  obtain ⟨old, h0⟩ := sort_fold V.length (sort (cells.flatMap edges2)) [] (0, 0) hps.2 List.nodup_nil (fun a h => absurd h List.not_mem_nil) (fun a h => absurd h List.not_mem_nil)
    (fun b hb => by
      have := ((hes' b).1 hb).1
      unfold LexLe
      dsimp only
      omega)
    (Or.inr ⟨rfl, fun b hb h => by
      have := ((hes' b).1 hb).1
      rw [h] at this
      exact absurd this (lt_irrefl _)⟩)
  simp only [List.zipIdx_nil, List.length_nil, Nat.add_zero] at h0
  generalize hE : (sort (cells.flatMap edges2)).foldl addE [] = E at *
  have h4 := zipIdx_table E V.length hnd
  have h5 := cells2_eq (dget (E.zipIdx V.length)) (fun e => V.length + E.idxOf e) cells (fun c h => (hc c h).1)
    (fun c hm i j hij hj => dget_zipIdx E _ (numb_getD hc he c hm i j hij hj) V.length)
  refine ⟨numb V.length E, _, _, E.zipIdx V.length, ?_, of_table 2 2 V cells hV hc _ hnd he _ h4 _ fun c hm a b e f => kids2 c ⟨(hc c hm).1, (hc c hm).2.1⟩ a b e f⟩
  unfold refine2Dsort
  dsimp only
  rw [h0]
  dsimp only
  rw [vertices_eq 2 V (u (V.length + E.length)) hV E hnd (hu _) _ h4, h5]
  rfl

/-- Refinement with sorted edges of triangles in space loses the third coordinate. -/
theorem refine_sorted_surface_fails : ∃ (V : List (List Rat)) (cells : List (List Nat)), (∀ r ∈ V, r.length = 3) ∧ IsMesh 2 V.length cells ∧ FewNeighbours cells ∧
    ∀ (sort : List (Nat × Nat) → List (Nat × Nat)), Sorts sort → ∀ u : Nat → List (List Rat), (∀ n, (u n).length = n) →
      ¬ ∃ m V' cells' lookup, refine2Dsort sort u V cells = some (V', cells', lookup) ∧ Refined 2 3 V cells m V' cells' lookup := by
  refine ⟨[[0, 0, 1], [1, 0, 1], [0, 1, 1]], [[0, 1, 2]], by decide, by unfold IsMesh; decide, ?_, ?_⟩
  · intro a l hn hl
    have : l ⊆ [0, 1, 2] := fun b hb => by
      obtain ⟨-, -, c, hc, -, h⟩ := hl b hb
      rw [List.mem_singleton.1 hc] at h
      exact h
    have := (hn.subperm this).length_le
    simp at this
    omega
  · rintro sort hs u hu ⟨m, V', cells', lookup, h, hR⟩
    have hr := hR.row
    unfold refine2Dsort at h
    dsimp only at h
    rw [Option.map_eq_some_iff] at h
    obtain ⟨c, -, h⟩ := h
    have hV' := congrArg Prod.fst h
    dsimp only at hV'
    have hlen : ∀ (L : List ((Nat × Nat) × Nat)) (v : List (List Rat)), (∀ r ∈ v.take 1, r.length ≠ 3) →
        ∀ r ∈ (L.foldl (fun v p => v.set p.2 (midpoint 2 [[0, 0, 1], [1, 0, 1], [0, 1, 1]] p.1)) v).take 1, r.length ≠ 3 := by
      intro L
      induction L with
      | nil => intro v h; exact h
      | cons p t ih =>
        intro v h
        rw [List.foldl_cons]
        refine ih _ fun r hr => ?_
        rw [List.take_set] at hr
        rcases List.mem_or_eq_of_mem_set hr with h1 | h1
        · exact h r h1
        · rw [h1]; unfold midpoint; simp
    have hcopy : ∀ w : List (List Rat), ∀ r ∈ (copyVertices 2 [[0, 0, 1], [1, 0, 1], [0, 1, 1]] w).take 1, r.length ≠ 3 := by
      intro w
      match w with
      | [] => decide
      | [a] => intro r hr; rw [List.mem_singleton.1 (show r ∈ [[0, 0]] from hr)]; decide
      | [a, b] => intro r hr; rw [List.mem_singleton.1 (show r ∈ [[0, 0]] from hr)]; decide
      | a :: b :: e :: w => intro r hr; rw [List.mem_singleton.1 (show r ∈ [[0, 0]] from hr)]; decide
    have h0 := hR.old
    have h1 : ([0, 0, 1] : List Rat) ∈ V'.take 1 := by
      have : V'.take 1 = (V'.take 3).take 1 := by rw [List.take_take]; rfl
      rw [this, show (3 : Nat) = ([[0, 0, 1], [1, 0, 1], [0, 1, 1]] : List (List Rat)).length from rfl, h0]
      simp
    rw [← hV'] at h1
    exact hlen _ _ (hcopy _) _ h1 rfl

/-! ### concrete cases -/

/-- Two triangles with a common edge. -/
example : refine2D 2 (fun n => List.replicate n [7, 7]) ([[0, 0], [1, 0], [0, 1], [1, 1]] : List (List Rat)) [[0, 1, 2], [3, 2, 1]] =
    some ([[0, 0], [1, 0], [0, 1], [1, 1], [1 / 2, 0], [0, 1 / 2], [1 / 2, 1 / 2], [1 / 2, 1], [1, 1 / 2]],
      [[0, 4, 5], [1, 6, 4], [2, 5, 6], [4, 6, 5], [3, 7, 8], [2, 6, 7], [1, 8, 6], [7, 6, 8]],
      [((0, 1), 4), ((0, 2), 5), ((1, 2), 6), ((1, 3), 8), ((2, 3), 7)]) := by decide +kernel

theorem few_of_small (cells : List (List Nat)) (n : Nat) (hn : n ≤ 253) (hc : ∀ c ∈ cells, ∀ v ∈ c, v < n) : FewNeighbours cells := by
  intro a l hl h
  have : l ⊆ List.range n := fun b hb => by
    obtain ⟨-, -, c, hm, -, hb⟩ := h b hb
    exact List.mem_range.2 (hc c hm b hb)
  have := (hl.subperm this).length_le
  rw [List.length_range] at this
  omega

example : ∃ m V' cells' lookup, refine2D 2 (fun n => List.replicate n [7, 7]) ([[0, 0], [1, 0], [0, 1], [1, 1]] : List (List Rat)) [[0, 1, 2], [3, 2, 1]] =
      some (V', cells', lookup) ∧ Refined 2 2 ([[0, 0], [1, 0], [0, 1], [1, 1]] : List (List Rat)) [[0, 1, 2], [3, 2, 1]] m V' cells' lookup :=
  refine_triangles 2 _ (fun n => by simp) _ (by decide) _ (by unfold IsMesh; decide) (few_of_small _ 4 (by omega) (by decide))
example : ∃ m V' cells' lookup, refine3D (fun n => List.replicate n [7, 7, 7]) ([[0, 0, 0], [1, 0, 0], [0, 1, 0], [0, 0, 1], [1, 1, 1]] : List (List Rat)) [[0, 1, 2, 3], [4, 3, 2, 1]] =
      some (V', cells', lookup) ∧ Refined 3 3 ([[0, 0, 0], [1, 0, 0], [0, 1, 0], [0, 0, 1], [1, 1, 1]] : List (List Rat)) [[0, 1, 2, 3], [4, 3, 2, 1]] m V' cells' lookup ∧
      ∃ parts, List.Forall₂ (fun c kids => kids.length = 8 ∧ Conforms m c kids ∧ Shortest (coords V') m c kids) [[0, 1, 2, 3], [4, 3, 2, 1]] parts ∧ cells' = parts.flatten :=
  refine_tetrahedra _ (fun n => by simp) _ (by decide) _ (by unfold IsMesh; decide) (few_of_small _ 5 (by omega) (by decide))
example : ∃ m V' cells' lookup, refine1D 2 (fun n => List.replicate n [7, 7]) ([[0, 0], [1, 0], [1, 1]] : List (List Rat)) [[0, 1], [2, 1]] =
      some (V', cells', lookup) ∧ Refined 1 2 ([[0, 0], [1, 0], [1, 1]] : List (List Rat)) [[0, 1], [2, 1]] m V' cells' lookup :=
  refine_intervals 2 _ (fun n => by simp) _ (by decide) _ (by unfold IsMesh; decide) (by decide)

end PyNucleus.Props.C42
