import Verif.Model.SimplexMapper
import Verif.Props.C14
import Verif.Props.C56
import Mathlib.Order.Basic
import Mathlib.Data.List.Nodup
import Mathlib.Tactic.IntervalCases
import Mathlib.Tactic.Order

/-!
# C81: the simplex mapper

Full statement: the loops over the edges and faces of a cell give every edge and face once, with sorted vertices; looking up the number of an edge or face
and getting the edge or face of a number are inverse to each other, also through keys, and something that is not an edge or face of the cell is reported;
the edges of a face with an order are those between its ordered vertices, and the six orders give each ordering of the vertices once; a loop may run
while another one is used.
-/

namespace PyNucleus.Props.C81

open PyNucleus.SimplexMapper

variable {α : Type} [LinearOrder α]

/-- Different vertices. -/
def Distinct (n : Nat) (c : Nat → α) : Prop := ∀ i < n, ∀ j < n, c i = c j → i = j

/-- A pair of different vertices of the cell, the smaller one first. -/
def IsEdge (n : Nat) (c : Nat → α) (e : α × α) : Prop := e.1 < e.2 ∧ (∃ i < n, c i = e.1) ∧ ∃ i < n, c i = e.2

/-- Three different vertices of the cell in increasing order. -/
def IsFace (c : Nat → α) (f : α × α × α) : Prop := f.1 < f.2.1 ∧ f.2.1 < f.2.2 ∧ (∃ i < 4, c i = f.1) ∧ (∃ i < 4, c i = f.2.1) ∧ ∃ i < 4, c i = f.2.2

/-! ### loops -/

private theorem collect_list {σ β : Type} (next : σ → Option β × σ) (l : σ → List β) (k : σ → Nat) (up : σ → σ) (hl : ∀ s, l (up s) = l s) (hk : ∀ s, k (up s) = k s + 1)
    (hn : ∀ s, next s = if k s < (l s).length then ((l s)[k s]?, up s) else (none, s)) :
    ∀ (n : Nat) (s : σ) (m : Nat), (l s).length = k s + n → (collect next (n + m) s).1 = ((l s).drop (k s)).map some ++ List.replicate m none
  | 0, s, 0, h => by
    have e : (l s).drop (k s) = [] := List.drop_eq_nil_of_le (by omega)
    simp [collect, e]
  | 0, s, m + 1, h => by
    have e : (l s).drop (k s) = [] := List.drop_eq_nil_of_le (by omega)
    have ih := collect_list next l k up hl hk hn 0 s m h
    rw [e] at ih ⊢
    have hs : next s = (none, s) := by rw [hn, if_neg (by omega)]
    rw [show 0 + (m + 1) = (0 + m) + 1 by omega]
    simp only [collect, hs, ih]
    simp [List.replicate_succ]
  | n + 1, s, m, h => by
    have hlt : k s < (l s).length := by omega
    have hs : next s = ((l s)[k s]?, up s) := by rw [hn, if_pos hlt]
    have ih := collect_list next l k up hl hk hn n (up s) m (by rw [hl, hk]; omega)
    rw [show n + 1 + m = (n + m) + 1 by omega]
    simp only [collect, hs, ih, hl, hk]
    rw [List.drop_eq_getElem_cons hlt, List.getElem?_eq_getElem hlt]
    simp only [List.map_cons, List.cons_append]

/-- A started loop gives the entries of its table once and in order, then `False` for ever, from any state. -/
theorem loops (s : Loops α) (c : Nat → α) (f : α × α × α) (m : Nat) :
    (collect nextCellEdge (3 + m) (startCellEdges2 s c)).1 = (cellEdges2 c).map some ++ List.replicate m none ∧
    (collect nextCellEdge (6 + m) (startCellEdges s c)).1 = (cellEdges3 c).map some ++ List.replicate m none ∧
    (collect nextCellFace (4 + m) (startCellFaces s c)).1 = (cellFaces c).map some ++ List.replicate m none ∧
    (collect nextFaceEdge (3 + m) (startFaceEdges s f)).1 = (faceEdges f).map some ++ List.replicate m none :=
  ⟨collect_list nextCellEdge Loops.edges Loops.counter (fun s => { s with counter := s.counter + 1 }) (fun _ => rfl) (fun _ => rfl) (fun _ => rfl) 3 _ m rfl,
   collect_list nextCellEdge Loops.edges Loops.counter (fun s => { s with counter := s.counter + 1 }) (fun _ => rfl) (fun _ => rfl) (fun _ => rfl) 6 _ m rfl,
   collect_list nextCellFace Loops.faces Loops.counter (fun s => { s with counter := s.counter + 1 }) (fun _ => rfl) (fun _ => rfl) (fun _ => rfl) 4 _ m rfl,
   collect_list nextFaceEdge Loops.faceEdges Loops.counter (fun s => { s with counter := s.counter + 1 }) (fun _ => rfl) (fun _ => rfl) (fun _ => rfl) 3 _ m rfl⟩

private theorem sortEdge_iff (a b : α) (h : a ≠ b) (e : α × α) : sortEdge a b = e ↔ e.1 < e.2 ∧ ((a = e.1 ∧ b = e.2) ∨ (a = e.2 ∧ b = e.1)) := by
  obtain ⟨x, y⟩ := e
  unfold sortEdge
  split_ifs with hl
  · simp only [Prod.mk.injEq]
    constructor
    · rintro ⟨rfl, rfl⟩
      exact ⟨hl, Or.inl ⟨rfl, rfl⟩⟩
    · rintro ⟨h1, ⟨rfl, rfl⟩ | ⟨rfl, rfl⟩⟩
      · exact ⟨rfl, rfl⟩
      · exact absurd hl (not_lt.2 h1.le)
  · simp only [Prod.mk.injEq]
    have hb : b < a := lt_of_le_of_ne (not_lt.1 hl) (Ne.symm h)
    constructor
    · rintro ⟨rfl, rfl⟩
      exact ⟨hb, Or.inr ⟨rfl, rfl⟩⟩
    · rintro ⟨h1, ⟨rfl, rfl⟩ | ⟨rfl, rfl⟩⟩
      · exact absurd h1 hl
      · exact ⟨rfl, rfl⟩

private theorem edge_mem (n : Nat) (c : Nat → α) (hc : Distinct n c) (i j : Nat) (hi : i < n) (hj : j < n) (hij : i ≠ j) : IsEdge n c (sortEdge (c i) (c j)) := by
  have hne : c i ≠ c j := fun h => hij (hc i hi j hj h)
  unfold sortEdge
  split_ifs with hl
  · exact ⟨hl, ⟨i, hi, rfl⟩, ⟨j, hj, rfl⟩⟩
  · exact ⟨lt_of_le_of_ne (not_lt.1 hl) (Ne.symm hne), ⟨j, hj, rfl⟩, ⟨i, hi, rfl⟩⟩

/-- Two sorted pairs are the same exactly if the numbers are. -/
private theorem sortEdge_inj (n : Nat) (c : Nat → α) (hc : Distinct n c) (i j k l : Nat) (hi : i < n) (hj : j < n) (hk : k < n) (hl : l < n) (hij : i ≠ j) (hkl : k ≠ l) :
    sortEdge (c i) (c j) = sortEdge (c k) (c l) ↔ (i = k ∧ j = l) ∨ (i = l ∧ j = k) := by
  rw [sortEdge_iff _ _ (fun h => hij (hc i hi j hj h))]
  constructor
  · rintro ⟨-, h⟩
    unfold sortEdge at h
    split_ifs at h
    · rcases h with ⟨h1, h2⟩ | ⟨h1, h2⟩
      · exact Or.inl ⟨hc _ hi _ hk h1, hc _ hj _ hl h2⟩
      · exact Or.inr ⟨hc _ hi _ hl h1, hc _ hj _ hk h2⟩
    · rcases h with ⟨h1, h2⟩ | ⟨h1, h2⟩
      · exact Or.inr ⟨hc _ hi _ hl h1, hc _ hj _ hk h2⟩
      · exact Or.inl ⟨hc _ hi _ hk h1, hc _ hj _ hl h2⟩
  · intro h
    refine ⟨(edge_mem n c hc k l hk hl hkl).1, ?_⟩
    unfold sortEdge
    split_ifs <;> rcases h with ⟨rfl, rfl⟩ | ⟨rfl, rfl⟩ <;> simp

private theorem isEdge_ij (n : Nat) (c : Nat → α) (e : α × α) (he : IsEdge n c e) : ∃ i < n, ∃ j < n, i ≠ j ∧ e = sortEdge (c i) (c j) := by
  obtain ⟨h, ⟨i, hi, h1⟩, ⟨j, hj, h2⟩⟩ := he
  refine ⟨i, hi, j, hj, ?_, ?_⟩
  · rintro rfl
    rw [← h1, ← h2] at h
    exact lt_irrefl _ h
  · unfold sortEdge
    rw [h1, h2, if_pos h]

/-- The loop over the edges of a triangle gives each edge once. -/
theorem edges_triangle (c : Nat → α) (hc : Distinct 3 c) : (cellEdges2 c).Nodup ∧ ∀ e, e ∈ cellEdges2 c ↔ IsEdge 3 c e := by
  constructor
  · unfold cellEdges2
    simp only [List.nodup_cons, List.mem_cons, List.not_mem_nil, or_false, not_or, List.nodup_nil, and_true, not_false_eq_true]
    refine ⟨⟨?_, ?_⟩, ?_⟩ <;> rw [sortEdge_inj 3 c hc _ _ _ _ (by omega) (by omega) (by omega) (by omega) (by omega) (by omega)] <;> omega
  · intro e
    constructor
    · intro he
      simp only [cellEdges2, List.mem_cons, List.not_mem_nil, or_false] at he
      rcases he with rfl | rfl | rfl <;> exact edge_mem 3 c hc _ _ (by omega) (by omega) (by omega)
    · intro he
      obtain ⟨i, hi, j, hj, hij, rfl⟩ := isEdge_ij 3 c e he
      simp only [cellEdges2, List.mem_cons, List.not_mem_nil, or_false]
      rw [sortEdge_inj 3 c hc _ _ _ _ hi hj (by omega) (by omega) hij (by omega), sortEdge_inj 3 c hc _ _ _ _ hi hj (by omega) (by omega) hij (by omega),
        sortEdge_inj 3 c hc _ _ _ _ hi hj (by omega) (by omega) hij (by omega)]
      omega

/-- The loop over the edges of a tetrahedron gives each edge once. -/
theorem edges_tetrahedron (c : Nat → α) (hc : Distinct 4 c) : (cellEdges3 c).Nodup ∧ ∀ e, e ∈ cellEdges3 c ↔ IsEdge 4 c e := by
  constructor
  · unfold cellEdges3
    simp only [List.nodup_cons, List.mem_cons, List.not_mem_nil, or_false, not_or, List.nodup_nil, and_true, not_false_eq_true]
    refine ⟨⟨?_, ?_, ?_, ?_, ?_⟩, ⟨?_, ?_, ?_, ?_⟩, ⟨?_, ?_, ?_⟩, ⟨?_, ?_⟩, ?_⟩ <;> rw [sortEdge_inj 4 c hc _ _ _ _ (by omega) (by omega) (by omega) (by omega) (by omega) (by omega)] <;> omega
  · intro e
    constructor
    · intro he
      simp only [cellEdges3, List.mem_cons, List.not_mem_nil, or_false] at he
      rcases he with rfl | rfl | rfl | rfl | rfl | rfl <;> exact edge_mem 4 c hc _ _ (by omega) (by omega) (by omega)
    · intro he
      obtain ⟨i, hi, j, hj, hij, rfl⟩ := isEdge_ij 4 c e he
      simp only [cellEdges3, List.mem_cons, List.not_mem_nil, or_false]
      have h := fun k l (hk : k < 4) (hl : l < 4) (hkl : k ≠ l) => sortEdge_inj 4 c hc i j k l hi hj hk hl hij hkl
      rw [h 0 1 (by omega) (by omega) (by omega), h 1 2 (by omega) (by omega) (by omega), h 2 0 (by omega) (by omega) (by omega), h 0 3 (by omega) (by omega) (by omega),
        h 1 3 (by omega) (by omega) (by omega), h 2 3 (by omega) (by omega) (by omega)]
      omega

private def faceOf (f : α × α × α) (i : Nat) : α := if i = 0 then f.1 else if i = 1 then f.2.1 else f.2.2

/-- The loop over the edges of a face gives each edge once. -/
theorem edges_face (f : α × α × α) (h1 : f.1 ≠ f.2.1) (h2 : f.1 ≠ f.2.2) (h3 : f.2.1 ≠ f.2.2) :
    (faceEdges f).Nodup ∧ ∀ a b, (a, b) ∈ faceEdges f ↔ a < b ∧ (a = f.1 ∨ a = f.2.1 ∨ a = f.2.2) ∧ (b = f.1 ∨ b = f.2.1 ∨ b = f.2.2) := by
  obtain ⟨x, y, z⟩ := f
  simp only at h1 h2 h3
  have hc : Distinct 3 (faceOf (x, y, z)) := by
    intro i hi j hj
    interval_cases i <;> interval_cases j <;> simp [faceOf, h1, h2, h3, h1.symm, h2.symm, h3.symm]
  have e : faceEdges (x, y, z) = [sortEdge (faceOf (x, y, z) 0) (faceOf (x, y, z) 1), sortEdge (faceOf (x, y, z) 1) (faceOf (x, y, z) 2), sortEdge (faceOf (x, y, z) 2) (faceOf (x, y, z) 0)] := rfl
  rw [e]
  constructor
  · simp only [List.nodup_cons, List.mem_cons, List.not_mem_nil, or_false, not_or, List.nodup_nil, and_true, not_false_eq_true]
    refine ⟨⟨?_, ?_⟩, ?_⟩ <;> rw [sortEdge_inj 3 _ hc _ _ _ _ (by omega) (by omega) (by omega) (by omega) (by omega) (by omega)] <;> omega
  · intro a b
    have hm : ∀ v, (v = x ∨ v = y ∨ v = z) ↔ ∃ i < 3, faceOf (x, y, z) i = v := by
      intro v
      constructor
      · rintro (rfl | rfl | rfl)
        · exact ⟨0, by omega, rfl⟩
        · exact ⟨1, by omega, rfl⟩
        · exact ⟨2, by omega, rfl⟩
      · rintro ⟨i, hi, rfl⟩
        interval_cases i <;> simp [faceOf]
    show _ ↔ a < b ∧ (a = x ∨ a = y ∨ a = z) ∧ (b = x ∨ b = y ∨ b = z)
    rw [hm a, hm b]
    show _ ↔ IsEdge 3 (faceOf (x, y, z)) (a, b)
    constructor
    · intro he
      simp only [List.mem_cons, List.not_mem_nil, or_false] at he
      rcases he with he | he | he <;> rw [he] <;> exact edge_mem 3 _ hc _ _ (by omega) (by omega) (by omega)
    · intro he
      obtain ⟨i, hi, j, hj, hij, he⟩ := isEdge_ij 3 _ _ he
      rw [he]
      simp only [List.mem_cons, List.not_mem_nil, or_false]
      have h := fun k l (hk : k < 3) (hl : l < 3) (hkl : k ≠ l) => sortEdge_inj 3 _ hc i j k l hi hj hk hl hij hkl
      rw [h 0 1 (by omega) (by omega) (by omega), h 1 2 (by omega) (by omega) (by omega), h 2 0 (by omega) (by omega) (by omega)]
      omega

private def InF (v : α) (f : α × α × α) : Prop := v = f.1 ∨ v = f.2.1 ∨ v = f.2.2

private theorem sortFace_mem (v a b c : α) : InF v (sortFace a b c) ↔ v = a ∨ v = b ∨ v = c := by
  unfold sortFace InF
  split_ifs <;> simp only <;> tauto

private theorem sortFace_lt (a b c : α) (h1 : a ≠ b) (h2 : a ≠ c) (h3 : b ≠ c) : (sortFace a b c).1 < (sortFace a b c).2.1 ∧ (sortFace a b c).2.1 < (sortFace a b c).2.2 := by
  unfold sortFace
  split_ifs with p q r r q
  · exact ⟨p, r⟩
  · exact ⟨q, lt_of_le_of_ne (not_lt.1 r) h3.symm⟩
  · exact ⟨lt_of_le_of_ne (not_lt.1 q) h2.symm, p⟩
  · exact ⟨lt_of_le_of_ne (not_lt.1 p) h1.symm, q⟩
  · exact ⟨r, lt_of_le_of_ne (not_lt.1 q) h2.symm⟩
  · exact ⟨lt_of_le_of_ne (not_lt.1 r) h3.symm, lt_of_le_of_ne (not_lt.1 p) h1.symm⟩

private theorem sorted_ext (f g : α × α × α) (f1 : f.1 < f.2.1) (f2 : f.2.1 < f.2.2) (g1 : g.1 < g.2.1) (g2 : g.2.1 < g.2.2) (h : ∀ v, InF v f ↔ InF v g) : f = g := by
  obtain ⟨x, y, z⟩ := f
  obtain ⟨x', y', z'⟩ := g
  unfold InF at h
  simp only at f1 f2 g1 g2 h
  have f3 := lt_trans f1 f2
  have g3 := lt_trans g1 g2
  have ex : x = x' := by
    rcases (h x).1 (by simp) with e | e | e
    · exact e
    · rcases (h x').2 (by simp) with e' | e' | e'
      · exact e'.symm
      · exfalso; order
      · exfalso; order
    · rcases (h x').2 (by simp) with e' | e' | e'
      · exact e'.symm
      · exfalso; order
      · exfalso; order
  have ez : z = z' := by
    rcases (h z).1 (by simp) with e | e | e
    · rcases (h z').2 (by simp) with e' | e' | e'
      · exfalso; order
      · exfalso; order
      · exact e'.symm
    · rcases (h z').2 (by simp) with e' | e' | e'
      · exfalso; order
      · exfalso; order
      · exact e'.symm
    · exact e
  subst ex ez
  have ey : y = y' := by
    rcases (h y).1 (by simp) with e | e | e
    · exact absurd f1 (by rw [e]; exact lt_irrefl _)
    · exact e
    · exact absurd f2 (by rw [e]; exact lt_irrefl _)
  rw [ey]

/-- The face opposite to vertex `w`. -/
private def Without (c : Nat → α) (w : Nat) (f : α × α × α) : Prop := f.1 < f.2.1 ∧ f.2.1 < f.2.2 ∧ ∀ v, InF v f ↔ ∃ l < 4, l ≠ w ∧ v = c l

private theorem without_unique (c : Nat → α) (w : Nat) (f g : α × α × α) (hf : Without c w f) (hg : Without c w g) : f = g :=
  sorted_ext f g hf.1 hf.2.1 hg.1 hg.2.1 fun v => (hf.2.2 v).trans (hg.2.2 v).symm

private theorem without_inj (c : Nat → α) (hc : Distinct 4 c) (w w' : Nat) (hw : w < 4) (f : α × α × α) (hf : Without c w f) (hg : Without c w' f) : w = w' := by
  by_contra h
  obtain ⟨l, hl, hlw, e⟩ := (hf.2.2 (c w)).1 ((hg.2.2 (c w)).2 ⟨w, hw, h, rfl⟩)
  exact hlw (hc l hl w hw e.symm)

private theorem without_sort (c : Nat → α) (hc : Distinct 4 c) (i j k w : Nat) (h : [i, j, k, w].Perm [0, 1, 2, 3]) : Without c w (sortFace (c i) (c j) (c k)) := by
  have hm : ∀ l, l ∈ [i, j, k, w] ↔ l < 4 := fun l => by rw [h.mem_iff]; simp; omega
  have hn : [i, j, k, w].Nodup := h.nodup_iff.2 (by decide)
  simp only [List.nodup_cons, List.mem_cons, List.not_mem_nil, or_false, not_or] at hn
  have hi := (hm i).1 (by simp)
  have hj := (hm j).1 (by simp)
  have hk := (hm k).1 (by simp)
  have hs := sortFace_lt (c i) (c j) (c k) (fun e => hn.1.1 (hc _ hi _ hj e)) (fun e => hn.1.2.1 (hc _ hi _ hk e)) (fun e => hn.2.1.1 (hc _ hj _ hk e))
  refine ⟨hs.1, hs.2, fun v => ?_⟩
  rw [sortFace_mem]
  constructor
  · rintro (rfl | rfl | rfl)
    · exact ⟨i, hi, hn.1.2.2, rfl⟩
    · exact ⟨j, hj, hn.2.1.2, rfl⟩
    · exact ⟨k, hk, hn.2.2.1, rfl⟩
  · rintro ⟨l, hl, hlw, rfl⟩
    have := (hm l).2 hl
    simp only [List.mem_cons, List.not_mem_nil, or_false] at this
    rcases this with rfl | rfl | rfl | rfl
    · simp
    · simp
    · simp
    · exact absurd rfl hlw

private theorem isFace_iff (c : Nat → α) (hc : Distinct 4 c) (f : α × α × α) : IsFace c f ↔ ∃ w < 4, Without c w f := by
  constructor
  · rintro ⟨h1, h2, ⟨i, hi, e1⟩, ⟨j, hj, e2⟩, ⟨k, hk, e3⟩⟩
    have hij : i ≠ j := by rintro rfl; rw [← e1, ← e2] at h1; exact lt_irrefl _ h1
    have hjk : j ≠ k := by rintro rfl; rw [← e2, ← e3] at h2; exact lt_irrefl _ h2
    have hik : i ≠ k := by rintro rfl; rw [← e1, e3] at h1; exact lt_irrefl _ (h1.trans h2)
    have hw : ∃ w, [i, j, k, w].Perm [0, 1, 2, 3] := by
      refine ⟨6 - i - j - k, ?_⟩
      interval_cases i <;> interval_cases j <;> first | (exfalso; omega) | (interval_cases k <;> first | (exfalso; omega) | decide)
    obtain ⟨w, hp⟩ := hw
    refine ⟨w, ?_, ?_⟩
    · have : w ∈ [0, 1, 2, 3] := hp.mem_iff.1 (by simp)
      simp only [List.mem_cons, List.not_mem_nil, or_false] at this
      omega
    · have := without_sort c hc i j k w hp
      rw [e1, e2, e3] at this
      have e : sortFace f.1 f.2.1 f.2.2 = f := by
        unfold sortFace
        rw [if_pos h1, if_pos (h1.trans h2), if_pos h2]
      rwa [e] at this
  · rintro ⟨w, -, h1, h2, h⟩
    have g : ∀ v, InF v f → ∃ i < 4, c i = v := fun v hv => by
      obtain ⟨l, hl, -, e⟩ := (h v).1 hv
      exact ⟨l, hl, e.symm⟩
    exact ⟨h1, h2, g _ (Or.inl rfl), g _ (Or.inr (Or.inl rfl)), g _ (Or.inr (Or.inr rfl))⟩

private theorem faces_without (c : Nat → α) (hc : Distinct 4 c) : Without c 3 (sortFace (c 0) (c 1) (c 2)) ∧ Without c 2 (sortFace (c 0) (c 1) (c 3)) ∧
    Without c 0 (sortFace (c 1) (c 2) (c 3)) ∧ Without c 1 (sortFace (c 0) (c 2) (c 3)) :=
  ⟨without_sort c hc _ _ _ _ (by decide), without_sort c hc _ _ _ _ (by decide), without_sort c hc _ _ _ _ (by decide), without_sort c hc _ _ _ _ (by decide)⟩

/-- The loop over the faces of a tetrahedron gives each face once. -/
theorem faces_tetrahedron (c : Nat → α) (hc : Distinct 4 c) : (cellFaces c).Nodup ∧ ∀ f, f ∈ cellFaces c ↔ IsFace c f := by
  obtain ⟨h3, h2, h0, h1⟩ := faces_without c hc
  have ne : ∀ w w' f g, w < 4 → w ≠ w' → Without c w f → Without c w' g → f ≠ g := fun w w' f g hw hne hf hg e => hne (without_inj c hc w w' hw f hf (e ▸ hg))
  constructor
  · unfold cellFaces
    simp only [List.nodup_cons, List.mem_cons, List.not_mem_nil, or_false, not_or, List.nodup_nil, and_true, not_false_eq_true]
    exact ⟨⟨ne _ _ _ _ (by omega) (by omega) h3 h2, ne _ _ _ _ (by omega) (by omega) h3 h0, ne _ _ _ _ (by omega) (by omega) h3 h1⟩,
      ⟨ne _ _ _ _ (by omega) (by omega) h2 h0, ne _ _ _ _ (by omega) (by omega) h2 h1⟩, ne _ _ _ _ (by omega) (by omega) h0 h1⟩
  · intro f
    rw [isFace_iff c hc]
    simp only [cellFaces, List.mem_cons, List.not_mem_nil, or_false]
    constructor
    · rintro (rfl | rfl | rfl | rfl)
      · exact ⟨3, by omega, h3⟩
      · exact ⟨2, by omega, h2⟩
      · exact ⟨0, by omega, h0⟩
      · exact ⟨1, by omega, h1⟩
    · rintro ⟨w, hw, h⟩
      interval_cases w
      · exact Or.inr (Or.inr (Or.inl (without_unique c _ _ _ h h0)))
      · exact Or.inr (Or.inr (Or.inr (without_unique c _ _ _ h h1)))
      · exact Or.inr (Or.inl (without_unique c _ _ _ h h2))
      · exact Or.inl (without_unique c _ _ _ h h3)

/-- Two loops at once: a loop over the edges of a face inside a loop over the faces of a tetrahedron makes the outer loop skip two faces and then give
the last face for ever. -/
theorem nested_fails (s : Loops α) (c : Nat → α) :
    let s1 := startCellFaces s c
    let round (s : Loops α) : Loops α := (collect nextFaceEdge 4 (startFaceEdges (nextCellFace s).2 ((nextCellFace s).1.getD (c 0, c 0, c 0)))).2
    (nextCellFace s1).1 = (cellFaces c)[0]? ∧ (nextCellFace (round s1)).1 = (cellFaces c)[3]? ∧ ∀ n : Nat, (nextCellFace (round^[n] (round s1))).1 = (cellFaces c)[3]? := by
  intro s1 round
  have key : ∀ t : Loops α, t.faces = cellFaces c → (round t).faces = cellFaces c ∧ (round t).counter = 3 := by
    intro t ht
    have h : ∀ t : Loops α, (nextCellFace t).2.faces = t.faces := fun t => by unfold nextCellFace; split_ifs <;> rfl
    constructor
    · show (collect nextFaceEdge 4 (startFaceEdges (nextCellFace t).2 _)).2.faces = _
      simp [collect, nextFaceEdge, startFaceEdges, faceEdges, h, ht]
    · show (collect nextFaceEdge 4 (startFaceEdges (nextCellFace t).2 _)).2.counter = _
      simp [collect, nextFaceEdge, startFaceEdges, faceEdges]
  have inv : ∀ n : Nat, (round^[n] (round s1)).faces = cellFaces c ∧ (round^[n] (round s1)).counter = 3 := by
    intro n
    induction n with
    | zero => exact key s1 rfl
    | succ n ih =>
      rw [Function.iterate_succ_apply']
      exact key _ ih.1
  have out : ∀ n : Nat, (nextCellFace (round^[n] (round s1))).1 = (cellFaces c)[3]? := by
    intro n
    obtain ⟨h1, h2⟩ := inv n
    unfold nextCellFace
    rw [h1, h2]
    rfl
  exact ⟨rfl, out 0, out⟩

/-! ### numbers of edges and faces -/

/-- Triangles: the number of the edge with a number, and the edge with the number of an edge. -/
theorem edge_number_triangle (c : Nat → α) (hc : Distinct 3 c) :
    (∀ n < 3, findEdge2 c (getEdge2 c n true) = n) ∧ ∀ e, IsEdge 3 c e → findEdge2 c e < 3 ∧ getEdge2 c (findEdge2 c e) true = e := by
  have h := fun i j k l (hi : i < 3) (hj : j < 3) (hk : k < 3) (hl : l < 3) (hij : i ≠ j) (hkl : k ≠ l) => sortEdge_inj 3 c hc i j k l hi hj hk hl hij hkl
  have first : ∀ n < 3, findEdge2 c (getEdge2 c n true) = n := by
    intro n hn
    interval_cases n <;> simp [findEdge2, getEdge2, h]
  refine ⟨first, fun e he => ?_⟩
  have : ∃ n < 3, e = getEdge2 c n true := by
    rw [← (edges_triangle c hc).2] at he
    simp only [cellEdges2, List.mem_cons, List.not_mem_nil, or_false] at he
    rcases he with rfl | rfl | rfl
    · exact ⟨0, by omega, rfl⟩
    · refine ⟨2, by omega, ?_⟩
      show _ = sortEdge (c 2) (c 0)
      rw [h 0 2 2 0 (by omega) (by omega) (by omega) (by omega) (by omega) (by omega)]
      omega
    · exact ⟨1, by omega, rfl⟩
  obtain ⟨n, hn, rfl⟩ := this
  rw [first n hn]
  exact ⟨hn, rfl⟩

/-- Tetrahedra: the number of the edge with a number, and the edge with the number of an edge. -/
theorem edge_number_tetrahedron (c : Nat → α) (hc : Distinct 4 c) :
    (∀ n < 6, findEdge3 c (getEdge3 c n true) = n) ∧ ∀ e, IsEdge 4 c e → findEdge3 c e < 6 ∧ getEdge3 c (findEdge3 c e) true = e := by
  have h := fun i j k l (hi : i < 4) (hj : j < 4) (hk : k < 4) (hl : l < 4) (hij : i ≠ j) (hkl : k ≠ l) => sortEdge_inj 4 c hc i j k l hi hj hk hl hij hkl
  have first : ∀ n < 6, findEdge3 c (getEdge3 c n true) = n := by
    intro n hn
    interval_cases n <;> simp [findEdge3, getEdge3, h]
  refine ⟨first, fun e he => ?_⟩
  have : ∃ n < 6, e = getEdge3 c n true := by
    rw [← (edges_tetrahedron c hc).2] at he
    simp only [cellEdges3, List.mem_cons, List.not_mem_nil, or_false] at he
    rcases he with rfl | rfl | rfl | rfl | rfl | rfl
    · exact ⟨0, by omega, rfl⟩
    · exact ⟨1, by omega, rfl⟩
    · exact ⟨2, by omega, rfl⟩
    · exact ⟨3, by omega, rfl⟩
    · exact ⟨4, by omega, rfl⟩
    · exact ⟨5, by omega, rfl⟩
  obtain ⟨n, hn, rfl⟩ := this
  rw [first n hn]
  exact ⟨hn, rfl⟩

private theorem find_without (c : Nat → α) (hc : Distinct 4 c) (w : Nat) (f : α × α × α) (hf : Without c w f) :
    (w = 3 → findFace c f = 0) ∧ (w = 2 → findFace c f = 1) ∧ (w = 0 → findFace c f = 2) ∧ (w = 1 → findFace c f = 3) := by
  obtain ⟨h3, h2, h0, h1⟩ := faces_without c hc
  have ne : ∀ w w' f g, w < 4 → w ≠ w' → Without c w f → Without c w' g → f ≠ g := fun w w' f g hw hne hf hg e => hne (without_inj c hc w w' hw f hf (e ▸ hg))
  refine ⟨?_, ?_, ?_, ?_⟩ <;> rintro rfl <;> unfold findFace
  · rw [if_pos (without_unique c _ _ _ h3 hf)]
  · rw [if_neg (ne _ _ _ _ (by omega) (by omega) h3 hf), if_pos (without_unique c _ _ _ h2 hf)]
  · rw [if_neg (ne _ _ _ _ (by omega) (by omega) h3 hf), if_neg (ne _ _ _ _ (by omega) (by omega) h2 hf), if_pos (without_unique c _ _ _ h0 hf)]
  · rw [if_neg (ne _ _ _ _ (by omega) (by omega) h3 hf), if_neg (ne _ _ _ _ (by omega) (by omega) h2 hf), if_neg (ne _ _ _ _ (by omega) (by omega) h0 hf), if_pos (without_unique c _ _ _ h1 hf)]

/-- The number of the face of three of the four vertices is determined by the fourth one. -/
theorem find_opposite (c : Nat → α) (hc : Distinct 4 c) (i j k w : Nat) (h : [i, j, k, w].Perm [0, 1, 2, 3]) :
    findFace c (sortFace (c i) (c j) (c k)) = [2, 3, 1, 0].getD w 0 := by
  have hf := find_without c hc w _ (without_sort c hc i j k w h)
  have hw : w < 4 := by
    have : w ∈ [0, 1, 2, 3] := h.mem_iff.1 (by simp)
    simp only [List.mem_cons, List.not_mem_nil, or_false] at this
    omega
  interval_cases w
  · exact hf.2.2.1 rfl
  · exact hf.2.2.2 rfl
  · exact hf.2.1 rfl
  · exact hf.1 rfl

/-- Faces: the number of the face with a number, the face with the number of a face, and −1 for everything else. -/
theorem face_number (c : Nat → α) (hc : Distinct 4 c) : (∀ n < 4, findFace c (getFace c n true) = n) ∧
    (∀ f, IsFace c f → ∃ n < 4, findFace c f = (n : Nat) ∧ getFace c n true = f) ∧ ∀ f, findFace c f = -1 ↔ ¬ IsFace c f := by
  have g0 : Without c 3 (getFace c 0 true) := without_sort c hc 0 2 1 3 (by decide)
  have g1 : Without c 2 (getFace c 1 true) := without_sort c hc 0 1 3 2 (by decide)
  have g2 : Without c 0 (getFace c 2 true) := without_sort c hc 1 2 3 0 (by decide)
  have g3 : Without c 1 (getFace c 3 true) := without_sort c hc 2 0 3 1 (by decide)
  have get : ∀ f, IsFace c f → ∃ n < 4, findFace c f = (n : Nat) ∧ getFace c n true = f := by
    intro f hf
    obtain ⟨w, hw, h⟩ := (isFace_iff c hc f).1 hf
    have hfind := find_without c hc w f h
    interval_cases w
    · exact ⟨2, by omega, by simpa using hfind.2.2.1, without_unique c _ _ _ g2 h⟩
    · exact ⟨3, by omega, by simpa using hfind.2.2.2, without_unique c _ _ _ g3 h⟩
    · exact ⟨1, by omega, by simpa using hfind.2.1, without_unique c _ _ _ g1 h⟩
    · exact ⟨0, by omega, by simpa using hfind.1, without_unique c _ _ _ g0 h⟩
  refine ⟨?_, get, ?_⟩
  · intro n hn
    interval_cases n
    · exact (find_without c hc 3 _ g0).1 rfl
    · exact (find_without c hc 2 _ g1).2.1 rfl
    · exact (find_without c hc 0 _ g2).2.2.1 rfl
    · exact (find_without c hc 1 _ g3).2.2.2 rfl
  · intro f
    constructor
    · intro h hf
      obtain ⟨n, -, e, -⟩ := get f hf
      omega
    · intro h
      rw [← (faces_tetrahedron c hc).2 f] at h
      simp only [cellFaces, List.mem_cons, List.not_mem_nil, or_false, not_or] at h
      unfold findFace
      rw [if_neg (Ne.symm h.1), if_neg (Ne.symm h.2.1), if_neg (Ne.symm h.2.2.1), if_neg (Ne.symm h.2.2.2)]

/-- A pair that is not an edge of the cell, or an edge with the larger vertex first, gets the number of the last edge. -/
theorem edge_absent (c : Nat → α) (e : α × α) : (¬ IsEdge 3 c e → Distinct 3 c → findEdge2 c e = 2) ∧ (¬ IsEdge 4 c e → Distinct 4 c → findEdge3 c e = 5) := by
  constructor
  · intro h hc
    rw [← (edges_triangle c hc).2] at h
    simp only [cellEdges2, List.mem_cons, List.not_mem_nil, or_false, not_or] at h
    unfold findEdge2
    rw [if_neg (Ne.symm h.1), if_neg (Ne.symm h.2.2)]
  · intro h hc
    rw [← (edges_tetrahedron c hc).2] at h
    simp only [cellEdges3, List.mem_cons, List.not_mem_nil, or_false, not_or] at h
    have e20 : sortEdge (c 0) (c 2) = sortEdge (c 2) (c 0) := (sortEdge_inj 4 c hc 0 2 2 0 (by omega) (by omega) (by omega) (by omega) (by omega) (by omega)).2 (by omega)
    unfold findEdge3
    rw [if_neg (Ne.symm h.1), if_neg (Ne.symm h.2.1), e20, if_neg (Ne.symm h.2.2.1), if_neg (Ne.symm h.2.2.2.1), if_neg (Ne.symm h.2.2.2.2.1)]

/-- So edges that are not there are not reported, and `getEdgeInCell` without `sorted` is not inverted. -/
theorem edge_absent_fails : (∃ c : Nat → Int, Distinct 3 c ∧ findEdge2 c (7, 8) = 2 ∧ ¬ IsEdge 3 c (7, 8)) ∧
    (∃ c : Nat → Int, Distinct 4 c ∧ findEdge3 c (7, 8) = 5 ∧ ¬ IsEdge 4 c (7, 8)) ∧
    ∃ c : Nat → Int, Distinct 3 c ∧ findEdge2 c (getEdge2 c 0 false) = 2 := by
  have d : ∀ n, Distinct n (fun i => (i : Int)) := fun n i _ j _ h => by
    have h : (i : Int) = (j : Int) := h
    exact_mod_cast h
  have nn : ∀ n ≤ 4, ¬ IsEdge n (fun i => (i : Int)) (7, 8) := by
    rintro n hn ⟨-, ⟨i, hi, h⟩, -⟩
    simp only at h
    omega
  refine ⟨⟨_, d 3, (edge_absent _ _).1 (nn 3 (by omega)) (d 3), nn 3 (by omega)⟩, ⟨_, d 4, (edge_absent _ _).2 (nn 4 (by omega)) (d 4), nn 4 (by omega)⟩,
    fun i => 2 - (i : Int), ?_, by decide⟩
  intro i _ j _ h
  simp only at h
  omega

/-! ### keys -/

/-- Number and key of edges and faces, for vertex numbers below 2³¹. -/
theorem keys (c : Nat → Int) (hv : ∀ i < 4, C14.IsVertex (c i)) :
    (Distinct 3 c → (∀ n < 3, findEdgeKey2 c (getEdgeKey2 c n) = n) ∧ ∀ e, IsEdge 3 c e → getEdgeKey2 c (findEdge2 c e) = EdgeKey.encodeEdge e) ∧
    (Distinct 4 c → (∀ n < 6, findEdgeKey3 c (getEdgeKey3 c n) = n) ∧ (∀ e, IsEdge 4 c e → getEdgeKey3 c (findEdge3 c e) = EdgeKey.encodeEdge e) ∧
      ∀ n < 4, findFaceKey c (getFaceKey c n) = n) := by
  have dec : ∀ i j, i < 4 → j < 4 → EdgeKey.decodeEdge (EdgeKey.encodeEdge (sortEdge (c i) (c j))) = sortEdge (c i) (c j) := by
    intro i j hi hj
    unfold sortEdge
    split_ifs
    · exact (C14.decode_encode_edge _ _ (hv i hi) (hv j hj)).1
    · exact (C14.decode_encode_edge _ _ (hv j hj) (hv i hi)).1
  have decf : ∀ i j k, i < 4 → j < 4 → k < 4 → EdgeKey.decodeFace (EdgeKey.encodeFace (sortFace (c i) (c j) (c k))) = sortFace (c i) (c j) (c k) := by
    intro i j k hi hj hk
    have hm := fun v => (sortFace_mem v (c i) (c j) (c k)).1
    have hx : ∀ v, InF v (sortFace (c i) (c j) (c k)) → C14.IsVertex v := by
      intro v h
      rcases hm v h with rfl | rfl | rfl
      · exact hv i hi
      · exact hv j hj
      · exact hv k hk
    exact C14.face_round_trip.1 _ _ _ (hx _ (Or.inr (Or.inl rfl))) (hx _ (Or.inr (Or.inr rfl)))
  have e2 : ∀ n < 3, EdgeKey.decodeEdge (getEdgeKey2 c n) = getEdge2 c n true ∧ getEdgeKey2 c n = EdgeKey.encodeEdge (getEdge2 c n true) := by
    intro n hn
    interval_cases n <;> exact ⟨dec _ _ (by omega) (by omega), rfl⟩
  have e3 : ∀ n < 6, EdgeKey.decodeEdge (getEdgeKey3 c n) = getEdge3 c n true ∧ getEdgeKey3 c n = EdgeKey.encodeEdge (getEdge3 c n true) := by
    intro n hn
    interval_cases n <;> exact ⟨dec _ _ (by omega) (by omega), rfl⟩
  have ef : ∀ n < 4, EdgeKey.decodeFace (getFaceKey c n) = getFace c n true := by
    intro n hn
    interval_cases n <;> exact decf _ _ _ (by omega) (by omega) (by omega)
  refine ⟨fun hc => ⟨fun n hn => ?_, fun e he => ?_⟩, fun hc => ⟨fun n hn => ?_, fun e he => ?_, fun n hn => ?_⟩⟩
  · unfold findEdgeKey2
    rw [(e2 n hn).1, (edge_number_triangle c hc).1 n hn]
  · obtain ⟨h1, h2⟩ := (edge_number_triangle c hc).2 e he
    rw [(e2 _ h1).2, h2]
  · unfold findEdgeKey3
    rw [(e3 n hn).1, (edge_number_tetrahedron c hc).1 n hn]
  · obtain ⟨h1, h2⟩ := (edge_number_tetrahedron c hc).2 e he
    rw [(e3 _ h1).2, h2]
  · unfold findFaceKey
    rw [ef n hn, (face_number c hc).1 n hn]

/-! ### orders -/

/-- The orders of a face. -/
def orders : List Int := [-3, -2, -1, 0, 1, 2]

/-- Without an order, the oriented edges and faces are those of `getEdgeInCell` and `getFaceInCell`. -/
theorem order_zero (c : Nat → α) : (∀ n < 3, edgeGlobal c n 0 = getEdge2 c n false) ∧ (∀ n < 6, edgeGlobal c n 0 = getEdge3 c n false) ∧ ∀ n < 4, faceGlobal c n 0 = getFace c n false := by
  refine ⟨?_, ?_, ?_⟩ <;> intro n hn <;> interval_cases n <;> rfl

/-- Orders of edges: each of the two orderings once. -/
theorem edge_orders (c : Nat → α) (n : Nat) : edgeGlobal c n 1 = ((edgeGlobal c n 0).2, (edgeGlobal c n 0).1) := by
  unfold edgeGlobal edgeVertices
  simp

/-- Orders of faces: each of the six orderings of the three vertices exactly once. -/
theorem face_orders (c : Nat → α) (hc : Distinct 4 c) (n : Nat) (hn : n < 4) (x y z : α) (h : [x, y, z].Perm [(faceGlobal c n 0).1, (faceGlobal c n 0).2.1, (faceGlobal c n 0).2.2]) :
    ∃ o ∈ orders, faceGlobal c n o = (x, y, z) ∧ ∀ o' ∈ orders, faceGlobal c n o' = (x, y, z) → o' = o := by
  have d : ∀ i j, i < 4 → j < 4 → i ≠ j → c i ≠ c j := fun i j hi hj hij e => hij (hc i hi j hj e)
  have all : ∀ a b c' : α, [x, y, z].Perm [a, b, c'] → (x = a ∧ y = b ∧ z = c') ∨ (x = a ∧ y = c' ∧ z = b) ∨ (x = b ∧ y = a ∧ z = c') ∨ (x = b ∧ y = c' ∧ z = a) ∨
      (x = c' ∧ y = a ∧ z = b) ∨ (x = c' ∧ y = b ∧ z = a) := by
    intro a b c' hp
    have hx : x ∈ [a, b, c'] := hp.mem_iff.1 (by simp)
    have two : ∀ p q : α, [y, z].Perm [p, q] → (y = p ∧ z = q) ∨ (y = q ∧ z = p) := by
      intro p q hq
      have hy : y ∈ [p, q] := hq.mem_iff.1 (by simp)
      simp only [List.mem_cons, List.not_mem_nil, or_false] at hy
      rcases hy with rfl | rfl
      · left
        have := (List.perm_cons y).1 hq
        rw [List.perm_singleton] at this
        simpa using this
      · right
        have := (List.perm_cons y).1 (hq.trans (List.Perm.swap y p []))
        rw [List.perm_singleton] at this
        simpa using this
    simp only [List.mem_cons, List.not_mem_nil, or_false] at hx
    rcases hx with rfl | rfl | rfl
    · rcases two _ _ ((List.perm_cons x).1 hp) with h | h <;> simp [h]
    · rcases two _ _ ((List.perm_cons x).1 (hp.trans (List.Perm.swap x a [c']))) with h | h <;> simp [h]
    · rcases two a b ((List.perm_cons x).1 (hp.trans (((List.Perm.swap x b []).cons a).trans (List.Perm.swap x a [b])))) with h | h <;> simp [h]
  have main : ∀ a b c' : α, a ≠ b → a ≠ c' → b ≠ c' → (∀ o, faceGlobal c n o = permute o (a, b, c')) → [x, y, z].Perm [a, b, c'] →
      ∃ o ∈ orders, faceGlobal c n o = (x, y, z) ∧ ∀ o' ∈ orders, faceGlobal c n o' = (x, y, z) → o' = o := by
    intro a b c' h1 h2 h3 e hp
    simp only [e, orders, List.mem_cons, List.not_mem_nil, or_false]
    rcases all a b c' hp with ⟨rfl, rfl, rfl⟩ | ⟨rfl, rfl, rfl⟩ | ⟨rfl, rfl, rfl⟩ | ⟨rfl, rfl, rfl⟩ | ⟨rfl, rfl, rfl⟩ | ⟨rfl, rfl, rfl⟩
    · refine ⟨0, by simp, rfl, ?_⟩
      rintro o' (rfl | rfl | rfl | rfl | rfl | rfl) <;> simp [permute, h1, h2, h3, h1.symm, h2.symm, h3.symm]
    · refine ⟨-2, by simp, rfl, ?_⟩
      rintro o' (rfl | rfl | rfl | rfl | rfl | rfl) <;> simp [permute, h1, h2, h3, h1.symm, h2.symm, h3.symm]
    · refine ⟨-1, by simp, rfl, ?_⟩
      rintro o' (rfl | rfl | rfl | rfl | rfl | rfl) <;> simp [permute, h1, h2, h3, h1.symm, h2.symm, h3.symm]
    · refine ⟨1, by simp, rfl, ?_⟩
      rintro o' (rfl | rfl | rfl | rfl | rfl | rfl) <;> simp [permute, h1, h2, h3, h1.symm, h2.symm, h3.symm]
    · refine ⟨2, by simp, rfl, ?_⟩
      rintro o' (rfl | rfl | rfl | rfl | rfl | rfl) <;> simp [permute, h1, h2, h3, h1.symm, h2.symm, h3.symm]
    · refine ⟨-3, by simp, rfl, ?_⟩
      rintro o' (rfl | rfl | rfl | rfl | rfl | rfl) <;> simp [permute, h1, h2, h3, h1.symm, h2.symm, h3.symm]
  have perm_eq : ∀ (o : Int) (a b d : Nat), (c (permute o (a, b, d)).1, c (permute o (a, b, d)).2.1, c (permute o (a, b, d)).2.2) = permute o (c a, c b, c d) := by
    intro o a b d
    unfold permute
    split_ifs <;> rfl
  interval_cases n
  · exact main _ _ _ (d 0 2 (by omega) (by omega) (by omega)) (d 0 1 (by omega) (by omega) (by omega)) (d 2 1 (by omega) (by omega) (by omega)) (fun o => perm_eq o 0 2 1) h
  · exact main _ _ _ (d 0 1 (by omega) (by omega) (by omega)) (d 0 3 (by omega) (by omega) (by omega)) (d 1 3 (by omega) (by omega) (by omega)) (fun o => perm_eq o 0 1 3) h
  · exact main _ _ _ (d 1 2 (by omega) (by omega) (by omega)) (d 1 3 (by omega) (by omega) (by omega)) (d 2 3 (by omega) (by omega) (by omega)) (fun o => perm_eq o 1 2 3) h
  · exact main _ _ _ (d 2 0 (by omega) (by omega) (by omega)) (d 2 3 (by omega) (by omega) (by omega)) (d 0 3 (by omega) (by omega) (by omega)) (fun o => perm_eq o 2 0 3) h

/-- The edges of a face with an order run from its first vertex to its second, from its second to its third and from its third to its first. -/
theorem face_edges (c : Nat → α) (n : Nat) (hn : n < 4) (o : Int) (ho : o ∈ orders) :
    edgeGlobal c (faceEdgesLocal n o).1.1 (faceEdgesLocal n o).2.1 = ((faceGlobal c n o).1, (faceGlobal c n o).2.1) ∧
    edgeGlobal c (faceEdgesLocal n o).1.2.1 (faceEdgesLocal n o).2.2.1 = ((faceGlobal c n o).2.1, (faceGlobal c n o).2.2) ∧
    edgeGlobal c (faceEdgesLocal n o).1.2.2 (faceEdgesLocal n o).2.2.2 = ((faceGlobal c n o).2.2, (faceGlobal c n o).1) := by
  simp only [orders, List.mem_cons, List.not_mem_nil, or_false] at ho
  rcases ho with rfl | rfl | rfl | rfl | rfl | rfl <;> interval_cases n <;> exact ⟨rfl, rfl, rfl⟩

/-! ### orientation -/

/-- The edges of a triangle run around it, and the faces of a tetrahedron have their normals to the outside, as the cell is oriented: replacing the
vertices of the cell by those of the edge or face followed by the opposite vertex keeps the volume of a triangle and negates that of a tetrahedron. -/
theorem orientation {K : Type} [Field K] (X : Nat → Nat → K) : (∀ n < 3, ∃ w < 3, w ≠ (edgeVertices n 0).1 ∧ w ≠ (edgeVertices n 0).2 ∧
      C56.edgeDet 2 (fun i => X ([(edgeVertices n 0).1, (edgeVertices n 0).2, w].getD i 0)) = C56.edgeDet 2 X) ∧
    ∀ n < 4, ∃ w < 4, w ≠ (faceVertices n 0).1 ∧ w ≠ (faceVertices n 0).2.1 ∧ w ≠ (faceVertices n 0).2.2 ∧
      C56.edgeDet 3 (fun i => X ([(faceVertices n 0).1, (faceVertices n 0).2.1, (faceVertices n 0).2.2, w].getD i 0)) = -C56.edgeDet 3 X := by
  constructor
  · intro n hn
    interval_cases n
    · refine ⟨2, by omega, by decide, by decide, ?_⟩
      unfold C56.edgeDet; rw [Matrix.det_fin_two, Matrix.det_fin_two]; simp [edgeVertices]
    · refine ⟨0, by omega, by decide, by decide, ?_⟩
      unfold C56.edgeDet; rw [Matrix.det_fin_two, Matrix.det_fin_two]; simp [edgeVertices]; ring
    · refine ⟨1, by omega, by decide, by decide, ?_⟩
      unfold C56.edgeDet; rw [Matrix.det_fin_two, Matrix.det_fin_two]; simp [edgeVertices]; ring
  · intro n hn
    interval_cases n
    · refine ⟨3, by omega, by decide, by decide, by decide, ?_⟩
      unfold C56.edgeDet; rw [Matrix.det_fin_three, Matrix.det_fin_three]; simp [faceVertices, permute]; ring
    · refine ⟨2, by omega, by decide, by decide, by decide, ?_⟩
      unfold C56.edgeDet; rw [Matrix.det_fin_three, Matrix.det_fin_three]; simp [faceVertices, permute]; ring
    · refine ⟨0, by omega, by decide, by decide, by decide, ?_⟩
      unfold C56.edgeDet; rw [Matrix.det_fin_three, Matrix.det_fin_three]; simp [faceVertices, permute]; ring
    · refine ⟨1, by omega, by decide, by decide, by decide, ?_⟩
      unfold C56.edgeDet; rw [Matrix.det_fin_three, Matrix.det_fin_three]; simp [faceVertices, permute]; ring

/-! ### nodes -/

/-- The number of a vertex of a cell is where it is; −1 for other vertices. -/
theorem vertex_number (row : List α) (v : α) : (∀ i : Nat, findVertex row v = i → row[i]? = some v) ∧ (findVertex row v = -1 ↔ v ∉ row) ∧
    (row.Nodup → ∀ i (h : i < row.length), findVertex row row[i] = i) := by
  refine ⟨?_, ?_, ?_⟩
  · intro i h
    unfold findVertex at h
    split at h
    · rename_i j hj
      have : j = i := by exact_mod_cast h
      subst this
      rw [List.findIdx?_eq_some_iff_getElem] at hj
      obtain ⟨h1, h2, -⟩ := hj
      rw [List.getElem?_eq_getElem h1]
      simpa using h2
    · omega
  · unfold findVertex
    split
    · rename_i j hj
      rw [List.findIdx?_eq_some_iff_getElem] at hj
      obtain ⟨h1, h2, -⟩ := hj
      simp only [decide_eq_true_eq] at h2
      constructor
      · intro h; omega
      · intro h; exact absurd (h2 ▸ List.getElem_mem h1) h
    · rename_i hj
      rw [List.findIdx?_eq_none_iff] at hj
      simp only [decide_eq_false_iff_not] at hj
      exact ⟨fun _ hv => hj v hv rfl, fun _ => rfl⟩
  · intro hn i hi
    have : row.findIdx? (fun x => decide (x = row[i])) = some i := by
      rw [List.findIdx?_eq_some_iff_getElem]
      refine ⟨hi, by simp, fun j hj => ?_⟩
      simp only [decide_eq_true_eq]
      intro e
      exact absurd ((hn.getElem_inj_iff).1 e) (by omega)
    unfold findVertex
    rw [this]

/-- The loop over the vertices gives the vertices of a cell if cells have `dim + 1` vertices. -/
theorem nodes_partial (dim : Nat) (row : List α) (h : row.length = dim + 1) : cellNodes dim row = some row := by
  unfold cellNodes
  have : ∀ (l : List Nat), (∀ i ∈ l, i < row.length) → l.mapM (fun i => row[i]?) = some (l.map fun i => row.getD i (row.head (List.ne_nil_of_length_pos (by omega)))) := by
    intro l
    induction l with
    | nil => intro _; rfl
    | cons a l ih =>
      intro hl
      rw [List.mapM_cons, ih fun i hi => hl i (by simp [hi])]
      have ha : a < row.length := hl a (by simp)
      simp [List.getElem?_eq_getElem ha, List.getD_eq_getElem?_getD]
  rw [this _ fun i hi => by have := List.mem_range.1 hi; omega]
  congr 1
  apply List.ext_getElem
  · simp [h]
  · intro i h1 h2
    simp [List.getD_eq_getElem?_getD, List.getElem?_eq_getElem h2]

/-- On a mesh of lower dimension, such as triangles in three dimensions, it reads behind the cell. -/
theorem nodes_fails : cellNodes 2 [0, 1] = none ∧ cellNodes 3 [0, 1, 2] = none := by decide

/-! ### cases -/

example : Distinct 4 (fun i => [(5 : Int), 2, 9, 4].getD i 0) := by
  intro i hi j hj
  interval_cases i <;> interval_cases j <;> simp
example : cellEdges2 (fun i => [(5 : Int), 2, 9].getD i 0) = [(2, 5), (5, 9), (2, 9)] := by decide
example : findEdge2 (fun i => [(5 : Int), 2, 9].getD i 0) (5, 9) = 2 := by decide
example : findFace (fun i => [(5 : Int), 2, 9, 4].getD i 0) (2, 4, 9) = 2 := by decide
example : faceGlobal (fun i => [(5 : Int), 2, 9, 4].getD i 0) 2 (-3) = (4, 9, 2) := by decide
example : faceEdgesLocal 2 (-3) = ((5, 1, 4), (1, 1, 0)) := by decide
example : findEdgeKey3 (fun i => [(5 : Int), 2, 9, 4].getD i 0) (getEdgeKey3 (fun i => [(5 : Int), 2, 9, 4].getD i 0) 4) = 4 := by decide +kernel

end PyNucleus.Props.C81
