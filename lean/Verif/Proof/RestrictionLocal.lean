import Verif.Proof.RestrictionTables
import Mathlib.Algebra.Order.Field.Rat
import Mathlib.Data.List.GetD

/-! # Local properties of the tables of restriction operators -/

namespace PyNucleus.Restriction

open PyNucleus.ShapeFunctions

theorem nodes_eq : ∀ p ∈ List.range 4, ∀ d ∈ List.range 3, nodes ℚ p (d + 1) = (nodeN p (d + 1)).map (·.map fun n : Nat => (n : ℚ) / 12) := by decide +kernel

theorem subCells_eq : ∀ t ∈ tables, ∀ k ∈ List.range 3, subCells t.dim t.sub k = (childN t.dim t.sub k).map (·.map (·.map fun n : Nat => (n : ℚ) / 2)) := by
  decide +kernel

theorem orders : ∀ t ∈ tables, t.coarse ∈ List.range 4 ∧ t.fine ∈ List.range 4 ∧ t.dim - 1 ∈ List.range 3 ∧ 1 ≤ t.dim ∧ t.coarse ≤ t.fine ∧ 1 ≤ t.sub := by decide +kernel

theorem nodes_eq' (t : Table) (ht : t ∈ tables) : nodes ℚ t.fine t.dim = (nodeN t.fine t.dim).map (·.map fun n : Nat => (n : ℚ) / 12) := by
  obtain ⟨-, h1, h2, h3, -⟩ := orders t ht
  have := nodes_eq t.fine h1 (t.dim - 1) h2
  rwa [show t.dim - 1 + 1 = t.dim by omega] at this

theorem getD_map' {α β : Type} (f : α → β) (l : List α) (i : Nat) (a : α) : (l.map f).getD i (f a) = f (l.getD i a) := by
  simp only [List.getD_eq_getElem?_getD, List.getElem?_map]
  cases l[i]? <;> rfl

theorem at_eq (t : Table) (ht : t ∈ tables) (k q J : Nat) (hk : k < 3) : t.at k q J = (t.num k q J).map fun n : Nat => (n : ℚ) / 24 := by
  unfold Table.at Table.num outer
  rw [nodes_eq' t ht, subCells_eq t ht k (List.mem_range.2 hk), List.map_map]
  refine List.map_congr_left fun l _ => ?_
  have e1 : ∀ i, (((nodeN t.fine t.dim).map (·.map fun n : Nat => (n : ℚ) / 12)).getD J []).getD i 0 = ((((nodeN t.fine t.dim).getD J []).getD i 0 : Nat) : ℚ) / 12 := fun i => by
    rw [show ([] : List ℚ) = ([] : List Nat).map fun n : Nat => (n : ℚ) / 12 from rfl, getD_map' (fun r : List Nat => r.map fun n : Nat => (n : ℚ) / 12),
      show (0 : ℚ) = ((0 : Nat) : ℚ) / 12 by norm_num, getD_map' (fun n : Nat => (n : ℚ) / 12)]
  have e2 : ∀ i, ((((childN t.dim t.sub k).map (·.map (·.map fun n : Nat => (n : ℚ) / 2))).getD q []).getD i []).getD l 0 =
      (((((childN t.dim t.sub k).getD q []).getD i []).getD l 0 : Nat) : ℚ) / 2 := fun i => by
    rw [show ([] : List (List ℚ)) = ([] : List (List Nat)).map (·.map fun n : Nat => (n : ℚ) / 2) from rfl,
      getD_map' (fun r : List (List Nat) => r.map (·.map fun n : Nat => (n : ℚ) / 2)),
      show ([] : List ℚ) = ([] : List Nat).map fun n : Nat => (n : ℚ) / 2 from rfl, getD_map' (fun r : List Nat => r.map fun n : Nat => (n : ℚ) / 2),
      show (0 : ℚ) = ((0 : Nat) : ℚ) / 2 by norm_num, getD_map' (fun n : Nat => (n : ℚ) / 2)]
  simp only [e1, e2, Function.comp_apply]
  generalize List.range (t.dim + 1) = r
  induction r with
  | nil => simp
  | cons a r ih =>
    simp only [List.map_cons, List.sum_cons, Nat.cast_add, Nat.cast_mul, add_div]
    rw [← ih]
    simp only [Rat.cast_id]
    ring

/-- A shape function that is not recognised as nonzero vanishes. -/
theorem eval_eq_zero (n : List Nat) (φ : Shape) (h : nonzero n φ = false) : φ.eval (n.map fun n : Nat => (n : ℚ) / 24) = 0 := by
  have e : ∀ v, (n.map fun n : Nat => (n : ℚ) / 24).getD v 0 = ((n.getD v 0 : Nat) : ℚ) / 24 := fun v => by
    rw [show (0 : ℚ) = ((0 : Nat) : ℚ) / 24 by norm_num, getD_map' (fun n : Nat => (n : ℚ) / 24)]
  cases φ <;> simp only [Shape.eval, nonzero, e] at h ⊢ <;>
    simp only [Bool.and_eq_false_iff, bne_eq_false_iff_eq, reduceCtorEq] at h <;> (try rcases h with (h | h) | h) <;> (try rcases h with h | h) <;> rw [h] <;> norm_num

theorem at_digs (t : Table) (ht : t ∈ tables) (k q J : Nat) (hk : k < 3) (hq : q < t.sub) (hJ : J < (nodeN t.fine t.dim).length) :
    t.at k q J = (digs t.dim (t.codeAt k q J)).map (fun n : Nat => (n : ℚ) / 24) ∧ t.codeAt k q J ∈ codes t.dim t.sub t.fine k := by
  have h := goodCode t ht k (List.mem_range.2 hk)
  unfold Table.goodCode at h
  have h := List.all_eq_true.1 (List.all_eq_true.1 h q (List.mem_range.2 hq)) J (List.mem_range.2 hJ)
  rw [Bool.and_eq_true, beq_iff_eq, List.any_eq_true] at h
  refine ⟨by rw [at_eq t ht k q J hk, h.1], ?_⟩
  obtain ⟨c, hc, e⟩ := h.2
  rwa [← Nat.eq_of_beq_eq_true e]

theorem nodeN_length (t : Table) (ht : t ∈ tables) : (nodeN t.fine t.dim).length = (nodes ℚ t.fine t.dim).length ∧
    (nodeN t.coarse t.dim).length = (nodes ℚ t.coarse t.dim).length ∧ (localShapeFunctions t.coarse t.dim).length = (nodes ℚ t.coarse t.dim).length := by
  have : ∀ t ∈ tables, (nodeN t.fine t.dim).length = (nodes ℚ t.fine t.dim).length ∧ (nodeN t.coarse t.dim).length = (nodes ℚ t.coarse t.dim).length ∧
    (localShapeFunctions t.coarse t.dim).length = (nodes ℚ t.coarse t.dim).length := by decide +kernel
  exact this t ht

/-- The values are those of the shape functions at the nodes. -/
theorem data_spec (t : Table) (ht : t ∈ tables) (k : Nat) (hk : k < 3) (g : Nat × List (Nat × Nat × Int)) (hg : g ∈ t.dataOf k) (e : Nat × Nat × Int) (he : e ∈ g.2) :
    g.1 < (nodes ℚ t.coarse t.dim).length ∧ e.1 < t.sub ∧ e.2.1 < (nodes ℚ t.fine t.dim).length ∧
      |(e.2.2 : ℚ) / 10 ^ t.digits - (t.shape g.1).eval (t.at k e.1 e.2.1)| ≤ t.tol := by
  have h := List.all_eq_true.1 (goodData t ht k (List.mem_range.2 hk)) g hg
  rw [Bool.and_eq_true] at h
  have h2 := List.all_eq_true.1 h.2 e he
  rw [Bool.and_eq_true, Bool.and_eq_true, decide_eq_true_eq] at h2
  have b : ∀ {a b : Nat}, Nat.blt a b = true → a < b := fun h => Nat.lt_of_lt_of_le (Nat.lt_succ_self _) (Nat.le_of_ble_eq_true h)
  obtain ⟨l1, l2, -⟩ := nodeN_length t ht
  refine ⟨l2 ▸ b h.1, b h2.1.1, l1 ▸ b h2.1.2, ?_⟩
  rw [(at_digs t ht k e.1 e.2.1 hk (b h2.1.1) (b h2.1.2)).1]
  exact h2.2

/-- Every node at which the shape function of a local dof does not vanish is in its row. -/
theorem data_complete (t : Table) (ht : t ∈ tables) (k : Nat) (hk : k < 3) (q J I : Nat) (hq : q < t.sub) (hJ : J < (nodes ℚ t.fine t.dim).length)
    (hI : I < (nodes ℚ t.coarse t.dim).length) (h : (t.shape I).eval (t.at k q J) ≠ 0) :
    ∃ g ∈ t.dataOf k, g.1 = I ∧ ∃ e ∈ g.2, t.at k e.1 e.2.1 = t.at k q J := by
  obtain ⟨l1, l2, l3⟩ := nodeN_length t ht
  obtain ⟨a1, a2⟩ := at_digs t ht k q J hk hq (l1 ▸ hJ)
  have hr := goodRows t ht k (List.mem_range.2 hk)
  unfold Table.goodRows at hr
  rw [beq_iff_eq] at hr
  have hc := complete t ht k (List.mem_range.2 hk)
  unfold Table.complete at hc
  rw [hr] at hc
  have hz : ∀ {β : Type} (f : Nat → β), (t.shape I, f I) ∈ (localShapeFunctions t.coarse t.dim).zip ((List.range (localShapeFunctions t.coarse t.dim).length).map f) := fun f => by
    have hI' : I < (localShapeFunctions t.coarse t.dim).length := l3 ▸ hI
    rw [List.mem_iff_getElem]
    refine ⟨I, by simpa using hI', ?_⟩
    rw [List.getElem_zip, List.getElem_map, List.getElem_range]
    unfold Table.shape
    rw [List.getD_eq_getElem _ _ hI']
  have := List.all_eq_true.1 (List.all_eq_true.1 hc _ (hz _)) _ a2
  rw [Bool.or_eq_true] at this
  rcases this with h' | h'
  · rw [Bool.not_eq_true'] at h'
    exact absurd (by rw [a1]; exact eval_eq_zero _ _ h') h
  · obtain ⟨c, hc, e⟩ := List.any_eq_true.1 h'
    rw [Nat.eq_of_beq_eq_true e] at hc
    obtain ⟨g, hg, hc⟩ := List.mem_flatMap.1 hc
    obtain ⟨hg, hI⟩ := List.mem_filter.1 hg
    obtain ⟨e, he, hc⟩ := List.mem_map.1 hc
    refine ⟨g, hg, Nat.eq_of_beq_eq_true hI, e, he, ?_⟩
    obtain ⟨-, s1, s2, -⟩ := data_spec t ht k hk g hg e he
    rw [(at_digs t ht k e.1 e.2.1 hk s1 (l1 ▸ s2)).1, a1, hc]

/-- Both loops of a function go through the same positions. -/
theorem pattern_spec (t : Table) (ht : t ∈ tables) (k : Nat) (hk : k < 3) :
    t.patternOf k = (t.dataOf k).map fun g => (g.1, g.2.map fun e => (e.1, e.2.1)) := by
  have h := goodPattern t ht k (List.mem_range.2 hk)
  unfold Table.goodPattern at h
  exact beq_iff_eq.1 h

end PyNucleus.Restriction
