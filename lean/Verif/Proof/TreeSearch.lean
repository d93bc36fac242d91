import Verif.Spec.TreeSearch
import Mathlib.Algebra.Order.BigOperators.Group.Finset
import Mathlib.Algebra.BigOperators.Intervals
import Mathlib.Tactic.Linarith
import Mathlib.Tactic.Ring
import Mathlib.Tactic.FieldSimp
import Mathlib.Tactic.IntervalCases

/-!
# Helper lemmas on searching cells
-/

namespace PyNucleus.TreeSearch

theorem foldl_sum (f : Nat → ℝ) (n : Nat) (a : ℝ) :
    (List.range n).foldl (fun d i => d + f i) a = a + ∑ i ∈ Finset.range n, f i := by
  induction n with
  | zero => simp
  | succ n ih => rw [List.range_succ, List.foldl_append, ih, Finset.sum_range_succ]; simp [add_assoc]

/-- Contribution of one component to the smallest and to the largest distance. -/
noncomputable def lo (box : Box) (v : Vec) (i : Nat) : ℝ :=
  if v i ≤ (box i).1 then (v i - (box i).1) ^ 2
  else if v i ≥ (box i).2 then (v i - (box i).2) ^ 2 else 0

noncomputable def hi (box : Box) (v : Vec) (i : Nat) : ℝ :=
  if v i ≤ (box i).1 then (v i - (box i).2) ^ 2
  else if v i ≥ (box i).2 then (v i - (box i).1) ^ 2
  else max ((v i - (box i).1) ^ 2) ((v i - (box i).2) ^ 2)

theorem minDist2_eq (n : Nat) (box : Box) (v : Vec) :
    minDist2 n box v = ∑ i ∈ Finset.range n, lo box v i := by
  have : (fun (d : ℝ) (i : Nat) => if v i ≤ (box i).1 then d + (v i - (box i).1) ^ 2
      else if v i ≥ (box i).2 then d + (v i - (box i).2) ^ 2 else d) = fun d i => d + lo box v i := by
    funext d i
    unfold lo
    split
    · rfl
    · split <;> simp
  unfold minDist2
  rw [this, foldl_sum, zero_add]

theorem dists2_eq (n : Nat) (box : Box) (v : Vec) :
    dists2 n box v = (∑ i ∈ Finset.range n, lo box v i, ∑ i ∈ Finset.range n, hi box v i) := by
  have : (fun (d : ℝ × ℝ) (i : Nat) =>
      if v i ≤ (box i).1 then (d.1 + (v i - (box i).1) ^ 2, d.2 + (v i - (box i).2) ^ 2)
      else if v i ≥ (box i).2 then (d.1 + (v i - (box i).2) ^ 2, d.2 + (v i - (box i).1) ^ 2)
      else (d.1, d.2 + max ((v i - (box i).1) ^ 2) ((v i - (box i).2) ^ 2)))
      = fun d i => (d.1 + lo box v i, d.2 + hi box v i) := by
    funext d i
    unfold lo hi
    split
    · rfl
    · split <;> simp
  unfold dists2
  rw [this]
  induction n with
  | zero => simp
  | succ n ih =>
    rw [List.range_succ, List.foldl_append, ih, Finset.sum_range_succ, Finset.sum_range_succ]
    rfl

theorem lo_le (box : Box) (v p : Vec) (i : Nat) (h : (box i).1 ≤ p i ∧ p i ≤ (box i).2) :
    lo box v i ≤ (p i - v i) ^ 2 := by
  unfold lo
  split
  · next h1 => nlinarith [h.1]
  · split
    · next h1 h2 => nlinarith [h.2]
    · exact sq_nonneg _

theorem le_hi (box : Box) (v p : Vec) (i : Nat) (h : (box i).1 ≤ p i ∧ p i ≤ (box i).2) :
    (p i - v i) ^ 2 ≤ hi box v i := by
  unfold hi
  split
  · next h1 => nlinarith [h.1, h.2]
  · split
    · next h1 h2 => nlinarith [h.1, h.2]
    · next h1 h2 =>
      rcases le_total (p i) (v i) with h3 | h3
      · refine le_trans ?_ (le_max_left _ _)
        nlinarith [h.1]
      · refine le_trans ?_ (le_max_right _ _)
        nlinarith [h.2]

/-- The nearest and a farthest point of the box. -/
noncomputable def nearest (box : Box) (v : Vec) : Vec := fun i =>
  if v i ≤ (box i).1 then (box i).1 else if v i ≥ (box i).2 then (box i).2 else v i

noncomputable def farthest (box : Box) (v : Vec) : Vec := fun i =>
  if v i ≤ (box i).1 then (box i).2 else if v i ≥ (box i).2 then (box i).1
  else if (v i - (box i).2) ^ 2 ≤ (v i - (box i).1) ^ 2 then (box i).1 else (box i).2

theorem nearest_spec (box : Box) (v : Vec) (i : Nat) (hb : (box i).1 ≤ (box i).2) :
    ((box i).1 ≤ nearest box v i ∧ nearest box v i ≤ (box i).2) ∧
      (nearest box v i - v i) ^ 2 = lo box v i := by
  unfold nearest lo
  split
  · exact ⟨⟨le_rfl, hb⟩, by ring⟩
  · split
    · exact ⟨⟨hb, le_rfl⟩, by ring⟩
    · next h1 h2 => exact ⟨⟨by linarith, by linarith⟩, by ring⟩

theorem farthest_spec (box : Box) (v : Vec) (i : Nat) (hb : (box i).1 ≤ (box i).2) :
    ((box i).1 ≤ farthest box v i ∧ farthest box v i ≤ (box i).2) ∧
      (farthest box v i - v i) ^ 2 = hi box v i := by
  unfold farthest hi
  split
  · exact ⟨⟨hb, le_rfl⟩, by ring⟩
  · split
    · exact ⟨⟨le_rfl, hb⟩, by ring⟩
    · split
      · next h => exact ⟨⟨le_rfl, hb⟩, by rw [max_eq_left h]; ring⟩
      · next h => exact ⟨⟨hb, le_rfl⟩, by rw [max_eq_right (by linarith)]; ring⟩

theorem lo_nonneg (box : Box) (v : Vec) (i : Nat) : 0 ≤ lo box v i := by
  unfold lo
  split
  · exact sq_nonneg _
  · split
    · exact sq_nonneg _
    · exact le_rfl

theorem minDist2_nonneg (n : Nat) (box : Box) (v : Vec) : 0 ≤ minDist2 n box v := by
  rw [minDist2_eq]
  exact Finset.sum_nonneg fun i _ => lo_nonneg box v i

/-- Points on a line at distance `r` from a point. -/
theorem cutsEdge_iff (s : Triangle) (v : Vec) (r : ℝ) (i : Nat)
    (hs : ∃ j < 2, s ((i + 1) % 3) j ≠ s i j) :
    cutsEdge s v r i = true ↔ (∃ t, 0 ≤ t ∧ t ≤ 1 ∧ sqDist 2 (edgePoint s i t) v = r ^ 2) ∧
      ∃ t, sqDist 2 (edgePoint s i t) v < r ^ 2 := by
  set w : Vec := fun j => s ((i + 1) % 3) j - s i j with hw
  set z : Vec := fun j => s i j - v j with hz
  have hpos : 0 < dot2 w w := by
    obtain ⟨j, hj, hne⟩ := hs
    have : w j ≠ 0 := sub_ne_zero.mpr hne
    have h2 := mul_self_pos.mpr this
    unfold dot2
    interval_cases j
    · linarith [mul_self_nonneg (w 1)]
    · linarith [mul_self_nonneg (w 0)]
  have hsq : ∀ t, sqDist 2 (edgePoint s i t) v = dot2 w w * t ^ 2 + 2 * dot2 w z * t + dot2 z z := by
    intro t
    simp only [sqDist, Finset.sum_range_succ, Finset.sum_range_zero, edgePoint, dot2, hw, hz]
    ring
  set p := 2 * dot2 w z * (1 / dot2 w w) with hp
  set q := p ^ 2 / 4 - (dot2 z z - r ^ 2) * (1 / dot2 w w) with hq
  have hsq' : ∀ t, sqDist 2 (edgePoint s i t) v - r ^ 2 = dot2 w w * ((t + p / 2) ^ 2 - q) := by
    intro t
    rw [hsq, hq, hp]
    field_simp
    ring
  have hcut : cutsEdge s v r i = if q > 0 then
      ((decide (0 ≤ -p / 2 + Real.sqrt q) && decide (-p / 2 + Real.sqrt q ≤ 1)) ||
       (decide (0 ≤ -p / 2 - Real.sqrt q) && decide (-p / 2 - Real.sqrt q ≤ 1))) else false := rfl
  have hin : (∃ t, sqDist 2 (edgePoint s i t) v < r ^ 2) ↔ 0 < q := by
    constructor
    · rintro ⟨t, ht⟩
      have h1 := hsq' t
      have h2 : (t + p / 2) ^ 2 - q < 0 := by
        by_contra hcon
        have := mul_nonneg hpos.le (not_lt.mp hcon)
        linarith
      nlinarith [sq_nonneg (t + p / 2)]
    · intro hq0
      refine ⟨-p / 2, ?_⟩
      have h1 := hsq' (-p / 2)
      have h2 : (-p / 2 + p / 2) ^ 2 - q = -q := by ring
      rw [h2] at h1
      have := mul_pos hpos hq0
      linarith
  rw [hin, hcut]
  constructor
  · intro h
    split at h
    · next hq0 =>
      have hs2 : Real.sqrt q ^ 2 = q := Real.sq_sqrt (le_of_lt hq0)
      have root : ∀ t, (t + p / 2) ^ 2 = q → sqDist 2 (edgePoint s i t) v = r ^ 2 := by
        intro t ht
        have h1 := hsq' t
        rw [ht, sub_self, mul_zero] at h1
        linarith
      refine ⟨?_, hq0⟩
      simp only [Bool.or_eq_true, Bool.and_eq_true, decide_eq_true_eq] at h
      rcases h with h | h
      · exact ⟨_, h.1, h.2, root _ (by
          rw [show -p / 2 + Real.sqrt q + p / 2 = Real.sqrt q by ring, hs2])⟩
      · exact ⟨_, h.1, h.2, root _ (by
          rw [show -p / 2 - Real.sqrt q + p / 2 = -Real.sqrt q by ring, neg_sq, hs2])⟩
    · cases h
  · rintro ⟨⟨t, h0, h1, ht⟩, hq0⟩
    rw [if_pos hq0]
    have h2 := hsq' t
    rw [ht, sub_self] at h2
    have h3 : (t + p / 2) ^ 2 = q := by
      rcases mul_eq_zero.mp h2.symm with h | h
      · exact absurd h hpos.ne'
      · linarith
    have hs2 : Real.sqrt q ^ 2 = q := Real.sq_sqrt hq0.le
    rw [← hs2] at h3
    simp only [Bool.or_eq_true, Bool.and_eq_true, decide_eq_true_eq]
    rcases sq_eq_sq_iff_eq_or_eq_neg.mp h3 with h | h
    · left
      have : -p / 2 + Real.sqrt q = t := by linarith
      rw [this]; exact ⟨h0, h1⟩
    · right
      have : -p / 2 - Real.sqrt q = t := by linarith
      rw [this]; exact ⟨h0, h1⟩

/-- A node is skipped. -/
def Skip (n : Nat) (h : ℝ) (v : Vec) (r : ℝ) (box : Box) : Prop :=
  (dists n box v).2 ≤ r - h ∨ (dists n box v).1 ≥ r + h

mutual
theorem mem_findCells (n : Nat) (simplex : Nat → Triangle) (h : ℝ) (v : Vec) (r : ℝ) (c : Nat) :
    ∀ t : Node, c ∈ findCells n simplex h v r t ↔ ∃ w ∈ t.ways, c ∈ w.2 ∧
      distFromSimplex (simplex c) v r = true ∧ ∀ b ∈ w.1, ¬ Skip n h v r b
  | .leaf box cells => by
    unfold findCells
    by_cases hs : (dists n box v).2 ≤ r - h ∨ (dists n box v).1 ≥ r + h
    · rw [if_pos hs]
      simp only [List.not_mem_nil, Node.ways, List.mem_singleton, false_iff]
      rintro ⟨w, rfl, -, -, hall⟩
      exact hall box List.mem_cons_self hs
    · rw [if_neg hs]
      simp only [Node.ways, List.mem_singleton, List.mem_filter]
      constructor
      · rintro ⟨h1, h2⟩
        exact ⟨_, rfl, h1, h2, fun b hb => by
          simp only [List.mem_singleton] at hb; subst hb; exact hs⟩
      · rintro ⟨w, rfl, h1, h2, -⟩
        exact ⟨h1, h2⟩
  | .inner box l => by
    unfold findCells
    by_cases hs : (dists n box v).2 ≤ r - h ∨ (dists n box v).1 ≥ r + h
    · rw [if_pos hs]
      simp only [List.not_mem_nil, Node.ways, List.mem_map, false_iff]
      rintro ⟨w, ⟨w', -, rfl⟩, -, -, hall⟩
      exact hall box List.mem_cons_self hs
    · rw [if_neg hs, mem_findCellsList n simplex h v r c l]
      simp only [Node.ways, List.mem_map]
      constructor
      · rintro ⟨w, hw, h1, h2, h3⟩
        exact ⟨_, ⟨w, hw, rfl⟩, h1, h2, List.forall_mem_cons.mpr ⟨hs, h3⟩⟩
      · rintro ⟨w, ⟨w', hw', rfl⟩, h1, h2, h3⟩
        exact ⟨w', hw', h1, h2, (List.forall_mem_cons.mp h3).2⟩

theorem mem_findCellsList (n : Nat) (simplex : Nat → Triangle) (h : ℝ) (v : Vec) (r : ℝ) (c : Nat) :
    ∀ l : List Node, c ∈ findCellsList n simplex h v r l ↔ ∃ w ∈ waysList l, c ∈ w.2 ∧
      distFromSimplex (simplex c) v r = true ∧ ∀ b ∈ w.1, ¬ Skip n h v r b
  | [] => by simp [findCellsList, waysList]
  | a :: l => by
    unfold findCellsList waysList
    rw [List.mem_append, mem_findCells n simplex h v r c a, mem_findCellsList n simplex h v r c l]
    simp only [List.mem_append]
    constructor
    · rintro (⟨w, hw, h1⟩ | ⟨w, hw, h1⟩)
      · exact ⟨w, Or.inl hw, h1⟩
      · exact ⟨w, Or.inr hw, h1⟩
    · rintro ⟨w, hw | hw, h1⟩
      · exact Or.inl ⟨w, hw, h1⟩
      · exact Or.inr ⟨w, hw, h1⟩
end

mutual
theorem findCell_sound (n : Nat) (v : Vec) (inCell : Nat → Bool) :
    ∀ t : Node, (∀ w ∈ t.ways, w.2 ≠ []) →
      findCell n v inCell t = -1 ∨ ∃ w ∈ t.ways, ∃ c ∈ w.2, findCell n v inCell t = (c : Int) ∧
        inCell c = true
  | .leaf box cells, hne => by
    unfold findCell
    split
    · exact Or.inl rfl
    · have : cells ≠ [] := hne ([box], cells) (by simp [Node.ways])
      obtain ⟨c, l, rfl⟩ := List.exists_cons_of_ne_nil this
      unfold leafCell
      dsimp only
      split
      · next hc => exact Or.inr ⟨([box], c :: l), by simp [Node.ways], c, List.mem_cons_self, rfl, hc⟩
      · exact Or.inl rfl
  | .inner box l, hne => by
    unfold findCell
    split
    · exact Or.inl rfl
    · rcases findCellList_sound n v inCell l (fun w hw => by
        have := hne (box :: w.1, w.2) (by
          simp only [Node.ways, List.mem_map]; exact ⟨w, hw, rfl⟩)
        exact this) with h | ⟨w, hw, c, hc, h1, h2⟩
      · exact Or.inl h
      · exact Or.inr ⟨(box :: w.1, w.2), by
          simp only [Node.ways, List.mem_map]; exact ⟨w, hw, rfl⟩, c, hc, h1, h2⟩

theorem findCellList_sound (n : Nat) (v : Vec) (inCell : Nat → Bool) :
    ∀ l : List Node, (∀ w ∈ waysList l, w.2 ≠ []) →
      findCellList n v inCell l = -1 ∨ ∃ w ∈ waysList l, ∃ c ∈ w.2,
        findCellList n v inCell l = (c : Int) ∧ inCell c = true
  | [], _ => Or.inl (by unfold findCellList; rfl)
  | a :: l, hne => by
    unfold findCellList
    unfold waysList at hne ⊢
    split
    · next h0 =>
      rcases findCell_sound n v inCell a (fun w hw => hne w (List.mem_append_left _ hw)) with
        h | ⟨w, hw, c, hc, h1, h2⟩
      · rw [h] at h0; omega
      · exact Or.inr ⟨w, List.mem_append_left _ hw, c, hc, h1, h2⟩
    · rcases findCellList_sound n v inCell l (fun w hw => hne w (List.mem_append_right _ hw)) with
        h | ⟨w, hw, c, hc, h1, h2⟩
      · exact Or.inl h
      · exact Or.inr ⟨w, List.mem_append_right _ hw, c, hc, h1, h2⟩
end

mutual
theorem findCell_complete (n : Nat) (v : Vec) (inCell : Nat → Bool) :
    ∀ t : Node, (∃ w ∈ t.ways, (∃ c, w.2.head? = some c ∧ inCell c = true) ∧
        ∀ b ∈ w.1, minDist2 n b v = 0) → 0 ≤ findCell n v inCell t
  | .leaf box cells, h => by
    obtain ⟨w, hw, ⟨c, hc, hin⟩, hb⟩ := h
    simp only [Node.ways, List.mem_singleton] at hw
    subst hw
    unfold findCell
    rw [if_neg (by rw [hb box (by simp)]; exact lt_irrefl _)]
    cases cells with
    | nil => simp at hc
    | cons a l =>
      simp only [List.head?_cons, Option.some.injEq] at hc
      subst hc
      simp [leafCell, hin]
  | .inner box l, h => by
    obtain ⟨w, hw, hc, hb⟩ := h
    simp only [Node.ways, List.mem_map] at hw
    obtain ⟨w', hw', rfl⟩ := hw
    unfold findCell
    rw [if_neg (by rw [hb box List.mem_cons_self]; exact lt_irrefl _)]
    exact findCellList_complete n v inCell l ⟨w', hw', hc, fun b hb' => hb b (List.mem_cons_of_mem _ hb')⟩

theorem findCellList_complete (n : Nat) (v : Vec) (inCell : Nat → Bool) :
    ∀ l : List Node, (∃ w ∈ waysList l, (∃ c, w.2.head? = some c ∧ inCell c = true) ∧
        ∀ b ∈ w.1, minDist2 n b v = 0) → 0 ≤ findCellList n v inCell l
  | [], h => by simp [waysList] at h
  | a :: l, h => by
    unfold findCellList
    split
    · next h0 => exact h0
    · next h0 =>
      obtain ⟨w, hw, hrest⟩ := h
      unfold waysList at hw
      rcases List.mem_append.mp hw with hw | hw
      · exact absurd (findCell_complete n v inCell a ⟨w, hw, hrest⟩) h0
      · exact findCellList_complete n v inCell l ⟨w, hw, hrest⟩
end

theorem edgePoint_inBox (s : Triangle) (box : Box) (i : Nat) (hi : i < 3)
    (hs : ∀ k < 3, InBox 2 box (s k)) (t : ℝ) (h0 : 0 ≤ t) (h1 : t ≤ 1) :
    InBox 2 box (edgePoint s i t) := by
  intro j hj
  have a := hs i hi j hj
  have b := hs ((i + 1) % 3) (Nat.mod_lt _ (by omega)) j hj
  unfold edgePoint
  constructor <;> nlinarith

end PyNucleus.TreeSearch
