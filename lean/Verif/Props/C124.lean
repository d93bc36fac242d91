import Verif.Model.CellCenters
import Mathlib.Algebra.BigOperators.Ring.Finset
import Mathlib.Algebra.BigOperators.Field
import Mathlib.Algebra.Order.BigOperators.Group.Finset
import Mathlib.Algebra.Order.Field.Basic
import Mathlib.Algebra.Order.Ring.Rat
import Mathlib.Algebra.Field.Rat
import Mathlib.Tactic.FieldSimp
import Mathlib.Tactic.Linarith
import Mathlib.Tactic.Ring

/-!
# C124: centers of cells, and meshes of selected cells
-/

namespace PyNucleus.Props.C124

open PyNucleus.CellCenters

theorem center_sum {K : Type} [Field K] (m : Nat) (v : Nat → Nat → K) (k : Nat) :
    center m v k = (∑ j ∈ Finset.range (m + 1), v j k) / ((m + 1 : Nat) : K) := by
  have : ∀ n, (List.range n).foldl (fun s j => s + v j k) 0 = ∑ j ∈ Finset.range n, v j k := by
    intro n
    induction n with
    | zero => rfl
    | succ n ih => rw [List.range_succ, List.foldl_append, ih, Finset.sum_range_succ]; rfl
  unfold center
  rw [this]; ring

/-- The center has equal barycentric coordinates: each affine function has at the center the mean of its values at the vertices. -/
theorem affine {K : Type} [Field K] [CharZero K] (m dim : Nat) (v : Nat → Nat → K) (a : Nat → K) (b : K) :
    ∑ k ∈ Finset.range dim, a k * center m v k + b =
      (∑ j ∈ Finset.range (m + 1), (∑ k ∈ Finset.range dim, a k * v j k + b)) / ((m + 1 : Nat) : K) := by
  have hm : ((m + 1 : Nat) : K) ≠ 0 := Nat.cast_ne_zero.2 (by omega)
  rw [Finset.sum_add_distrib, Finset.sum_const, Finset.card_range, nsmul_eq_mul, add_div, mul_div_cancel_left₀ _ hm, Finset.sum_comm,
    Finset.sum_div]
  congr 1
  refine Finset.sum_congr rfl fun k _ => ?_
  rw [center_sum, ← Finset.mul_sum, mul_div_assoc]

/-- So the center is in the cell: it lies in each half space that holds all vertices. -/
theorem inside {K : Type} [Field K] [LinearOrder K] [IsStrictOrderedRing K] (m dim : Nat) (v : Nat → Nat → K) (a : Nat → K) (b : K)
    (h : ∀ j < m + 1, ∑ k ∈ Finset.range dim, a k * v j k ≤ b) : ∑ k ∈ Finset.range dim, a k * center m v k ≤ b := by
  have h1 := affine m dim v a 0
  simp only [add_zero] at h1
  rw [h1, div_le_iff₀ (by exact_mod_cast Nat.succ_pos m)]
  have := Finset.sum_le_card_nsmul (Finset.range (m + 1)) (fun j => ∑ k ∈ Finset.range dim, a k * v j k) b
    fun j hj => h j (Finset.mem_range.1 hj)
  rw [Finset.card_range, nsmul_eq_mul] at this
  linarith

theorem mins_spec {K : Type} [Field K] [LinearOrder K] (m : Nat) (v : Nat → Nat → K) (k : Nat) :
    (∀ j < m + 1, mins m v k ≤ v j k) ∧ ∃ j < m + 1, mins m v k = v j k := by
  unfold mins
  induction m with
  | zero =>
    refine ⟨fun j hj => ?_, 0, by omega, rfl⟩
    obtain rfl : j = 0 := by omega
    exact le_rfl
  | succ m ih =>
    obtain ⟨h1, j0, h2, h3⟩ := ih
    rw [List.range_succ, List.foldl_append, List.foldl_cons, List.foldl_nil]
    refine ⟨fun j hj => ?_, ?_⟩
    · by_cases e : j = m + 1
      · subst e; exact min_le_right _ _
      · exact (min_le_left _ _).trans (h1 j (by omega))
    · rcases min_choice ((List.range m).foldl (fun s j => min s (v (j + 1) k)) (v 0 k)) (v (m + 1) k) with e | e
      · exact ⟨j0, by omega, by rw [e, h3]⟩
      · exact ⟨m + 1, by omega, e⟩

theorem maxs_spec {K : Type} [Field K] [LinearOrder K] (m : Nat) (v : Nat → Nat → K) (k : Nat) :
    (∀ j < m + 1, v j k ≤ maxs m v k) ∧ ∃ j < m + 1, maxs m v k = v j k := by
  unfold maxs
  induction m with
  | zero =>
    refine ⟨fun j hj => ?_, 0, by omega, rfl⟩
    obtain rfl : j = 0 := by omega
    exact le_rfl
  | succ m ih =>
    obtain ⟨h1, j0, h2, h3⟩ := ih
    rw [List.range_succ, List.foldl_append, List.foldl_cons, List.foldl_nil]
    refine ⟨fun j hj => ?_, ?_⟩
    · by_cases e : j = m + 1
      · subst e; exact le_max_right _ _
      · exact (h1 j (by omega)).trans (le_max_left _ _)
    · rcases max_choice ((List.range m).foldl (fun s j => max s (v (j + 1) k)) (v 0 k)) (v (m + 1) k) with e | e
      · exact ⟨j0, by omega, by rw [e, h3]⟩
      · exact ⟨m + 1, by omega, e⟩

/-- The projected center is the center of the smallest box around the cell: there are two vertices on opposite sides of the box in each direction,
and all vertices are not farther away from the center than these. -/
theorem box {K : Type} [Field K] [LinearOrder K] [IsStrictOrderedRing K] (m : Nat) (v : Nat → Nat → K) (k : Nat) :
    ∃ a < m + 1, ∃ b < m + 1, projected m v k - v a k = v b k - projected m v k ∧ 0 ≤ v b k - projected m v k ∧
      ∀ j < m + 1, |v j k - projected m v k| ≤ v b k - projected m v k := by
  obtain ⟨h1, a, ha, ea⟩ := mins_spec m v k
  obtain ⟨h2, b, hb, eb⟩ := maxs_spec m v k
  have hp : projected m v k = (v a k + v b k) / 2 := by unfold projected; rw [ea, eb]; ring
  rw [ea] at h1
  rw [eb] at h2
  have hab := h1 b hb
  refine ⟨a, ha, b, hb, by rw [hp]; ring, by rw [hp]; linarith, fun j hj => ?_⟩
  have := h1 j hj
  have := h2 j hj
  rw [hp, abs_le]
  constructor <;> linarith

/-- The projected center need not be in the cell: a tetrahedron with all vertices on one side of a plane, and the projected center on the other. -/
theorem projected_fails : ∃ v : Nat → Nat → ℚ, (∀ j < 4, v j 0 + v j 1 + v j 2 ≤ 1) ∧ 1 < projected 3 v 0 + projected 3 v 1 + projected 3 v 2 := by
  refine ⟨fun j k => if j = k + 1 then 1 else 0, fun j hj => ?_, ?_⟩
  · have : j = 0 ∨ j = 1 ∨ j = 2 ∨ j = 3 := by omega
    rcases this with rfl | rfl | rfl | rfl <;> norm_num
  · have : projected 3 (fun j k => if j = k + 1 then (1 : ℚ) else 0) 0 + projected 3 (fun j k => if j = k + 1 then (1 : ℚ) else 0) 1 +
        projected 3 (fun j k => if j = k + 1 then (1 : ℚ) else 0) 2 = 3 / 2 := by decide +kernel
    rw [this]; norm_num

theorem renumber_spec {R : Type} : ∀ (cells : List R) (new : List Int) (s : (Nat → Option R) × Nat), cells.length = new.length →
    (new.filter fun i => decide (0 ≤ i)).Nodup →
    let r := (cells.zip new).foldl (fun (s : (Nat → Option R) × Nat) (p : R × Int) => if 0 ≤ p.2 then (fun i => if i = p.2.toNat then some p.1 else s.1 i, s.2 + 1) else s) s
    r.2 = s.2 + new.countP (fun i => decide (0 ≤ i)) ∧ (∀ k i : Nat, new[k]? = some (i : Int) → r.1 i = cells[k]?) ∧
    ∀ i : Nat, (i : Int) ∉ new → r.1 i = s.1 i := by
  intro cells
  induction cells with
  | nil =>
    intro new s hl _
    obtain rfl : new = [] := List.length_eq_zero_iff.1 hl.symm
    simp
  | cons c cells ih =>
    intro new s hl hn
    cases new with
    | nil => simp at hl
    | cons a new =>
      simp only [List.zip_cons_cons, List.foldl_cons]
      by_cases ha : 0 ≤ a
      · rw [if_pos ha]
        rw [List.filter_cons_of_pos (by simpa using ha), List.nodup_cons] at hn
        obtain ⟨h1, h2, h3⟩ := ih new (fun i => if i = a.toNat then some c else s.1 i, s.2 + 1) (by simpa using hl) hn.2
        have hna : a ∉ new := fun h => hn.1 (List.mem_filter.2 ⟨h, by simpa using ha⟩)
        refine ⟨by rw [h1, List.countP_cons_of_pos (by simpa using ha)]; omega, fun k i hk => ?_, fun i hi => ?_⟩
        · cases k with
          | zero =>
            simp only [List.getElem?_cons_zero, Option.some.injEq] at hk
            subst hk
            rw [h3 i hna]
            simp
          | succ k => exact h2 k i (by simpa using hk)
        · rw [List.mem_cons, not_or] at hi
          rw [h3 i hi.2]
          dsimp only
          rw [if_neg (by omega)]
      · rw [if_neg ha]
        rw [List.filter_cons_of_neg (by simpa using ha)] at hn
        obtain ⟨h1, h2, h3⟩ := ih new s (by simpa using hl) hn
        refine ⟨by rw [h1, List.countP_cons_of_neg (by simpa using ha)], fun k i hk => ?_, fun i hi => ?_⟩
        · cases k with
          | zero =>
            simp only [List.getElem?_cons_zero, Option.some.injEq] at hk
            omega
          | succ k => exact h2 k i (by simpa using hk)
        · rw [List.mem_cons, not_or] at hi
          exact h3 i hi.2

/-- With a list of new numbers, one for each cell and negative for the cells to leave out, the new mesh has each cell at its new number, and the
number of cells is the number of those that are not left out; another number that is asked for is an error. -/
theorem renumbered {R : Type} (cells : List R) (new : List Int) (numCells : Int) (mem : Nat → Option R) (hl : new.length = cells.length)
    (hn : (new.filter fun i => decide (0 ≤ i)).Nodup) :
    (submesh2 cells new numCells mem = none ↔ 0 < numCells ∧ numCells ≠ new.countP (fun i => decide (0 ≤ i))) ∧
    ∀ n r, submesh2 cells new numCells mem = some (n, r) → n = new.countP (fun i => decide (0 ≤ i)) ∧
      ∀ k i : Nat, new[k]? = some (i : Int) → r i = cells[k]? := by
  obtain ⟨h1, h2, -⟩ := renumber_spec cells new (mem, 0) hl.symm hn
  change (renumber cells new mem).2 = _ at h1
  change ∀ k i : Nat, new[k]? = some (i : Int) → (renumber cells new mem).1 i = cells[k]? at h2
  rw [Nat.zero_add] at h1
  unfold submesh2
  rw [if_pos hl]
  dsimp only
  rw [h1]
  by_cases hc : numCells ≤ 0
  · rw [if_pos hc, if_pos rfl]
    refine ⟨⟨fun h => (by cases h), fun h => by omega⟩, fun n r e => ?_⟩
    simp only [Option.some.injEq, Prod.mk.injEq] at e
    obtain ⟨rfl, rfl⟩ := e
    exact ⟨rfl, h2⟩
  · rw [if_neg hc]
    by_cases e : new.countP (fun i => decide (0 ≤ i)) = numCells.toNat
    · rw [if_pos e]
      refine ⟨⟨fun h => (by cases h), fun h => by omega⟩, fun n r e' => ?_⟩
      simp only [Option.some.injEq, Prod.mk.injEq] at e'
      obtain ⟨rfl, rfl⟩ := e'
      exact ⟨e.symm, h2⟩
    · rw [if_neg e]
      exact ⟨⟨fun _ => ⟨by omega, by omega⟩, fun _ => rfl⟩, fun n r e' => by cases e'⟩

/-- With a list of cells, the new mesh has these cells in this order, if their number is not the number of all cells. -/
theorem selected_partial {R : Type} (cells : List R) (sel : List Nat) (numCells : Int) (mem : Nat → Option R) (hl : sel.length ≠ cells.length) :
    ∃ r, submesh2 cells (sel.map fun (i : Nat) => (i : Int)) numCells mem = some (sel.length, r) ∧
      ∀ k c, sel[k]? = some c → r k = cells[c]? := by
  refine ⟨_, by unfold submesh2; rw [if_neg (by rw [List.length_map]; exact hl), List.length_map], fun k c hk => ?_⟩
  have hlt : k < sel.length := by
    by_contra h
    rw [List.getElem?_eq_none (by omega)] at hk; cases hk
  rw [if_pos hlt, List.getD_eq_getElem?_getD, List.getElem?_map, hk]
  simp

/-- But a list of all cells in another order is taken for new numbers: the order of the cells is the inverse one. And if a cell is listed twice, not
all cells of the new mesh are written. -/
theorem selected_fails :
    (∃ r, submesh2 [10, 20, 30] [1, 2, 0] (-1) (fun _ => none) = some (3, r) ∧ r 0 = some 30 ∧ [10, 20, 30][1]? = some 20) ∧
    ∃ r, submesh2 [10, 20, 30] [0, 0, 1] (-1) (fun _ => none) = some (3, r) ∧ r 2 = none :=
  ⟨⟨_, rfl, by decide, by decide⟩, _, rfl, by decide⟩

/-- A triangle, and a mesh of three cells. -/
theorem sample_case :
    let v : Nat → Nat → ℚ := fun j k => if j = k + 1 then 3 else 0
    [center 2 v 0, center 2 v 1, projected 2 v 0, projected 2 v 1] = [1, 1, 3/2, 3/2] ∧
    ((submesh2 [10, 20, 30] [1, -1, 0] (-1) (fun _ => none)).map fun s => (s.1, [0, 1].map s.2)) = some (2, [some 30, some 10]) ∧
    ((submesh2 [10, 20, 30] [2, 1] (-1) (fun _ => none)).map fun s => (s.1, [0, 1].map s.2)) = some (2, [some 30, some 20]) := by
  decide +kernel

end PyNucleus.Props.C124
