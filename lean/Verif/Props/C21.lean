import Verif.Proof.Block
import Mathlib.Algebra.Field.Rat
import Mathlib.Algebra.BigOperators.Intervals

/-! # C21 Block triangular inverses -/

namespace PyNucleus.Props.C21

open PyNucleus.Loops PyNucleus.Spec PyNucleus.Block

variable {K : Type}

/-- Block operator of consistent blocks: the constructor accepts it, and `matvec` applies the block
matrix, whatever the output and the buffer held before. -/
theorem block_matvec [Semiring K] (blocks : List (List (Blk K))) (nb nc : Nat) (r c : Nat → Nat) (h : Rect blocks nb nc r c)
    (M : Nat → Nat → Nat → Nat → K)
    (hB : ∀ i j, i < nb → j < nc → ((blocks.getD i []).getD j default).Is (M i j))
    (x y temp : List K) (hx : x.length = offset c nc) (hy : y.length = offset r nb) (ht : temp.length = offset r nb) :
    ∃ A, init blocks = some A ∧ (matvec A x y temp).1.length = offset r nb ∧
      ∀ i a, i < nb → a < r i →
        (matvec A x y temp).1.getD (offset r i + a) 0 = ∑ j ∈ Finset.range nc, blockTerm c M x i j a := by
  obtain ⟨A, e, hb, w⟩ := init_ok blocks nb nc r c h
  refine ⟨A, e, ?_⟩
  have := matvec_ok w (M := M) (fun i j hi hj => by unfold BlockOp.blk; rw [hb]; exact hB i j hi hj) x y temp hx hy ht
  exact ⟨this.1, this.2.2⟩

/-- Conditions on the diagonal solvers. -/
structure DiagSolvers [Semiring K] (dinv : List (Blk K)) (nb : Nat) (r : Nat → Nat) (M : Nat → Nat → Nat → Nat → K) : Prop where
  rows : ∀ i, i < nb → (dinv.getD i default).rows = r i
  solves : ∀ i, i < nb → (dinv.getD i default).Solves (M i i)

section
variable [Ring K] {blocks : List (List (Blk K))} {nb : Nat} {r : Nat → Nat} {M : Nat → Nat → Nat → Nat → K}

private theorem zeros (y : List K) : (forRange 0 y.length y fun y k => y.set k 0).length = y.length ∧
    ∀ k, (forRange 0 y.length y fun y k => y.set k 0).getD k 0 = 0 := by
  have hz := forRange_update y 0 y.length (Nat.le_refl _) fun _ _ => (0 : K)
  refine ⟨hz.1, fun k => (hz.2 k).trans ?_⟩
  split
  · rfl
  · rw [List.getD_eq_getElem?_getD, List.getElem?_eq_none (by omega)]; rfl

/-- The block lower inverse solves the block lower triangular system. -/
theorem lower_solves (h : Rect blocks nb nb r r)
    (hB : ∀ i j, i < nb → j < nb → ((blocks.getD i []).getD j default).Is (M i j)) (dinv : List (Blk K))
    (hD : DiagSolvers dinv nb r M) (b y temp : List K) (hy : y.length = offset r nb) (ht : temp.length = offset r nb) :
    ∃ A, init blocks = some A ∧ (lowerInverse A dinv b y temp).1.length = offset r nb ∧
      ∀ i a, i < nb → a < r i →
        ∑ j ∈ Finset.range (i + 1), blockTerm r M (lowerInverse A dinv b y temp).1 i j a = b.getD (offset r i + a) 0 := by
  obtain ⟨A, e, hb, w⟩ := init_ok blocks nb nb r r h
  refine ⟨A, e, ?_⟩
  have hz := zeros y
  have s := solve_ok w (M := M) (fun i j hi hj => by unfold BlockOp.blk; rw [hb]; exact hB i j hi hj) dinv hD.rows hD.solves b
    (forRange 0 y.length y fun y k => y.set k 0) temp (hz.1.trans hy) ht hz.2 List.range (List.range nb) List.nodup_range
    (fun i hi => List.mem_range.1 hi) (fun l i l' hl j hj => ?_) _ rfl
  · have hdef : lowerInverse A dinv b y temp = (List.range nb).foldl (fun s i => solveRow A dinv b (List.range i) i s)
        (forRange 0 y.length y fun y k => y.set k 0, temp) := by
      unfold lowerInverse; rw [w.rect.rows]
    rw [hdef]
    refine ⟨s.1, fun i a hi ha => ?_⟩
    rw [Finset.sum_range_succ, ← sum_range]
    exact s.2.2.2 i (List.mem_range.2 hi) a ha
  · -- the rows before row i are 0, ..., i - 1
    have hli : l.length = i := by
      have h1 : (List.range nb)[l.length]? = some i := by rw [hl]; simp
      obtain ⟨h2, h3⟩ := List.getElem?_eq_some_iff.1 h1
      simpa using h3
    have hj' : j < i := List.mem_range.1 hj
    have h1 : (List.range nb)[j]? = some j := by
      have : i < nb := by
        have := congrArg List.length hl
        simp at this; omega
      rw [List.getElem?_range (by omega)]
    rw [hl, List.getElem?_append_left (by omega)] at h1
    exact List.mem_of_getElem? h1

/-- The block upper inverse solves the block upper triangular system. -/
theorem upper_solves (h : Rect blocks nb nb r r)
    (hB : ∀ i j, i < nb → j < nb → ((blocks.getD i []).getD j default).Is (M i j)) (dinv : List (Blk K))
    (hD : DiagSolvers dinv nb r M) (b y temp : List K) (hy : y.length = offset r nb) (ht : temp.length = offset r nb) :
    ∃ A, init blocks = some A ∧ (upperInverse A dinv b y temp).1.length = offset r nb ∧
      ∀ i a, i < nb → a < r i →
        ∑ j ∈ Finset.Ico i nb, blockTerm r M (upperInverse A dinv b y temp).1 i j a = b.getD (offset r i + a) 0 := by
  obtain ⟨A, e, hb, w⟩ := init_ok blocks nb nb r r h
  refine ⟨A, e, ?_⟩
  have hz := zeros y
  have s := solve_ok w (M := M) (fun i j hi hj => by unfold BlockOp.blk; rw [hb]; exact hB i j hi hj) dinv hD.rows hD.solves b
    (forRange 0 y.length y fun y k => y.set k 0) temp (hz.1.trans hy) ht hz.2 (fun i => List.range' (i + 1) (nb - (i + 1)))
    (List.range nb).reverse (List.nodup_reverse.2 List.nodup_range)
    (fun i hi => List.mem_range.1 (List.mem_reverse.1 hi)) (fun l i l' hl j hj => ?_) _ rfl
  · have hdef : upperInverse A dinv b y temp = (List.range nb).reverse.foldl
        (fun s i => solveRow A dinv b (List.range' (i + 1) (nb - (i + 1))) i s)
        (forRange 0 y.length y fun y k => y.set k 0, temp) := by
      unfold upperInverse; rw [w.rect.rows]
    rw [hdef]
    refine ⟨s.1, fun i a hi ha => ?_⟩
    rw [← s.2.2.2 i (by simp [hi]) a ha, sum_range', Finset.sum_Ico_eq_sum_range]
    rw [show nb - i = (nb - (i + 1)) + 1 by omega, Finset.sum_range_succ']
    congr 1
    exact Finset.sum_congr rfl fun k _ => by rw [show i + (k + 1) = i + 1 + k by omega]
  · have hrev : List.range nb = l'.reverse ++ i :: l.reverse := by
      have := congrArg List.reverse hl
      simpa using this
    have hli : l'.length = i := by
      have h1 : (List.range nb)[l'.reverse.length]? = some i := by rw [hrev]; simp
      obtain ⟨h2, h3⟩ := List.getElem?_eq_some_iff.1 h1
      simpa using h3
    rw [List.mem_range'_1] at hj
    have h1 : (List.range nb)[j]? = some j := by rw [List.getElem?_range (by omega)]
    rw [hrev, List.getElem?_append_right (by simp; omega)] at h1
    have h2 := List.mem_of_getElem? h1
    simp only [List.mem_cons, List.mem_reverse] at h2
    rcases h2 with h2 | h2
    · omega
    · exact h2

/-- A null block applies the zero matrix on its range. -/
def NullIsZero (blocks : List (List (Blk K))) (nb : Nat) (r : Nat → Nat) (M : Nat → Nat → Nat → Nat → K) : Prop :=
  ∀ i j, i < nb → j < nb → ((blocks.getD i []).getD j default).isNull = true → ∀ a b, a < r i → b < r j → M i j a b = 0

/-- Round trip: if the constructor of the block lower inverse accepts the blocks, applying the block
operator to its result gives back the right hand side. -/
theorem lower_roundtrip (h : Rect blocks nb nb r r)
    (hB : ∀ i j, i < nb → j < nb → ((blocks.getD i []).getD j default).Is (M i j)) (hN : NullIsZero blocks nb r M)
    (dinv : List (Blk K)) (hD : DiagSolvers dinv nb r M) (b y temp y' temp' : List K) (hb : b.length = offset r nb)
    (hy : y.length = offset r nb) (ht : temp.length = offset r nb)
    (hy' : y'.length = offset r nb) (ht' : temp'.length = offset r nb) :
    ∃ A, init blocks = some A ∧ (lowerOK A = true → (matvec A (lowerInverse A dinv b y temp).1 y' temp').1.length = b.length ∧
      ∀ i a, i < nb → a < r i → (matvec A (lowerInverse A dinv b y temp).1 y' temp').1.getD (offset r i + a) 0
        = b.getD (offset r i + a) 0) := by
  obtain ⟨A, e, hl, hs⟩ := lower_solves h hB dinv hD b y temp hy ht
  obtain ⟨A', e', hm, hmv⟩ := block_matvec blocks nb nb r r h M hB (lowerInverse A dinv b y temp).1 y' temp' hl hy' ht'
  have hAA : A' = A := by rw [e] at e'; exact (Option.some.inj e').symm
  subst hAA
  refine ⟨A', e, fun hok => ⟨hm.trans hb.symm, fun i a hi ha => ?_⟩⟩
  rw [hmv i a hi ha, ← hs i a hi ha]
  obtain ⟨A2, e2, hbl, w⟩ := init_ok blocks nb nb r r h
  have hA2 : A2 = A' := by rw [e] at e2; exact (Option.some.inj e2).symm
  subst hA2
  have hfirst : (A2.blocks.getD 0 []).length = nb := by
    have : 0 < A2.blocks.length := by rw [w.rect.rows]; exact h.posRows
    rw [List.getD_eq_getElem?_getD, List.getElem?_eq_getElem this]
    exact w.rect.cols _ (List.getElem_mem _)
  unfold lowerOK at hok
  rw [List.all_eq_true] at hok
  have h1 := hok i (by rw [w.rect.rows]; exact List.mem_range.2 hi)
  rw [List.all_eq_true, hfirst] at h1
  refine (Finset.sum_subset (Finset.range_subset_range.2 (show i + 1 ≤ nb from hi)) fun j hj hnj => ?_).symm
  rw [Finset.mem_range] at hj hnj
  have h2 := h1 j (by rw [List.mem_range'_1]; omega)
  unfold BlockOp.blk at h2
  rw [hbl] at h2
  exact Finset.sum_eq_zero fun b' hb' => by rw [hN i j hi hj h2 a b' ha (Finset.mem_range.1 hb'), zero_mul]

/-- The same for the block upper inverse. -/
theorem upper_roundtrip (h : Rect blocks nb nb r r)
    (hB : ∀ i j, i < nb → j < nb → ((blocks.getD i []).getD j default).Is (M i j)) (hN : NullIsZero blocks nb r M)
    (dinv : List (Blk K)) (hD : DiagSolvers dinv nb r M) (b y temp y' temp' : List K) (hb : b.length = offset r nb)
    (hy : y.length = offset r nb) (ht : temp.length = offset r nb)
    (hy' : y'.length = offset r nb) (ht' : temp'.length = offset r nb) :
    ∃ A, init blocks = some A ∧ (upperOK A = true → (matvec A (upperInverse A dinv b y temp).1 y' temp').1.length = b.length ∧
      ∀ i a, i < nb → a < r i → (matvec A (upperInverse A dinv b y temp).1 y' temp').1.getD (offset r i + a) 0
        = b.getD (offset r i + a) 0) := by
  obtain ⟨A, e, hl, hs⟩ := upper_solves h hB dinv hD b y temp hy ht
  obtain ⟨A', e', hm, hmv⟩ := block_matvec blocks nb nb r r h M hB (upperInverse A dinv b y temp).1 y' temp' hl hy' ht'
  have hAA : A' = A := by rw [e] at e'; exact (Option.some.inj e').symm
  subst hAA
  refine ⟨A', e, fun hok => ⟨hm.trans hb.symm, fun i a hi ha => ?_⟩⟩
  rw [hmv i a hi ha, ← hs i a hi ha]
  obtain ⟨A2, e2, hbl, w⟩ := init_ok blocks nb nb r r h
  have hA2 : A2 = A' := by rw [e] at e2; exact (Option.some.inj e2).symm
  subst hA2
  unfold upperOK at hok
  rw [List.all_eq_true] at hok
  have h1 := hok i (by rw [w.rect.rows]; exact List.mem_range.2 hi)
  rw [List.all_eq_true] at h1
  rw [Finset.range_eq_Ico]
  refine (Finset.sum_subset (Finset.Ico_subset_Ico (Nat.zero_le _) (Nat.le_refl _)) fun j hj hnj => ?_).symm
  rw [Finset.mem_Ico] at hj hnj
  have h2 := h1 j (List.mem_range.2 (by omega))
  unfold BlockOp.blk at h2
  rw [hbl] at h2
  exact Finset.sum_eq_zero fun b' hb' => by rw [hN i j hi hj.2 h2 a b' ha (Finset.mem_range.1 hb'), zero_mul]

end

/-- The null operator is a block that applies the zero matrix. -/
theorem null_is_zero [Semiring K] (m n : Nat) : (nullBlk m n : Blk K).Is fun _ _ => 0 := by
  intro x y _ hy
  have e := forRange_update y 0 m (by simp [nullBlk] at hy; omega) fun _ _ => (0 : K)
  refine ⟨e.1.trans hy, fun i hi => (e.2 i).trans ?_⟩
  rw [if_pos ⟨Nat.zero_le _, hi⟩]
  exact (Finset.sum_eq_zero fun j _ => zero_mul _).symm

/-- A block diagonal operator applies its blocks separately. -/
theorem block_diagonal_matvec [Semiring K] (ds : List (Blk K)) (r : Nat → Nat) (hne : 0 < ds.length)
    (hr : ∀ i, i < ds.length → (ds.getD i default).rows = r i) (hc : ∀ i, i < ds.length → (ds.getD i default).cols = r i)
    (M : Nat → Nat → Nat → K) (hM : ∀ i, i < ds.length → (ds.getD i default).Is (M i))
    (x y temp : List K) (hx : x.length = offset r ds.length) (hy : y.length = offset r ds.length)
    (ht : temp.length = offset r ds.length) :
    ∃ A, init (diagonalBlocks ds) = some A ∧ ∀ i a, i < ds.length → a < r i →
      (matvec A x y temp).1.getD (offset r i + a) 0 = ∑ b ∈ Finset.range (r i), M i a b * x.getD (offset r i + b) 0 := by
  have hlen : (diagonalBlocks ds).length = ds.length := by simp [diagonalBlocks]
  have hrow : ∀ i, i < ds.length → (diagonalBlocks ds).getD i [] =
      (List.range i).map (fun j => nullBlk (ds.getD i default).rows (ds.getD j default).cols) ++ [ds.getD i default] ++
      (List.range' (i + 1) (ds.length - (i + 1))).map fun j => nullBlk (ds.getD i default).rows (ds.getD j default).cols := by
    intro i hi
    rw [List.getD_eq_getElem?_getD, List.getElem?_eq_getElem (by omega), Option.getD_some]
    simp [diagonalBlocks]
  have hblk : ∀ i j, i < ds.length → j < ds.length → ((diagonalBlocks ds).getD i []).getD j default =
      if j = i then ds.getD i default else nullBlk (ds.getD i default).rows (ds.getD j default).cols := by
    intro i j hi hj
    rw [hrow i hi]
    simp only [List.getD_eq_getElem?_getD (l := _ ++ _)]
    rcases Nat.lt_trichotomy j i with h | h | h
    · rw [if_neg (by omega), List.getElem?_append_left (by simp; omega), List.getElem?_append_left (by simp; omega),
        List.getElem?_map, List.getElem?_range h]
      rfl
    · subst h
      rw [if_pos rfl, List.getElem?_append_left (by simp), List.getElem?_append_right (by simp)]
      simp
    · rw [if_neg (by omega), List.getElem?_append_right (by simp; omega), List.getElem?_map,
        List.getElem?_range' (by simp; omega)]
      simp only [Option.map_some, Option.getD_some, List.length_append, List.length_map, List.length_range, List.length_singleton]
      rw [show i + 1 + 1 * (j - (i + 1)) = j by omega]
  have hrect : Rect (diagonalBlocks ds) ds.length ds.length r r := by
    refine ⟨hlen, fun row hrow' => ?_, hne, hne, fun i j hi hj => ?_, fun i j hi hj => ?_⟩
    · unfold diagonalBlocks at hrow'
      obtain ⟨i, hi, rfl⟩ := List.mem_map.1 hrow'
      have := List.mem_range.1 hi
      simp; omega
    · rw [hblk i j hi hj]; split
      · exact hr i hi
      · exact hr i hi
    · rw [hblk i j hi hj]; split
      · subst_vars; exact hc _ hi
      · exact hc j hj
  obtain ⟨A, e, _, hm⟩ := block_matvec (diagonalBlocks ds) ds.length ds.length r r hrect
    (fun i j => if j = i then M i else fun _ _ => 0) (fun i j hi hj => by
      rw [hblk i j hi hj]; split
      · exact hM i hi
      · exact null_is_zero _ _) x y temp hx hy ht
  refine ⟨A, e, fun i a hi ha => ?_⟩
  rw [hm i a hi ha, Finset.sum_eq_single i]
  · unfold blockTerm; simp
  · intro j _ hj
    unfold blockTerm
    exact Finset.sum_eq_zero fun b _ => by beta_reduce; rw [if_neg hj]; exact zero_mul _
  · intro hh; exact absurd (Finset.mem_range.2 hi) hh

/-! ### Example: two blocks of sizes 1 and 2 -/

/-- A dense block. -/
def exBlk (m n : Nat) (M : Nat → Nat → ℚ) : Blk ℚ :=
  ⟨m, n, false, fun x _ => (List.range m).map fun i => mulVec n M x i⟩

theorem exBlk_is (m n : Nat) (M : Nat → Nat → ℚ) : (exBlk m n M).Is M := by
  intro x y _ _
  refine ⟨by simp [exBlk], fun i hi => ?_⟩
  have hi' : i < m := hi
  simp only [exBlk, List.getD_eq_getElem?_getD, List.getElem?_map, List.getElem?_range hi', Option.map_some, Option.getD_some]

/-- Entries `[[2]], 0; [[1],[1]], [[1,0],[0,4]]`. -/
def exM (i j a b : Nat) : ℚ :=
  if i = 0 then (if j = 0 then 2 else 0) else if j = 0 then 1 else if a = b then (if a = 0 then 1 else 4) else 0
def exBlocks : List (List (Blk ℚ)) :=
  [[exBlk 1 1 (exM 0 0), nullBlk 1 2], [exBlk 2 1 (exM 1 0), exBlk 2 2 (exM 1 1)]]
def exInv : List (Blk ℚ) := [exBlk 1 1 fun _ _ => 1 / 2, exBlk 2 2 fun a b => if a = b then (if a = 0 then 1 else 1 / 4) else 0]

example : (init exBlocks).map (fun A => (lowerInverse A exInv [2, 5, 9] [7, 7, 7] [8, 8, 8]).1) = some [1, 4, 2] := by
  decide +kernel
example : (init exBlocks).map lowerOK = some true := by decide +kernel
example : Rect exBlocks 2 2 (fun i => i + 1) (fun i => i + 1) := by
  refine ⟨rfl, by simp [exBlocks], by decide, by decide, ?_, ?_⟩ <;>
  · intro i j hi hj
    obtain rfl | rfl : i = 0 ∨ i = 1 := by omega
    all_goals obtain rfl | rfl : j = 0 ∨ j = 1 := by omega
    all_goals rfl
example : DiagSolvers exInv 2 (fun i => i + 1) exM := by
  refine ⟨fun i hi => ?_, fun i hi => ?_⟩
  · obtain rfl | rfl : i = 0 ∨ i = 1 := by omega
    all_goals rfl
  · obtain rfl | rfl : i = 0 ∨ i = 1 := by omega
    · refine ⟨rfl, fun x y hx hy => ⟨rfl, fun i hi => ?_⟩⟩
      obtain rfl : i = 0 := Nat.lt_one_iff.1 hi
      simp [exInv, exBlk, mulVec, exM, Finset.sum_range_succ]
    · refine ⟨rfl, fun x y hx hy => ⟨rfl, fun i hi => ?_⟩⟩
      obtain rfl | rfl : i = 0 ∨ i = 1 := by
        have : i < 2 := hi
        omega
      all_goals simp [exInv, exBlk, mulVec, exM, Finset.sum_range_succ, List.range, List.range.loop]

end PyNucleus.Props.C21
