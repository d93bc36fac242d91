import Verif.Proof.MatrixOps
import Verif.Props.C09
import Mathlib.Tactic.LinearCombination
import Mathlib.Tactic.NormNum

/-!
# C91: scaled, sliced, split and wrapped matrices

Full statement: `scale`, `scaleLeft`, `scaleRight`, `setZero` multiply the entries; `getBlockDiagonal` keeps exactly the entries inside of the blocks; slices of graphs
have the rows and columns of the slice; restriction and prolongation operators without stored values are products with `I + J/2`, in all variants, in any order of
the rows, and are adjoint; split matrices, triple products, wrapped real matrices and shifted matrices are products with the matrices they stand for.
-/

namespace PyNucleus.Props.C91

open PyNucleus.Loops PyNucleus.Spec PyNucleus.CSR PyNucleus.MatrixOps

variable {K : Type}

/-! ### scaling -/

/-- `scaleLeft` multiplies row `i` by `s[i]`, `scaleRight` column `j` by `s[j]`. -/
theorem scaled [Semiring K] (A : CSR K) (hA : A.Valid) (s : List K) :
    (scaleLeft A s).Valid ∧ (scaleRight A s).Valid ∧ (∀ i j, i < A.numRows → (scaleLeft A s).entry i j = A.entry i j * s.getD i 0) ∧
    ∀ i j, i < A.numRows → (scaleRight A s).entry i j = A.entry i j * s.getD j 0 :=
  ⟨(scaleBy_spec A hA fun i _ => s.getD i 0).1, (scaleBy_spec A hA fun _ j => s.getD j 0).1, scaleBy_entry A hA fun i _ => s.getD i 0, scaleBy_entry A hA fun _ j => s.getD j 0⟩

theorem data_map [Semiring K] (A : CSR K) (hA : A.Valid) (g : K → K) (hg : ∀ a b, g (a + b) = g a + g b) (h0 : g 0 = 0) (B : CSR K)
    (hB : B = { A with data := forRange 0 A.data.length A.data fun d i => d.set i (g (d.getD i 0)) }) : B.Valid ∧ ∀ i j, i < A.numRows → B.entry i j = g (A.entry i j) := by
  obtain ⟨h1, h2⟩ := forRange_set A.data A.data.length (Nat.le_refl _) fun _ v => g v
  have hv : B.Valid := by rw [hB]; exact ⟨hA.indptr, by dsimp only; rw [h1, hA.data], hA.cols⟩
  refine ⟨hv, fun i j hi => ?_⟩
  have hrow : B.row i = (A.row i).map fun e => (e.1, g e.2) := by
    rw [row_range B hv (by rw [hB]; exact hi), row_range A hA hi, List.map_map, hB]
    apply List.map_congr_left
    intro k hk
    rw [List.mem_range'_1] at hk
    have := ValidIndptr.le_nnz hA.indptr (i + 1) (by omega)
    have := hA.data
    dsimp only [Function.comp] at hk ⊢
    rw [h2 k, if_pos (by omega)]
  unfold CSR.entry
  rw [hrow]
  generalize A.row i = l
  induction l with
  | nil => simp [h0]
  | cons a t ih =>
    rw [List.map_cons, List.filter_cons, List.filter_cons]
    by_cases e : a.1 = j
    · simp only [e, decide_true, if_true, List.map_cons, List.sum_cons, hg]
      rw [ih]
    · simp only [e, decide_false, Bool.false_eq_true, if_false]
      exact ih

/-- `scale` multiplies all entries, `setZero` makes them zero and keeps the pattern. -/
theorem scale_zero [Semiring K] (A : CSR K) (hA : A.Valid) (c : K) :
    (scale A c).Valid ∧ (∀ i j, i < A.numRows → (scale A c).entry i j = A.entry i j * c) ∧
    (setZero A).Valid ∧ (∀ i j, i < A.numRows → (setZero A).entry i j = 0) ∧ (setZero A).indices = A.indices ∧ (setZero A).indptr = A.indptr := by
  obtain ⟨h1, h2⟩ := data_map A hA (fun v => v * c) (fun a b => add_mul a b c) (zero_mul c) (scale A c) rfl
  obtain ⟨h3, h4⟩ := data_map A hA (fun _ => 0) (fun _ _ => (add_zero 0).symm) rfl (setZero A) rfl
  exact ⟨h1, h2, h3, h4, rfl, rfl⟩

/-! ### diagonal blocks -/

section
variable [CommSemiring K] (A : CSR K) (hA : A.Valid) (B : Graph) (hB : ValidIndptr B.indptr B.numRows B.indices.length) (hr : ∀ i ∈ B.indices, i < A.numRows)
  (u : Nat → List Nat) (v : Nat → List K) (hu : ∀ n, (u n).length = n) (hv : ∀ n, (v n).length = n)
include hA hB hr hu hv

omit hA hB hr hu hv in
theorem items_sum (A : CSR K) (B : Graph) (i j : Nat) : ∀ n, ((((List.range n).flatMap fun b => (csrRow B.indptr B.indices b).flatMap fun i =>
      ((A.row i).filter fun e => decide (e.1 ∈ csrRow B.indptr B.indices b)).map fun e => (i, e.1, e.2)).filter fun it => it.1 = i).map Prod.snd |>.filter (fun e => e.1 = j) |>.map Prod.snd).sum =
    ∑ b ∈ Finset.range n, (((csrRow B.indptr B.indices b).count i : ℕ) : K) * if j ∈ csrRow B.indptr B.indices b then A.entry i j else 0 := by
  intro n
  induction n with
  | zero => simp
  | succ n ih =>
    rw [List.range_succ, List.flatMap_append, List.filter_append, List.map_append, List.filter_append, List.map_append, List.sum_append, ih, Finset.sum_range_succ]
    congr 1
    simp only [List.flatMap_cons, List.flatMap_nil, List.append_nil]
    generalize hS : (fun e : Nat × K => decide (e.1 ∈ csrRow B.indptr B.indices n)) = S
    have hrow : ((((A.row i).filter S).filter fun e => e.1 = j).map Prod.snd).sum = if j ∈ csrRow B.indptr B.indices n then A.entry i j else 0 := by
      rw [List.filter_filter]
      unfold CSR.entry
      by_cases h : j ∈ csrRow B.indptr B.indices n
      · rw [if_pos h]
        congr 2
        apply List.filter_congr
        intro e _
        rw [← hS]
        by_cases e1 : e.1 = j
        · simp [e1, h]
        · simp [e1]
      · rw [if_neg h]
        have : (A.row i).filter (fun e => decide (e.1 = j) && S e) = [] := by
          rw [List.filter_eq_nil_iff]
          intro e _
          rw [← hS]
          simp only [Bool.and_eq_true, decide_eq_true_eq, not_and]
          rintro rfl
          exact h
        rw [this]; simp
    rw [← hrow]
    generalize csrRow B.indptr B.indices n = l
    induction l with
    | nil => simp
    | cons a t iht =>
      rw [List.flatMap_cons, List.filter_append, List.map_append, List.filter_append, List.map_append, List.sum_append, iht, List.count_cons]
      by_cases e : a = i
      · subst e
        have : (((A.row a).filter S).map fun e => (a, e.1, e.2)).filter (fun it => decide (it.1 = a)) = ((A.row a).filter S).map fun e => (a, e.1, e.2) := by
          rw [List.filter_eq_self]
          intro x hx
          obtain ⟨y, _, rfl⟩ := List.mem_map.1 hx
          simp
        rw [this, List.map_map]
        have e2 : (Prod.snd ∘ fun e : Nat × K => (a, e.1, e.2)) = id := rfl
        rw [e2, List.map_id]
        simp only [beq_self_eq_true, if_true, Nat.cast_add, Nat.cast_one]
        ring
      · have : (((A.row a).filter S).map fun e => (a, e.1, e.2)).filter (fun it => decide (it.1 = i)) = [] := by
          rw [List.filter_eq_nil_iff]
          intro x hx
          obtain ⟨y, _, rfl⟩ := List.mem_map.1 hx
          simp [e]
        rw [this]
        simp [e]

/-- Entries of the matrix of blocks: each block that contains row and column contributes the entry. -/
theorem block_entry : (getBlockDiagonal A B u v).numRows = A.numRows ∧ ValidIndptr (getBlockDiagonal A B u v).indptr A.numRows (getBlockDiagonal A B u v).indices.length ∧
    (getBlockDiagonal A B u v).data.length = (getBlockDiagonal A B u v).indices.length ∧
    ∀ i j, i < A.numRows → (getBlockDiagonal A B u v).entry i j =
      ∑ b ∈ Finset.range B.numRows, (((csrRow B.indptr B.indices b).count i : ℕ) : K) * if j ∈ csrRow B.indptr B.indices b then A.entry i j else 0 := by
  obtain ⟨h1, h2, h3⟩ := blockDiagonal_spec A hA B hB hr u v hu hv
  refine ⟨rfl, h1, h2, fun i j hi => ?_⟩
  unfold CSR.entry
  rw [h3 i hi]
  exact items_sum A B i j B.numRows

/-- For blocks without common indices the result has exactly the entries inside of the blocks. -/
theorem block_diagonal (hd : ∀ b c i, b < B.numRows → c < B.numRows → i ∈ csrRow B.indptr B.indices b → i ∈ csrRow B.indptr B.indices c → b = c)
    (hn : ∀ b, b < B.numRows → (csrRow B.indptr B.indices b).Nodup) (i j : Nat) (hi : i < A.numRows) :
    ((∃ b, b < B.numRows ∧ i ∈ csrRow B.indptr B.indices b ∧ j ∈ csrRow B.indptr B.indices b) → (getBlockDiagonal A B u v).entry i j = A.entry i j) ∧
    ((¬ ∃ b, b < B.numRows ∧ i ∈ csrRow B.indptr B.indices b ∧ j ∈ csrRow B.indptr B.indices b) → (getBlockDiagonal A B u v).entry i j = 0) := by
  rw [(block_entry A hA B hB hr u v hu hv).2.2.2 i j hi]
  constructor
  · rintro ⟨b, hb, hib, hjb⟩
    rw [Finset.sum_eq_single b]
    · rw [if_pos hjb, List.count_eq_one_of_mem (hn b hb) hib]; simp
    · intro c hc hcb
      have : i ∉ csrRow B.indptr B.indices c := fun h => hcb (hd c b i (Finset.mem_range.1 hc) hb h hib)
      rw [List.count_eq_zero_of_not_mem this]; simp
    · intro h; exact absurd (Finset.mem_range.2 hb) h
  · intro h
    apply Finset.sum_eq_zero
    intro b hb
    by_cases hib : i ∈ csrRow B.indptr B.indices b
    · rw [if_neg (fun hjb => h ⟨b, Finset.mem_range.1 hb, hib, hjb⟩), mul_zero]
    · rw [List.count_eq_zero_of_not_mem hib]; simp

/-- The columns of each row are columns of the matrix. -/
theorem block_columns (hc : A.numCols = A.numRows) : (getBlockDiagonal A B u v).Valid := by
  obtain ⟨h1, h2, h3⟩ := blockDiagonal_spec A hA B hB hr u v hu hv
  refine ⟨h1, h2, fun j hj => ?_⟩
  have hz : ((getBlockDiagonal A B u v).indices.zip (getBlockDiagonal A B u v).data).length = (getBlockDiagonal A B u v).indices.length := by rw [List.length_zip, h2]; omega
  have hf := flatMap_csrRow _ ((getBlockDiagonal A B u v).indices.zip (getBlockDiagonal A B u v).data) A.numRows (by rw [hz]; exact h1)
  have hfst : ((getBlockDiagonal A B u v).indices.zip (getBlockDiagonal A B u v).data).map Prod.fst = (getBlockDiagonal A B u v).indices := List.map_fst_zip (by omega)
  rw [← hfst, ← hf] at hj
  obtain ⟨e, he, rfl⟩ := List.mem_map.1 hj
  obtain ⟨i, hi, he⟩ := List.mem_flatMap.1 he
  have := h3 i (List.mem_range.1 hi)
  unfold CSR.row at this
  rw [this] at he
  obtain ⟨it, hit, rfl⟩ := List.mem_map.1 he
  obtain ⟨b, _, hit⟩ := List.mem_flatMap.1 (List.mem_filter.1 hit).1
  obtain ⟨k, _, hit⟩ := List.mem_flatMap.1 hit
  obtain ⟨x, hx, rfl⟩ := List.mem_map.1 hit
  show x.1 < A.numRows
  rw [← hc]
  exact row_cols A hA k x (List.mem_filter.1 hx).1

end

/-! ### restriction and prolongation without stored values -/

/-- How often column `j` is stored in row `i` of a graph. -/
def times (G : Graph) (i j : Nat) : Nat := (csrRow G.indptr G.indices i).count j

def GraphValid (G : Graph) : Prop := ValidIndptr G.indptr G.numRows G.indices.length ∧ ∀ j ∈ G.indices, j < G.numCols

theorem patternSum_eq [CommSemiring K] (G : Graph) (hG : GraphValid G) (x : List K) (i : Nat) (hi : i < G.numRows) :
    patternSum G x i = ∑ j ∈ Finset.range G.numCols, (times G i j : K) * x.getD j 0 := by
  have hle := ValidIndptr.le_nnz hG.1 (i + 1) (by omega)
  unfold patternSum times
  have e : (forRange (G.indptr.getD i 0) (G.indptr.getD (i + 1) 0) 0 fun s j => s + x.getD (G.indices.getD j 0) 0) = ((csrRow G.indptr G.indices i).map fun j => x.getD j 0).sum := by
    rw [csrRow_range 0 _ _ _ hle, List.map_map]
    unfold forRange
    rw [foldl_add, zero_add]
    rfl
  rw [e]
  have hcol : ∀ j ∈ csrRow G.indptr G.indices i, j < G.numCols := fun j hj => hG.2 j (List.mem_of_mem_drop (List.mem_of_mem_take hj))
  generalize csrRow G.indptr G.indices i = l at hcol ⊢
  induction l with
  | nil => simp
  | cons a t ih =>
    rw [List.map_cons, List.sum_cons, ih fun j hj => hcol j (List.mem_cons_of_mem _ hj)]
    have : ∀ j, (((a :: t).count j : ℕ) : K) * x.getD j 0 = (if j = a then x.getD a 0 else 0) + ((t.count j : ℕ) : K) * x.getD j 0 := by
      intro j
      rw [List.count_cons]
      by_cases h : a = j
      · subst h; simp only [beq_self_eq_true, if_true, Nat.cast_add, Nat.cast_one]; ring
      · have h' : ¬ j = a := fun e => h e.symm
        simp [h, h']
    rw [Finset.sum_congr rfl fun j _ => this j, Finset.sum_add_distrib, Finset.sum_ite_eq' (Finset.range G.numCols) a, if_pos (Finset.mem_range.2 (hcol a (by simp)))]

/-- Writing each row once from data that is not overwritten: any order gives the same. -/
theorem any_order {α : Type} (d : α) (g : Nat → α → α) : ∀ (order : List Nat) (y : List α), order.Nodup → (∀ i ∈ order, i < y.length) →
    (order.foldl (fun y i => y.set i (g i (y.getD i d))) y).length = y.length ∧
    ∀ i, (order.foldl (fun y i => y.set i (g i (y.getD i d))) y).getD i d = if i ∈ order then g i (y.getD i d) else y.getD i d := by
  intro order
  induction order with
  | nil => intro y _ _; exact ⟨rfl, fun i => by simp⟩
  | cons a t ih =>
    intro y hn hlt
    rw [List.nodup_cons] at hn
    obtain ⟨h1, h2⟩ := ih (y.set a (g a (y.getD a d))) hn.2 fun i hi => by rw [List.length_set]; exact hlt i (List.mem_cons_of_mem _ hi)
    rw [List.foldl_cons]
    refine ⟨by rw [h1, List.length_set], fun i => ?_⟩
    rw [h2 i, getD_set]
    by_cases e : a = i
    · subst e
      rw [if_neg hn.1, if_pos ⟨rfl, hlt a (by simp)⟩, if_pos (by simp)]
    · have e' : ¬ i = a := fun h => e h.symm
      rw [if_neg (show ¬ (a = i ∧ i < y.length) from fun h => e h.1)]
      simp only [List.mem_cons, e', false_or]

section
variable [Field K]

/-- `sparseGraph.matvec` is the product with the matrix of the pattern, and `matvec_no_overwrite` adds it. -/
theorem graph_product (G : Graph) (hG : GraphValid G) (x y : List K) (hy : y.length = G.numRows) :
    (∀ i, i < G.numRows → (graphMatvec G x y).getD i 0 = ∑ j ∈ Finset.range G.numCols, (times G i j : K) * x.getD j 0) ∧
    ∀ i, i < G.numRows → (graphMatvecNoOverwrite G x y).getD i 0 = y.getD i 0 + ∑ j ∈ Finset.range G.numCols, (times G i j : K) * x.getD j 0 := by
  constructor
  · intro i hi
    unfold graphMatvec
    rw [(forRange_set y G.numRows (by omega) fun i _ => patternSum G x i).2 i, if_pos hi, patternSum_eq G hG x i hi]
  · intro i hi
    unfold graphMatvecNoOverwrite
    rw [(forRange_set y G.numRows (by omega) fun i o => o + patternSum G x i).2 i, if_pos hi, patternSum_eq G hG x i hi]

/-- The matrix `I + J/2`. -/
def weight (G : Graph) (i j : Nat) : K := (if i = j then 1 else 0) + 1 / 2 * (times G i j : K)

theorem weight_sum (G : Graph) (hG : GraphValid G) (x : List K) (hx : x.length = G.numCols) (i : Nat) (hi : i < G.numRows) :
    mulVec G.numCols (weight G) x i = x.getD i 0 + 1 / 2 * patternSum G x i := by
  unfold mulVec weight
  rw [patternSum_eq G hG x i hi, Finset.mul_sum]
  simp only [add_mul, Finset.sum_add_distrib, ite_mul, one_mul, zero_mul, mul_assoc]
  congr 1
  rw [Finset.sum_ite_eq (Finset.range G.numCols) i]
  split
  · rfl
  · rename_i h
    rw [Finset.mem_range, not_lt] at h
    rw [List.getD_eq_default _ _ (by omega)]

/-- `restrictionOp.matvec`, with any order of the rows. -/
theorem restriction (G : Graph) (hG : GraphValid G) (order : List Nat) (ho : order.Perm (List.range G.numRows)) (x y : List K) (hx : x.length = G.numCols)
    (hy : y.length = G.numRows) : (restrict G order x y).length = G.numRows ∧ ∀ i, i < G.numRows → (restrict G order x y).getD i 0 = mulVec G.numCols (weight G) x i := by
  obtain ⟨h1, h2⟩ := any_order (0 : K) (fun i _ => x.getD i 0 + 1 / 2 * patternSum G x i) order y (ho.nodup_iff.2 List.nodup_range)
    fun i hi => by rw [hy]; exact List.mem_range.1 (ho.mem_iff.1 hi)
  refine ⟨by unfold restrict; rw [h1, hy], fun i hi => ?_⟩
  unfold restrict
  rw [h2 i, if_pos (ho.mem_iff.2 (List.mem_range.2 hi)), weight_sum G hG x hx i hi]

/-- `prolongationOp.matvec`, with any order of the rows and columns. -/
theorem prolongation (G : Graph) (hG : GraphValid G) (hs : G.numCols ≤ G.numRows) (order order' : List Nat) (ho : order.Perm (List.range G.numRows))
    (ho' : order'.Perm (List.range G.numCols)) (x y : List K) (hx : x.length = G.numCols) (hy : y.length = G.numRows) :
    (prolong G order order' x y).length = G.numRows ∧ ∀ i, i < G.numRows → (prolong G order order' x y).getD i 0 = mulVec G.numCols (weight G) x i := by
  obtain ⟨h1, h2⟩ := any_order (0 : K) (fun i _ => 1 / 2 * patternSum G x i) order y (ho.nodup_iff.2 List.nodup_range)
    fun i hi => by rw [hy]; exact List.mem_range.1 (ho.mem_iff.1 hi)
  obtain ⟨h3, h4⟩ := any_order (0 : K) (fun i o => o + x.getD i 0) order' (order.foldl (fun y i => y.set i (1 / 2 * patternSum G x i)) y) (ho'.nodup_iff.2 List.nodup_range)
    fun i hi => by rw [h1, hy]; exact lt_of_lt_of_le (List.mem_range.1 (ho'.mem_iff.1 hi)) hs
  unfold prolong
  refine ⟨by rw [h3, h1, hy], fun i hi => ?_⟩
  rw [h4 i, h2 i, if_pos (ho.mem_iff.2 (List.mem_range.2 hi)), weight_sum G hG x hx i hi]
  by_cases h : i < G.numCols
  · rw [if_pos (ho'.mem_iff.2 (List.mem_range.2 h)), add_comm]
  · rw [if_neg (fun hi' => h (List.mem_range.1 (ho'.mem_iff.1 hi'))), List.getD_eq_default x _ (by omega), zero_add]

omit [Field K] in
/-- The transposed graph stores each pair as often as the graph. -/
theorem times_transpose (G : Graph) (hG : GraphValid G) (u : List Nat) (hu : u.length = G.indices.length) (i j : Nat) (hi : i < G.numRows) (hj : j < G.numCols) :
    times (G.transpose u) j i = times G i j := by
  obtain ⟨t1, t2, t3, t4, t5⟩ := C09.graph_transpose_correct G hG.1 hG.2 u hu
  unfold times
  rw [t5 j hj, List.count_flatMap]
  have : ∀ n, i < n → ((List.range n).map (List.count i ∘ fun k => List.replicate ((csrRow G.indptr G.indices k).count j) k)).sum = (csrRow G.indptr G.indices i).count j := by
    intro n
    induction n with
    | zero => intro h; omega
    | succ n ih =>
      intro h
      rw [List.range_succ, List.map_append, List.sum_append]
      by_cases e : i = n
      · subst e
        have : ((List.range i).map (List.count i ∘ fun k => List.replicate ((csrRow G.indptr G.indices k).count j) k)).sum = 0 := by
          apply List.sum_eq_zero
          intro x hx
          obtain ⟨k, hk, rfl⟩ := List.mem_map.1 hx
          have := List.mem_range.1 hk
          simp only [Function.comp, List.count_replicate]
          rw [if_neg (by simp; omega)]
        rw [this]
        simp
      · rw [ih (by omega)]
        simp [List.count_replicate, Ne.symm e]
  exact this _ hi

/-- The prolongation with the transposed graph is the adjoint of the restriction. -/
theorem adjoint (G : Graph) (hG : GraphValid G) (hs : G.numRows ≤ G.numCols) (u : List Nat) (hu : u.length = G.indices.length) (order order1 order2 : List Nat)
    (ho : order.Perm (List.range G.numRows)) (ho1 : order1.Perm (List.range G.numCols)) (ho2 : order2.Perm (List.range G.numRows))
    (x y : List K) (hx : x.length = G.numCols) (hy : y.length = G.numRows) (r p : List K) (hr : r.length = G.numRows) (hp : p.length = G.numCols) :
    dot G.numRows y (restrict G order x r) = dot G.numCols (prolong (G.transpose u) order1 order2 y p) x := by
  obtain ⟨t1, t2, t3, t4, t5⟩ := C09.graph_transpose_correct G hG.1 hG.2 u hu
  have ht : GraphValid (G.transpose u) := ⟨t3, t4⟩
  obtain ⟨_, h1⟩ := restriction G hG order ho x r hx hr
  obtain ⟨_, h2⟩ := prolongation (G.transpose u) ht (by rw [t1, t2]; exact hs) order1 order2 (by rw [t1]; exact ho1) (by rw [t2]; exact ho2) y p (by rw [t2]; exact hy) (by rw [t1]; exact hp)
  rw [t1, t2] at h2
  have l1 : dot G.numRows y (restrict G order x r) = ∑ i ∈ Finset.range G.numRows, y.getD i 0 * mulVec G.numCols (weight G) x i :=
    Finset.sum_congr rfl fun i hi => by rw [h1 i (Finset.mem_range.1 hi)]
  have l2 : dot G.numCols (prolong (G.transpose u) order1 order2 y p) x = ∑ j ∈ Finset.range G.numCols, mulVec G.numRows (weight (G.transpose u)) y j * x.getD j 0 :=
    Finset.sum_congr rfl fun i hi => by rw [h2 i (Finset.mem_range.1 hi)]
  rw [l1, l2]
  unfold mulVec
  simp only [Finset.mul_sum, Finset.sum_mul]
  rw [Finset.sum_comm]
  refine Finset.sum_congr rfl fun j hj => Finset.sum_congr rfl fun i hi => ?_
  have hw : weight (K := K) (G.transpose u) j i = weight G i j := by
    unfold weight
    rw [times_transpose G hG u hu i j (Finset.mem_range.1 hi) (Finset.mem_range.1 hj)]
    simp only [eq_comm]
  rw [hw]
  ring

end

/-- The inherited `matvec_no_overwrite` of a restriction does not add what `matvec` computes; the same difference appears if a graph is written to a file, since
`sparseGraph.HDF5read` gives a restriction. -/
theorem no_overwrite_fails : ∃ (G : Graph) (x : List ℚ), GraphValid G ∧ x.length = G.numCols ∧ G.numRows = 1 ∧
    restrict G [0] x [0] = [7 / 2] ∧ graphMatvecNoOverwrite G x [0] = [5] ∧ graphMatvec G x [0] = [5] := by
  refine ⟨⟨[0, 1], [1], 1, 2⟩, [1, 5], ⟨⟨rfl, rfl, rfl, by decide⟩, by decide⟩, rfl, rfl, ?_, ?_, ?_⟩ <;> decide +kernel

/-! ### sums and products -/

section
variable [CommSemiring K]

theorem split (A1 A2 : CSR K) (h1 : A1.Valid) (h2 : A2.Valid) (hr : A2.numRows = A1.numRows) (hc : A2.numCols = A1.numCols) (x y : List K) (hy : y.length = A1.numRows) :
    (splitMatvec A1 A2 x y).length = A1.numRows ∧ ∀ i, i < A1.numRows → (splitMatvec A1 A2 x y).getD i 0 = mulVec A1.numCols (fun i j => A1.entry i j + A2.entry i j) x i := by
  obtain ⟨l1, e1⟩ := C08.matvec_correct false A1 h1 x y hy
  obtain ⟨l2, e2⟩ := C08.matvec_no_overwrite_correct false A2 h2 x (matvec false A1 x y) (by omega)
  refine ⟨by unfold splitMatvec; omega, fun i hi => ?_⟩
  unfold splitMatvec
  rw [e2 i (by omega), e1 i hi, hc]
  unfold mulVec
  simp only [add_mul, Finset.sum_add_distrib]

theorem triple (A B C : CSR K) (hA : A.Valid) (hB : B.Valid) (hC : C.Valid) (hAB : A.numCols = B.numRows) (hBC : B.numCols = C.numRows) (t1 t2 x y : List K)
    (ht1 : t1.length = B.numCols) (ht2 : t2.length = A.numCols) (hy : y.length = A.numRows) : (tripleMatvec A B C t1 t2 x y).length = A.numRows ∧
    ∀ i, i < A.numRows → (tripleMatvec A B C t1 t2 x y).getD i 0 =
      mulVec C.numCols (fun i j => ∑ k ∈ Finset.range A.numCols, ∑ l ∈ Finset.range B.numCols, A.entry i k * B.entry k l * C.entry l j) x i := by
  obtain ⟨_, e1⟩ := C08.matvec_correct false C hC x t1 (by omega)
  obtain ⟨_, e2⟩ := C08.matvec_correct false B hB (matvec false C x t1) t2 (by omega)
  obtain ⟨l3, e3⟩ := C08.matvec_correct false A hA (matvec false B (matvec false C x t1) t2) y hy
  refine ⟨l3, fun i hi => ?_⟩
  unfold tripleMatvec
  rw [e3 i hi]
  unfold mulVec at *
  have : ∀ k ∈ Finset.range A.numCols, A.entry i k * (matvec false B (matvec false C x t1) t2).getD k 0 =
      ∑ l ∈ Finset.range B.numCols, ∑ j ∈ Finset.range C.numCols, A.entry i k * B.entry k l * C.entry l j * x.getD j 0 := by
    intro k hk
    rw [e2 k (by have := Finset.mem_range.1 hk; omega), Finset.mul_sum]
    refine Finset.sum_congr rfl fun l hl => ?_
    rw [e1 l (by have := Finset.mem_range.1 hl; omega), Finset.mul_sum, Finset.mul_sum]
    exact Finset.sum_congr rfl fun j _ => by ring
  rw [Finset.sum_congr rfl this]
  simp only [Finset.sum_mul]
  rw [Finset.sum_comm]
  conv_rhs => rw [Finset.sum_comm]
  rw [Finset.sum_comm]
  exact Finset.sum_congr rfl fun k _ => Finset.sum_comm

end

/-! ### slices of graphs -/

/-- `sliceRow` for increasing row numbers gives these rows. -/
theorem slice_rows_partial (G : Graph) (hG : GraphValid G) (rows : List Nat) (hp : rows.Pairwise (· < ·)) (hr : ∀ i ∈ rows, i < G.numRows) :
    GraphValid (sliceRow G rows) ∧ (sliceRow G rows).numRows = rows.length ∧ (sliceRow G rows).numCols = G.numCols ∧
    ∀ c, c < rows.length → csrRow (sliceRow G rows).indptr (sliceRow G rows).indices c = csrRow G.indptr G.indices (rows.getD c 0) := by
  have hfirst : G.indptr.getD 0 0 = 0 := by rw [List.getD_eq_getElem?_getD, hG.1.first]; rfl
  have hinv : SliceInv G 0 ⟨G.indptr, G.indices, 0, 0⟩ := ⟨rfl, rfl, Nat.le_refl _, fun j _ => ⟨fun e => by dsimp only at e ⊢; rw [← e, hfirst], rfl⟩, hfirst, Nat.zero_le _, fun _ _ => rfl⟩
  obtain ⟨⟨b, hb, k0⟩, k1, _, k3, _, k5⟩ := slice_fold G hG.1 rows 0 _ (Nat.zero_le _) hinv hp fun i hi => ⟨Nat.zero_le _, hr i hi⟩
  unfold sliceRow
  dsimp only
  generalize rows.foldl sliceStep ⟨G.indptr, G.indices, 0, 0⟩ = s at k0 k1 k3 k5 ⊢
  dsimp only at k1 k3 k5
  simp only [Nat.zero_add] at k1 k5
  have hlast : s.last ≤ G.indices.length := Nat.le_trans k0.last (ValidIndptr.le_nnz hG.1 b hb)
  have hplen : s.indptr.length = G.numRows + 1 := by rw [k0.plen, hG.1.length]
  have hnew : s.new ≤ G.numRows := Nat.le_trans k0.new_le hb
  have htake : ∀ c, c ≤ s.new → (s.indptr.take (s.new + 1)).getD c 0 = s.indptr.getD c 0 := fun c hc => by
    rw [List.getD_eq_getElem _ _ (by rw [List.length_take]; omega), List.getElem_take, List.getD_eq_getElem _ _ (by omega)]
  have hsome : ∀ c, c ≤ s.new → (s.indptr.take (s.new + 1))[c]? = some (s.indptr.getD c 0) := fun c hc => by
    rw [← htake c hc, List.getD_eq_getElem _ _ (by rw [List.length_take]; omega), List.getElem?_eq_getElem (by rw [List.length_take]; omega)]
  have hilen : (s.indices.take s.last).length = s.last := by rw [List.length_take, k0.ilen]; omega
  have hrows : ∀ c, c < rows.length → csrRow (s.indptr.take (s.new + 1)) (s.indices.take s.last) c = csrRow G.indptr G.indices (rows.getD c 0) := by
    intro c hc
    obtain ⟨q1, q2, q3⟩ := k5 c hc
    have hri : rows.getD c 0 < G.numRows := hr _ (by rw [List.getD_eq_getElem _ _ hc]; exact List.getElem_mem _)
    rw [csrRow_range 0 _ _ _ (by rw [htake _ (by omega), hilen]; exact q2), csrRow_range 0 _ _ _ (ValidIndptr.le_nnz hG.1 _ (by omega)), htake _ (by omega), htake _ (by omega), q1, Nat.add_sub_cancel_left]
    show _ = (List.range' _ (rowLen G.indptr (rows.getD c 0))).map _
    rw [List.range'_eq_map_range, List.range'_eq_map_range, List.map_map, List.map_map]
    apply List.map_congr_left
    intro k hk
    have hk := List.mem_range.1 hk
    dsimp only [Function.comp]
    rw [List.getD_eq_getElem _ _ (by rw [hilen]; omega), List.getElem_take, ← List.getD_eq_getElem _ 0 (by rw [k0.ilen]; omega), q3 k hk]
  have hvalid : ValidIndptr (s.indptr.take (s.new + 1)) s.new (s.indices.take s.last).length := by
    refine ⟨by rw [List.length_take]; omega, ?_, ?_, fun i hi => ?_⟩
    · rw [hsome 0 (Nat.zero_le _), k3 0 (Nat.le_refl _), hfirst]
    · rw [hsome _ (Nat.le_refl _), hilen, k0.here]
    · rw [htake i (by omega), htake (i + 1) (by omega), (k5 i (by omega)).1]; omega
  refine ⟨⟨hvalid, fun j hj => ?_⟩, k1, rfl, hrows⟩
  have hf := flatMap_csrRow _ _ _ hvalid
  dsimp only at hj ⊢
  rw [← hf] at hj
  obtain ⟨c, hc, hj⟩ := List.mem_flatMap.1 hj
  rw [hrows c (by have := List.mem_range.1 hc; omega)] at hj
  exact hG.2 j (List.mem_of_mem_drop (List.mem_of_mem_take hj))

/-- For other lists rows are read that have been overwritten. -/
theorem slice_fails : ∃ G : Graph, GraphValid G ∧ csrRow G.indptr G.indices 0 = [5] ∧ csrRow G.indptr G.indices 1 = [7] ∧
    csrRow (sliceRow G [1, 0]).indptr (sliceRow G [1, 0]).indices 1 = [7] :=
  ⟨⟨[0, 1, 2], [5, 7], 2, 8⟩, ⟨⟨rfl, rfl, rfl, by decide⟩, by decide⟩, by decide, by decide, by decide⟩

/-- `sliceColumn` for increasing column numbers: column `c` of the result is column `cols[c]`. -/
theorem slice_columns_partial (G : Graph) (hG : GraphValid G) (cols : List Nat) (hp : cols.Pairwise (· < ·)) (hc : ∀ j ∈ cols, j < G.numCols) (u u' : List Nat)
    (hu : u.length = G.indices.length) (hu' : u'.length = (sliceRow (G.transpose u) cols).indices.length) :
    GraphValid (sliceColumn G cols u u') ∧ (sliceColumn G cols u u').numRows = G.numRows ∧ (sliceColumn G cols u u').numCols = cols.length ∧
    ∀ i c, i < G.numRows → c < cols.length → times (sliceColumn G cols u u') i c = times G i (cols.getD c 0) := by
  obtain ⟨t1, t2, t3, t4, _⟩ := C09.graph_transpose_correct G hG.1 hG.2 u hu
  obtain ⟨s1, s2, s3, s4⟩ := slice_rows_partial (G.transpose u) ⟨t3, t4⟩ cols hp fun j hj => by rw [t1]; exact hc j hj
  obtain ⟨r1, r2, r3, r4, _⟩ := C09.graph_transpose_correct (sliceRow (G.transpose u) cols) s1.1 s1.2 u' hu'
  refine ⟨⟨r3, r4⟩, by unfold sliceColumn; rw [r1, s3, t2], by unfold sliceColumn; rw [r2, s2], fun i c hi hcl => ?_⟩
  unfold sliceColumn
  rw [times_transpose _ s1 u' hu' c i (by rw [s2]; exact hcl) (by rw [s3, t2]; exact hi)]
  unfold times
  rw [s4 c hcl]
  exact times_transpose G hG u hu i _ hi (hc _ (by rw [List.getD_eq_getElem _ _ hcl]; exact List.getElem_mem _))

/-! ### wrapped matrices -/

section
open Complex

theorem realRow_eq (A : CSR ℝ) (hA : A.Valid) (x : List ℂ) (i : Nat) (hi : i < A.numRows) : realRow A x i = mulVec A.numCols (fun i j => (A.entry i j : ℂ)) x i := by
  unfold realRow mulVec
  rw [forRow_eq A hA i hi, foldl_add, zero_add]
  have h := sum_row_eq ((A.row i).map fun e => (e.1, (e.2 : ℂ))) A.numCols (fun e he => by
    obtain ⟨a, ha, rfl⟩ := List.mem_map.1 he
    exact row_cols A hA i a ha) fun j => x.getD j 0
  rw [List.map_map] at h
  refine Eq.trans h (Finset.sum_congr rfl fun j _ => ?_)
  dsimp only
  congr 1
  unfold CSR.entry
  clear h
  generalize A.row i = l
  induction l with
  | nil => simp
  | cons a t ih =>
    rw [List.map_cons, List.filter_cons, List.filter_cons]
    by_cases e : a.1 = j
    · simp only [e, decide_true, if_true, List.map_cons, List.sum_cons, ofReal_add]
      rw [ih]
    · simp only [e, decide_false, Bool.false_eq_true, if_false]
      exact ih

theorem wrap_csr (A : CSR ℝ) (hA : A.Valid) (x y : List ℂ) (hy : y.length = A.numRows) (i : Nat) (hi : i < A.numRows) :
    (wrapCSRMatvec A x y).getD i 0 = mulVec A.numCols (fun i j => (A.entry i j : ℂ)) x i := by
  unfold wrapCSRMatvec
  rw [(forRange_set y A.numRows (by omega) fun i _ => realRow A x i).2 i, if_pos hi, realRow_eq A hA x i hi]

theorem wrap (A : CSR ℝ) (hA : A.Valid) (t1 t2 : List ℝ) (ht1 : t1.length = A.numCols) (ht2 : t2.length = A.numRows) (x y : List ℂ) (hy : y.length = A.numRows)
    (i : Nat) (hi : i < A.numRows) : (wrapMatvec A t1 t2 x y).getD i 0 = mulVec A.numCols (fun i j => (A.entry i j : ℂ)) x i := by
  unfold wrapMatvec
  dsimp only
  obtain ⟨a1, a2⟩ := forRange_set t1 A.numCols (by omega) fun i _ => (x.getD i 0).re
  generalize (forRange 0 A.numCols t1 fun t i => t.set i (x.getD i 0).re) = s1 at a1 a2 ⊢
  obtain ⟨b1, b2⟩ := forRange_set s1 A.numCols (by omega) fun i _ => (x.getD i 0).im
  generalize (forRange 0 A.numCols s1 fun t i => t.set i (x.getD i 0).im) = s2 at b1 b2 ⊢
  obtain ⟨c1, c2⟩ := C08.matvec_correct false A hA s1 t2 ht2
  generalize matvec false A s1 t2 = r1 at c1 c2 ⊢
  obtain ⟨d1, d2⟩ := C08.matvec_correct false A hA s2 r1 c1
  generalize matvec false A s2 r1 = r2 at d1 d2 ⊢
  obtain ⟨e1, e2⟩ := forRange_set y A.numRows (by omega) fun i _ => ((r1.getD i 0 : ℝ) : ℂ)
  rw [(forRange_set _ A.numRows (by rw [e1]; omega) fun i o => o + I * ((r2.getD i 0 : ℝ) : ℂ)).2 i, if_pos hi, e2 i, if_pos hi, c2 i hi, d2 i hi]
  unfold mulVec
  rw [ofReal_sum, ofReal_sum, Finset.mul_sum, ← Finset.sum_add_distrib]
  refine Finset.sum_congr rfl fun j hj => ?_
  have hj := Finset.mem_range.1 hj
  rw [a2 j, if_pos hj, b2 j, if_pos hj]
  conv_rhs => rw [← re_add_im (x.getD j 0)]
  push_cast
  ring

/-- The shifted matrix `S + shift M` and its diagonal. -/
theorem helmholtz (S M : CSR ℝ) (hS : S.Valid) (hM : M.Valid) (hr : M.numRows = S.numRows) (hc : M.numCols = S.numCols) (shift : ℂ) (x y : List ℂ) (hy : y.length = S.numRows)
    (i : Nat) (hi : i < S.numRows) : (helmholtzMatvec S M shift x y).getD i 0 = mulVec S.numCols (fun i j => (S.entry i j : ℂ) + shift * (M.entry i j : ℂ)) x i := by
  unfold helmholtzMatvec
  obtain ⟨e1, e2⟩ := forRange_set y S.numRows (by omega) fun i _ => realRow S x i
  rw [(forRange_set _ S.numRows (by rw [e1]; omega) fun i o => o + shift * realRow M x i).2 i, if_pos hi, e2 i, if_pos hi, realRow_eq S hS x i hi, realRow_eq M hM x i (by omega), hc]
  unfold mulVec
  rw [Finset.mul_sum, ← Finset.sum_add_distrib]
  exact Finset.sum_congr rfl fun j _ => by ring

theorem diagonal_entry (A : CSR ℝ) (i : Nat) (hi : i < A.numRows) (hn : ((A.row i).map Prod.fst).Nodup) : (getDiagonal A).getD i 0 = A.entry i i := by
  unfold getDiagonal
  rw [(forRange_set (List.replicate A.numRows (0 : ℝ)) A.numRows (by simp) fun i o => firstDiag i o (A.row i)).2 i, if_pos hi, List.getD_replicate _ hi]
  unfold CSR.entry
  generalize A.row i = l at hn ⊢
  induction l with
  | nil => simp [firstDiag]
  | cons a t ih =>
    obtain ⟨j, d⟩ := a
    rw [List.map_cons, List.nodup_cons] at hn
    unfold firstDiag
    rw [List.filter_cons]
    by_cases e : j = i
    · have : t.filter (fun e => decide (e.1 = i)) = [] := by
        rw [List.filter_eq_nil_iff]
        intro x hx hxi
        apply hn.1
        exact List.mem_map.2 ⟨x, hx, by rw [of_decide_eq_true hxi, e]⟩
      simp [e, this]
    · simp only [e, if_false, decide_false, Bool.false_eq_true]
      exact ih hn.2

theorem helmholtz_diagonal (S M : CSR ℝ) (hr : M.numRows = S.numRows) (hnS : ∀ i, i < S.numRows → ((S.row i).map Prod.fst).Nodup)
    (hnM : ∀ i, i < S.numRows → ((M.row i).map Prod.fst).Nodup) (shift : ℂ) (u : List ℂ) (hu : u.length = S.numRows) (i : Nat) (hi : i < S.numRows) :
    (helmholtzDiagonal S M shift u).getD i 0 = (S.entry i i : ℂ) + shift * (M.entry i i : ℂ) := by
  unfold helmholtzDiagonal
  rw [(forRange_set u S.numRows (by omega) fun i _ => ((getDiagonal S).getD i 0 : ℂ) + shift * ((getDiagonal M).getD i 0 : ℂ)).2 i, if_pos hi,
    diagonal_entry S i hi (hnS i hi), diagonal_entry M i (by omega) (hnM i hi)]

end

/-- Cases that meet the hypotheses. -/
theorem sample_case : (let A : CSR ℤ := ⟨[0, 2, 4], [0, 1, 0, 1], [1, 2, 3, 4], 2, 2⟩
    A.Valid ∧ (scaleLeft A [10, 20]).data = [10, 20, 60, 80] ∧ (scaleRight A [10, 20]).data = [10, 40, 30, 80] ∧
    (getBlockDiagonal A ⟨[0, 1, 2], [1, 0], 2, 2⟩ (fun n => List.replicate n 0) fun n => List.replicate n 0).data = [1, 4]) ∧
    (let G : Graph := ⟨[0, 1, 3, 4], [2, 0, 1, 2], 3, 3⟩
     GraphValid G ∧ (sliceRow G [0, 2]).indices = [2, 2] ∧ csrRow (sliceColumn G [0, 2] (List.replicate 4 0) (List.replicate 3 0)).indptr
       (sliceColumn G [0, 2] (List.replicate 4 0) (List.replicate 3 0)).indices 1 = [0]) := by
  refine ⟨⟨⟨⟨rfl, rfl, rfl, by decide⟩, rfl, by decide⟩, ?_, ?_, ?_⟩, ⟨⟨rfl, rfl, rfl, by decide⟩, by decide⟩, ?_, ?_⟩ <;> decide +kernel

end PyNucleus.Props.C91
