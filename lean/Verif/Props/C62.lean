import Verif.Proof.H2Matrix
import Verif.Model.Blas
import Mathlib.Algebra.Order.Ring.Rat
import Mathlib.Tactic.FinCases

/-!
# C62: products with a hierarchical matrix

Full statement: the matrix of an `H2Matrix` has the near field plus, for every far-field pair and every component, the product of the cluster basis of the row, the kernel interpolant and
the cluster basis of the column. `matvec` is the product with this matrix, `matvec_no_overwrite` adds it, `matvecTrans` and `matvecTrans_no_overwrite` are those with its transpose,
whatever the coefficient arrays contained before; the same with the basis matrix (`constructBasis`); `toarray` is this matrix.

Violated: the basis matrix and `toarray` have component 0 only (`basis_fails`, `toarray_fails`); without BLAS `gemvT` accesses memory past the end if a child has fewer coefficients than
its parent, which is the default choice of orders (`transfer_fails`).
-/

namespace PyNucleus.Props.C62

open PyNucleus.H2

variable {K : Type} [CommSemiring K]

private theorem near_eq (H : HMat K) (hf : H.Fits) (f : Nat → Nat → K) (hn : (∀ i j, f i j = H.near i j) ∨ ∀ i j, f i j = H.near j i) (x : Nat → K) :
    (if H.nnz > 0 then fun i => ∑ j ∈ Finset.range H.n, f i j * x j else fun _ => 0) = fun i => ∑ j ∈ Finset.range H.n, f i j * x j := by
  split
  · rfl
  · funext i
    symm
    refine Finset.sum_eq_zero fun j _ => ?_
    have h0 := hf.near (by omega)
    rcases hn with h | h <;> rw [h, h0, zero_mul]

private theorem entry_mul (H : HMat K) (x : Nat → K) (i : Nat) :
    ∑ j ∈ Finset.range H.n, H.entry i j * x j = ∑ j ∈ Finset.range H.n, H.near i j * x j + ∑ comp ∈ Finset.range H.comps, farMul H false comp x i := by
  simp only [HMat.entry, add_mul, Finset.sum_add_distrib, Finset.sum_mul, farMul, Bool.false_eq_true, if_false]
  rw [Finset.sum_comm]

private theorem entry_mulT (H : HMat K) (x : Nat → K) (j : Nat) :
    ∑ i ∈ Finset.range H.n, H.entry i j * x i = ∑ i ∈ Finset.range H.n, H.near i j * x i + ∑ comp ∈ Finset.range H.comps, farMul H true comp x j := by
  simp only [HMat.entry, add_mul, Finset.sum_add_distrib, Finset.sum_mul, farMul, if_true]
  rw [Finset.sum_comm]

/-- `matvec`: product with the matrix. -/
theorem matvec_exact (H : HMat K) (hf : H.Fits) (x : Nat → K) (s : State K) (i : Nat) : (matvec H false x s).2.2 i = ∑ j ∈ Finset.range H.n, H.entry i j * x j := by
  unfold matvec
  rw [farField_spec H hf false false (by simp), entry_mul, near_eq H hf H.near (Or.inl fun _ _ => rfl)]

/-- `matvec_no_overwrite`: the product is added. -/
theorem matvecAdd_exact (H : HMat K) (hf : H.Fits) (x : Nat → K) (s : State K) (i : Nat) : (matvecAdd H false x s).2.2 i = s.2.2 i + ∑ j ∈ Finset.range H.n, H.entry i j * x j := by
  unfold matvecAdd
  rw [farField_spec H hf false false (by simp), entry_mul, add_assoc]

/-- `matvecTrans`: product with the transpose. -/
theorem matvecTrans_exact (H : HMat K) (hf : H.Fits) (x : Nat → K) (s : State K) (j : Nat) : (matvecTrans H x s).2.2 j = ∑ i ∈ Finset.range H.n, H.entry i j * x i := by
  unfold matvecTrans
  rw [farField_spec H hf true false (by simp), entry_mulT, near_eq H hf (fun j i => H.near i j) (Or.inr fun _ _ => rfl)]

/-- `matvecTrans_no_overwrite`: the product with the transpose is added. -/
theorem matvecTransAdd_exact (H : HMat K) (hf : H.Fits) (x : Nat → K) (s : State K) (j : Nat) : (matvecTransAdd H x s).2.2 j = s.2.2 j + ∑ i ∈ Finset.range H.n, H.entry i j * x i := by
  unfold matvecTransAdd
  rw [farField_spec H hf true false (by simp), entry_mulT, add_assoc]

/-- With the basis matrix the products are the same if there is one component. -/
theorem basis_partial (H : HMat K) (hf : H.Fits) (hc : H.comps ≤ 1) (x : Nat → K) (s : State K) (i : Nat) :
    (matvec H true x s).2.2 i = ∑ j ∈ Finset.range H.n, H.entry i j * x j ∧ (matvecAdd H true x s).2.2 i = s.2.2 i + ∑ j ∈ Finset.range H.n, H.entry i j * x j := by
  unfold matvec matvecAdd
  refine ⟨?_, ?_⟩
  · rw [farField_spec H hf false true (fun _ => hc), entry_mul, near_eq H hf H.near (Or.inl fun _ _ => rfl)]
  · rw [farField_spec H hf false true (fun _ => hc), entry_mul, add_assoc]

/-- `toarray` is the matrix if there is one component and every entry belongs to at most one of the near field and the far-field pairs (C58). -/
theorem toarray_partial (H : HMat K) (hc : H.comps = 1) (hn : ∀ p ∈ H.pairs, (dofsOf p.n1).Nodup ∧ (dofsOf p.n2).Nodup)
    (hd : H.pairs.Pairwise fun p q => ∀ i j, ¬ ((i ∈ dofsOf p.n1 ∧ j ∈ dofsOf p.n2) ∧ (i ∈ dofsOf q.n1 ∧ j ∈ dofsOf q.n2)))
    (h0 : ∀ p ∈ H.pairs, ∀ i ∈ dofsOf p.n1, ∀ j ∈ dofsOf p.n2, H.near i j = 0) (i j : Nat) : toarray H i j = H.entry i j := by
  unfold toarray HMat.entry
  rw [hc, Finset.sum_range_one]
  revert h0 hd hn
  generalize H.pairs = L
  intro hn hd h0
  have key : ∀ (L : List (Pair K)) (D : Nat → Nat → K), (∀ p ∈ L, (dofsOf p.n1).Nodup ∧ (dofsOf p.n2).Nodup) →
      (L.Pairwise fun p q => ∀ i j, ¬ ((i ∈ dofsOf p.n1 ∧ j ∈ dofsOf p.n2) ∧ (i ∈ dofsOf q.n1 ∧ j ∈ dofsOf q.n2))) →
      (∀ p ∈ L, i ∈ dofsOf p.n1 → j ∈ dofsOf p.n2 → D i j = 0) → L.foldl (fun D p => writeBlock p D) D i j = D i j + (L.map fun p => block 0 p i j).sum := by
    intro L
    induction L with
    | nil => simp
    | cons p L ih =>
      intro D hn hd h0
      rw [List.pairwise_cons] at hd
      have hw := writeBlock_spec p (hn p (List.mem_cons_self ..)).1 (hn p (List.mem_cons_self ..)).2 D i j
      rw [List.foldl_cons, ih _ (fun q hq => hn q (List.mem_cons_of_mem _ hq)) hd.2 ?_, hw, List.map_cons, List.sum_cons, ← add_assoc]
      · congr 1
        split
        · rename_i hin
          rw [h0 p (List.mem_cons_self ..) hin.1 hin.2, zero_add]
        · rename_i hout
          rw [block_zero p i j hout, add_zero]
      · intro q hq h1 h2
        rw [hw, if_neg (fun h => hd.1 q hq i j ⟨h, h1, h2⟩)]
        exact h0 q (List.mem_cons_of_mem _ hq) h1 h2
  exact key L H.near hn hd fun p hp h1 h2 => h0 p hp i h1 j h2

/-! ## Concrete cases and witnesses -/

/-- Two leaves with one dof each, one coefficient per node, two components, and the pair of the leaves. -/
def left : Node Rat := .leaf 1 1 ⟨1, 1, fun _ _ => 2⟩ [0] fun c _ _ => if c = 0 then 3 else 5

def right : Node Rat := .leaf 2 1 ⟨1, 1, fun _ _ => 1⟩ [1] fun c _ _ => if c = 0 then 1 else 7

def root : Node Rat := .inner 0 1 ⟨0, 0, fun _ _ => 0⟩ [left, right]

def sample (comps : Nat) : HMat Rat where
  tree := root
  pairs := [⟨left, right, ⟨1, 1, fun _ _ => 10⟩⟩, ⟨root, left, ⟨1, 1, fun _ _ => 1⟩⟩]
  near i j := if i = 0 ∧ j = 0 then 4 else 0
  nnz := 1
  n := 2
  comps := comps

theorem sample_fits (comps : Nat) : (sample comps).Fits where
  shaped := by
    refine .inner _ _ _ _ ?_ ?_
    · intro c hc
      simp only [List.mem_cons, List.not_mem_nil, or_false] at hc
      rcases hc with rfl | rfl <;> exact ⟨rfl, rfl⟩
    · intro c hc
      simp only [List.mem_cons, List.not_mem_nil, or_false] at hc
      rcases hc with rfl | rfl <;> exact .leaf ..
  ids := by
    change [0, 1, 2].Nodup
    decide
  dofs := by
    intro d hd
    have : dofsOf (sample comps).tree = [0, 1] := rfl
    rw [this] at hd
    change d < 2
    simp only [List.mem_cons, List.not_mem_nil, or_false] at hd
    omega
  pairs := by
    have hl : left ∈ root.nodes := by simp [root, Node.nodes, nodesList, left]
    have hr : right ∈ root.nodes := by simp [root, Node.nodes, nodesList, right, left]
    intro p hp
    simp only [sample, List.mem_cons, List.not_mem_nil, or_false] at hp
    rcases hp with rfl | rfl
    · exact ⟨hl, hr, rfl, rfl⟩
    · exact ⟨self_mem _, hl, rfl, rfl⟩
  near := by intro h; simp [sample] at h

/-- A vector with the coefficient arrays filled with 100. -/
def junk : State Rat := (fun _ _ => 100, fun _ _ => 100, fun _ => 100)

example : ((matvec (sample 2) false (fun _ => 1) junk).2.2 0, (matvec (sample 2) false (fun _ => 1) junk).2.2 1) = ((4 : Rat) + 10 * 3 * 1 + 10 * 5 * 7 + 2 * 3 * 3 + 2 * 5 * 5, 1 * 3 + 7 * 5) := by decide +kernel

example : ((matvecTrans (sample 1) (fun i => if i = 0 then 1 else 0) junk).2.2 0, (matvecTrans (sample 1) (fun i => if i = 0 then 1 else 0) junk).2.2 1) = ((4 : Rat) + 2 * 3 * 3, 30) := by decide +kernel

/-- With the basis matrix the second component of the columns is replaced by the first. -/
theorem basis_fails : (matvec (sample 2) true (fun _ => 1) junk).2.2 1 = 24 ∧ ∑ j ∈ Finset.range (sample 2).n, (sample 2).entry 1 j * 1 = 38 := by
  refine ⟨by decide +kernel, ?_⟩
  rw [← matvec_exact (sample 2) (sample_fits 2) (fun _ => 1) junk 1]
  decide +kernel

/-- `toarray` has the first component only. -/
theorem toarray_fails : toarray (sample 2) 1 0 = 3 ∧ (sample 2).entry 1 0 = 38 := by
  refine ⟨by decide +kernel, ?_⟩
  simp only [HMat.entry, block, sample, Finset.sum_range_succ, Finset.sum_range_zero, List.map_cons, List.map_nil, List.sum_cons, List.sum_nil]
  decide +kernel

/-- The variant of `gemvT` without BLAS for a transfer matrix from two coefficients of the parent to one of the child: access past the end of the array. -/
theorem transfer_fails (a b u v w : Rat) : Blas.gemvT ⟨[[a], [b]], 2, 1⟩ [u, v] [w] 1 = none := by
  unfold Blas.gemvT
  rw [if_pos ⟨one_ne_zero, by simp⟩]

end PyNucleus.Props.C62
