import Verif.Proof.Distributed
import Verif.Proof.RowDist
import Verif.Proof.OverlapExample
import Verif.Props.C31

/-!
# C37: distributed products

Full statement: the product and the residual of a distributed operator are, on every rank and at each of its dofs, those of the global
matrix, whatever the order in which messages arrive; the diagonal is that of the global matrix; and the options `doDistribute` and
`keepDistributedResult` are supported by all operators.  The last two parts fail: the diagonal of the row distributed operator is
zero, and the CSR operator cannot be used with `doDistribute`.
-/

namespace PyNucleus.Props.C37

open PyNucleus.Overlap PyNucleus.Distributed PyNucleus.Spec

variable {K : Type} {P : Nat} {ov : Nat → Manager} {gid : Nat → Nat → Nat}

/-- Sub-assembled operators, synchronous: local product, then `accumulate`, in every execution. -/
theorem matvec_global [CommSemiring K] (hc : Consistent P ov gid) (G : Nat) (hG : ∀ s j, s < P → j < (ov s).n → gid s j < G)
    (a : Nat → Nat → Nat → K) (x Ax : Nat → List K) (xg : Nat → K)
    (hx : ∀ s j, s < P → j < (ov s).n → (x s).getD j 0 = xg (gid s j))
    (hlen : ∀ s, s < P → (Ax s).length = (ov s).n)
    (hA : ∀ s i, s < P → i < (ov s).n → (Ax s).getD i 0 = mulVec (ov s).n (a s) (x s) i)
    (buf : Nat → Nat → List K) (n : Nat) (σ : State K Unit)
    (h : Steps P ov [.accumulate] (fun _ _ z => z) (initial (fun r => ((), Ax r)) buf) n σ) (r : Nat) (hr : r < P)
    (hin : (σ.loc r).inCall = false) (hcall : (σ.loc r).call = 1) (i : Nat) (hi : i < (ov r).n) :
    (σ.loc r).vec.getD i 0 = ∑ g ∈ Finset.range G, assembled P ov gid a (gid r i) g * xg g :=
  (C31.accumulate_sums hc Ax hlen buf n σ h r hr hin hcall i hi).trans (total_mulVec G hG a x Ax xg hx hA (gid r i))

/-- CSR matrices, computation and communication interleaved: any order of the list of shared dofs, any order of arrival, any
contents of the result before. -/
theorem csr_matvec_global [CommSemiring K] (hc : Consistent P ov gid) (G : Nat) (hG : ∀ s j, s < P → j < (ov s).n → gid s j < G)
    (R : Nat → Rank K) (x w : Nat → List K) (xg : Nat → K)
    (hx : ∀ s j, s < P → j < (ov s).n → (x s).getD j 0 = xg (gid s j))
    (hw : ∀ s, s < P → (w s).length = (ov s).n)
    (hA : ∀ s, s < P → (R s).A.Valid ∧ (R s).A.numRows = (ov s).n ∧ (R s).A.numCols = (ov s).n)
    (hix : ∀ s, s < P → ∀ t, ∀ i ∈ (ov s).shared t, i ∈ (R s).ix)
    (horder : ∀ s, s < P → (R s).order.Perm (ov s).keys)
    (r : Nat) (hr : r < P) (hd : (R r).doDistribute = false) :
    ∃ y, csrMatvec ov R x w r = some y ∧ y.length = (ov r).n ∧ ∀ i, i < (ov r).n →
      y.getD i 0 = ∑ g ∈ Finset.range G, assembled P ov gid (fun s => (R s).A.entry) (gid r i) g * xg g := by
  have hloc := fun s (hs : s < P) => csrLocal_spec (R s).A.numRows (R s).ix (CSR.rowSum (R s).A (x s)) (w s)
    (by rw [hw s hs, (hA s hs).2.1])
  obtain ⟨h1, h2⟩ := receive_total hc (fun s => (csrLocal (R s).A.numRows (R s).ix (CSR.rowSum (R s).A (x s)) (w s)).1)
    (fun s => (csrLocal (R s).A.numRows (R s).ix (CSR.rowSum (R s).A (x s)) (w s)).2)
    (fun s hs => by rw [(hloc s hs).1, (hA s hs).2.1]) hr (horder r hr)
    (fun s hs t i hi => by
      have hin := hc.shared_lt s hs t i hi
      rw [(hloc s hs).2.2 i (by rw [(hA s hs).2.1]; exact hin) (hix s hs t i hi), (hloc s hs).2.1 i (by rw [(hA s hs).2.1]; exact hin)])
  refine ⟨_, by unfold csrMatvec; rw [hd]; rfl, h1, fun i hi => ?_⟩
  refine (h2 i hi).trans (total_mulVec G hG _ x _ xg hx (fun s i hs hi => ?_) (gid r i))
  rw [(hloc s hs).2.1 i (by rw [(hA s hs).2.1]; exact hi), CSR.rowSum_eq _ (hA s hs).1 _ _ (by rw [(hA s hs).2.1]; exact hi), (hA s hs).2.2]

/-- The residual: sum of the distributed right-hand sides minus the global product. -/
theorem csr_residual_global [CommRing K] (hc : Consistent P ov gid) (G : Nat) (hG : ∀ s j, s < P → j < (ov s).n → gid s j < G)
    (R : Nat → Rank K) (x rhs w : Nat → List K) (xg : Nat → K)
    (hx : ∀ s j, s < P → j < (ov s).n → (x s).getD j 0 = xg (gid s j))
    (hw : ∀ s, s < P → (w s).length = (ov s).n)
    (hA : ∀ s, s < P → (R s).A.Valid ∧ (R s).A.numRows = (ov s).n ∧ (R s).A.numCols = (ov s).n)
    (hix : ∀ s, s < P → ∀ t, ∀ i ∈ (ov s).shared t, i ∈ (R s).ix)
    (horder : ∀ s, s < P → (R s).order.Perm (ov s).keys)
    (r : Nat) (hr : r < P) (i : Nat) (hi : i < (ov r).n) :
    (csrResidual ov R x rhs w r).getD i 0 =
      (∑ s ∈ Finset.range P, ∑ j ∈ Finset.range (ov s).n, if gid s j = gid r i then (rhs s).getD j 0 else 0) -
      ∑ g ∈ Finset.range G, assembled P ov gid (fun s => (R s).A.entry) (gid r i) g * xg g := by
  have hloc := fun s (hs : s < P) => csrLocal_spec (R s).A.numRows (R s).ix (resRow (R s).A (x s) (rhs s)) (w s)
    (by rw [hw s hs, (hA s hs).2.1])
  obtain ⟨h1, h2⟩ := receive_total hc (fun s => (csrLocal (R s).A.numRows (R s).ix (resRow (R s).A (x s) (rhs s)) (w s)).1)
    (fun s => (csrLocal (R s).A.numRows (R s).ix (resRow (R s).A (x s) (rhs s)) (w s)).2)
    (fun s hs => by rw [(hloc s hs).1, (hA s hs).2.1]) hr (horder r hr)
    (fun s hs t i hi => by
      have hin := hc.shared_lt s hs t i hi
      rw [(hloc s hs).2.2 i (by rw [(hA s hs).2.1]; exact hin) (hix s hs t i hi), (hloc s hs).2.1 i (by rw [(hA s hs).2.1]; exact hin)])
  refine (h2 i hi).trans ?_
  rw [total_sub rhs (fun s => (List.range (ov s).n).map fun i => mulVec (ov s).n (R s).A.entry (x s) i)]
  · congr 1
    refine total_mulVec G hG (fun s => (R s).A.entry) x _ xg hx (fun s i hs hi => ?_) (gid r i)
    rw [List.getD_eq_getElem _ _ (by simpa using hi)]
    simp
  · intro s i hs hi
    rw [(hloc s hs).2.1 i (by rw [(hA s hs).2.1]; exact hi), resRow_eq _ (hA s hs).1 _ _ _ (by rw [(hA s hs).2.1]; exact hi), (hA s hs).2.2,
      List.getD_eq_getElem (List.map _ _) _ (by simpa using hi)]
    simp

/-- The diagonal of sub-assembled operators. -/
theorem diagonal_global [CommSemiring K] (hc : Consistent P ov gid) (a : Nat → Nat → Nat → K) (d : Nat → List K)
    (hlen : ∀ s, s < P → (d s).length = (ov s).n) (hd : ∀ s i, s < P → i < (ov s).n → (d s).getD i 0 = a s i i)
    (buf : Nat → Nat → List K) (n : Nat) (σ : State K Unit)
    (h : Steps P ov [.accumulate] (fun _ _ z => z) (initial (fun r => ((), d r)) buf) n σ) (r : Nat) (hr : r < P)
    (hin : (σ.loc r).inCall = false) (hcall : (σ.loc r).call = 1) (i : Nat) (hi : i < (ov r).n) :
    (σ.loc r).vec.getD i 0 = assembled P ov gid a (gid r i) (gid r i) := by
  rw [C31.accumulate_sums hc d hlen buf n σ h r hr hin hcall i hi]
  unfold assembled
  refine Finset.sum_congr rfl fun s hs => Finset.sum_congr rfl fun k hk => ?_
  have hs := Finset.mem_range.1 hs
  have hk := Finset.mem_range.1 hk
  by_cases hg : gid s k = gid r i
  · rw [if_pos hg, hd s k hs hk]
    symm
    refine single_sum _ _ hk (fun j => a s k j) _ fun j hj => ⟨fun q => hc.inj s hs j k hj hk (q.2.trans hg.symm), fun q => ⟨hg, q ▸ hg⟩⟩
  · rw [if_neg hg]
    symm
    exact Finset.sum_eq_zero fun j _ => if_neg fun q => hg q.1

/-- Row distribution: every rank gets its rows of the product with the global matrix, whatever was in the uninitialised arrays. -/
theorem row_matvec_global [CommSemiring K] {D : RowDist K} {N : Nat} (h : D.Partitioned N) (A : Nat → Nat → K)
    (hA : ∀ r g J, r < D.P → g ∈ D.own r → J < N → (D.mat r).entry g J = A g J)
    (q : Nat) (hq : q < D.P) (p u : List Nat) (v t y : List K)
    (hp : p.length = (D.own q).length + 1) (hu : u.length = (D.mat q).indices.length) (hv : v.length = (D.mat q).indices.length)
    (ht : t.length = (D.ghosts q).length) (hy : y.length = (D.own q).length) (x : Nat → List K) (xg : Nat → K)
    (hxl : (x q).length = (D.own q).length)
    (hx : ∀ p l, p < D.P → l < (D.own p).length → (x p).getD l 0 = xg ((D.own p).getD l 0)) (l : Nat) (hl : l < (D.own q).length) :
    (D.matvec q p u v t x y).getD l 0 = ∑ J ∈ Finset.range N, A ((D.own q).getD l 0) J * xg J ∧
    (D.matvecNoOverwrite q p u v t x y).getD l 0 = y.getD l 0 + ∑ J ∈ Finset.range N, A ((D.own q).getD l 0) J * xg J := by
  have hi := (h.localMat_rows hq p u v hp hu hv).1
  have hs := h.rowSum_eq hq p u v t hp hu hv ht x xg hxl hx l hl
  have hg : (D.own q).getD l 0 ∈ D.own q := by rw [List.getD_eq_getElem _ _ hl]; exact List.getElem_mem hl
  have hA' : ∑ J ∈ Finset.range N, (D.mat q).entry ((D.own q).getD l 0) J * xg J = ∑ J ∈ Finset.range N, A ((D.own q).getD l 0) J * xg J :=
    Finset.sum_congr rfl fun J hJ => by rw [hA q _ J hq hg (Finset.mem_range.1 hJ)]
  rw [hA'] at hs
  constructor
  · show (CSR.spmvRows _ _ _ true).getD l 0 = _
    unfold CSR.spmvRows
    rw [hi, Nat.add_sub_cancel]
    have := (CSR.forRange_set y (D.own q).length (by omega) fun i _ => CSR.rowSum (D.localMat q p u v) (D.xTemp q x t) i).2 l
    rw [if_pos hl] at this
    exact this.trans hs
  · show (CSR.spmvRows _ _ _ false).getD l 0 = _
    unfold CSR.spmvRows
    rw [hi, Nat.add_sub_cancel]
    have := (CSR.forRange_set y (D.own q).length (by omega) fun i o => o + CSR.rowSum (D.localMat q p u v) (D.xTemp q x t) i).2 l
    rw [if_pos hl, hs] at this
    exact this

/-- No key is missing when the communication is set up. -/
theorem row_setup_keys {D : RowDist K} {N : Nat} (h : D.Partitioned N) (q p : Nat) (hq : q < D.P) :
    (∀ J ∈ D.receives q p, (D.ownIndex p J).isSome) ∧
    ∀ g ∈ D.own q, ∀ e ∈ (D.mat q).row g, (D.colIndex q e.1).isSome := by
  constructor
  · intro J hJ
    obtain ⟨l, -, -, e⟩ := D.ownIndex_spec p J (h.receives_own hq hJ).1
    rw [e]; rfl
  · intro g hg e he
    obtain ⟨l, -, -, e⟩ := D.colIndex_spec q e.1 (h.mem_ghosts hq hg he)
    rw [e]; rfl

/-- The diagonal of a row distributed operator is always zero. -/
theorem row_diagonal_zero [Zero K] {D : RowDist K} {N : Nat} (h : D.Partitioned N) (q : Nat) (hq : q < D.P) (p u : List Nat) (v : List K)
    (hp : p.length = (D.own q).length + 1) (hu : u.length = (D.mat q).indices.length) (hv : v.length = (D.mat q).indices.length) :
    D.diagonal q p u v = List.replicate (D.own q).length 0 := h.diagonal_eq hq p u v hp hu hv

/-- Two ranks, three dofs. -/
def D2 : RowDist ℤ where
  P := 2
  own := fun r => if r = 0 then [0, 2] else [1]
  mat := fun _ => ⟨[0, 2, 5, 7], [0, 1, 0, 1, 2, 1, 2], [2, -1, -1, 2, -1, -1, 2], 3, 3⟩

theorem partitioned2 : D2.Partitioned 3 where
  nodup := by decide
  lt := by decide
  disjoint := by
    intro r s g hr hs h1 h2
    have hr : r < 2 := hr
    have hs : s < 2 := hs
    interval_cases r <;> interval_cases s <;> simp_all [D2]
  cover := by decide
  valid := fun _ _ => ⟨⟨rfl, rfl, rfl, by show ∀ i, i < 3 → [0, 2, 5, 7].getD i 0 ≤ [0, 2, 5, 7].getD (i + 1) 0; decide⟩, rfl, by show ∀ j ∈ [0, 1, 0, 1, 2, 1, 2], j < 3; decide⟩
  rows := fun _ _ => rfl
  cols := fun _ _ => rfl

/-- Example: the product with (1, 10, 100). -/
example : D2.matvec 0 [9, 9, 9] [9, 9, 9, 9, 9, 9, 9] [9, 9, 9, 9, 9, 9, 9] [7, 7, 7] (fun r => if r = 0 then [1, 100] else [10]) [5, 5] = [-8, 190] := by
  decide

/-- The diagonal of the operator is not the diagonal of the matrix. -/
theorem row_diagonal_fails : ∃ (D : RowDist ℤ) (N : Nat), D.Partitioned N ∧ ∃ q p u v, q < D.P ∧ p.length = (D.own q).length + 1 ∧
    u.length = (D.mat q).indices.length ∧ v.length = (D.mat q).indices.length ∧ ∃ l, l < (D.own q).length ∧
    (D.diagonal q p u v).getD l 0 ≠ (D.mat q).entry ((D.own q).getD l 0) ((D.own q).getD l 0) := by
  refine ⟨D2, 3, partitioned2, 0, [9, 9, 9], List.replicate 7 9, List.replicate 7 9, by decide, rfl, rfl, rfl, 0, by decide, ?_⟩
  rw [row_diagonal_zero partitioned2 0 (by decide) [9, 9, 9] (List.replicate 7 9) (List.replicate 7 9) rfl rfl rfl]
  decide

/-- With `doDistribute` the CSR operator has no product. -/
theorem csr_doDistribute_fails [Semiring K] (ov : Nat → Manager) (R : Nat → Rank K) (x w : Nat → List K) (r : Nat)
    (h : (R r).doDistribute = true) : csrMatvec ov R x w r = none := by
  unfold csrMatvec
  rw [h]; rfl

/-- Three ranks with one matrix each. -/
def R3 (r : Nat) : Rank ℤ where
  A := ⟨[0, 2, 4], [0, 1, 0, 1], [1, -1, -1, 1], 2, 2⟩
  ix := [0]
  order := (ov3 r).keys.reverse
  doDistribute := false

/-- Example: a star with three edges. -/
example : ∃ y, csrMatvec ov3 R3 (fun r => [5, (r : ℤ)]) (fun _ => [9, 9]) 1 = some y ∧ y.length = 2 ∧ ∀ i, i < 2 →
    y.getD i 0 = ∑ g ∈ Finset.range 4, assembled 3 ov3 gid3 (fun s => (R3 s).A.entry) (gid3 1 i) g * (if g = 0 then 5 else (g : ℤ) - 1) := by
  have h := csr_matvec_global consistent3 4 (fun s j hs hj => by unfold gid3; split <;> omega) R3 (fun r => [5, (r : ℤ)]) (fun _ => [9, 9])
    (fun g => if g = 0 then 5 else (g : ℤ) - 1)
    (fun s j hs hj => by rw [ov3_n] at hj; interval_cases j <;> simp [gid3])
    (fun s hs => by rw [ov3_n]; rfl)
    (fun s hs => ⟨⟨⟨rfl, rfl, rfl, by show ∀ i, i < 2 → [0, 2, 4].getD i 0 ≤ [0, 2, 4].getD (i + 1) 0; decide⟩, rfl, by show ∀ j ∈ [0, 1, 0, 1], j < 2; decide⟩, by rw [ov3_n]; rfl, by rw [ov3_n]; rfl⟩)
    (fun s hs t i hi => by rcases ov3_shared s t with h | h <;> rw [h] at hi <;> simp at hi; simp [R3, hi])
    (fun s hs => List.reverse_perm _) 1 (by omega) rfl
  rwa [ov3_n] at h

/-- Its value. -/
example : csrMatvec ov3 R3 (fun r => [5, (r : ℤ)]) (fun _ => [9, 9]) 1 = some [12, -4] := by decide

end PyNucleus.Props.C37
