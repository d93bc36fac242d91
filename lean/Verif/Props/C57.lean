import Verif.Proof.Assembly2
import Verif.Props.C12
import Verif.Props.C40
import Verif.Props.C56

/-!
# C57: assembly of matrices

Full statement: the assembled matrix is the sum of the local matrices: entry `(I, J)` is the sum over all cells and all pairs of local dofs
`j`, `k` with the global numbers `I`, `J` of the entry `(j, k)` of the local matrix; dofs on the boundary go to the right hand side.  The same
operator is applied by `matrixFreeOperator`.

This is false if a cell has the same dof twice (`repeated_fails`), as on periodic meshes with few cells.
-/

namespace PyNucleus.Props.C57

open PyNucleus.Assembly PyNucleus.Spec PyNucleus.Loops
open PyNucleus.Simplex (upper)

variable {K : Type}

/-- Sum of all local contributions to the entry `(I, J)`. -/
def total [AddCommMonoid K] (n1 n2 : Nat) (dofs1 dofs2 : List (List Int)) (M : Nat → Nat → Nat → K) (cells : List Nat) (I J : Nat) : K :=
  (cells.map fun i => ∑ j ∈ Finset.range n1, ∑ k ∈ Finset.range n2, if (dofs1.getD i []).getD j 0 = I ∧ (dofs2.getD i []).getD k 0 = J then M i j k else 0).sum

/-- Contributions of the boundary dofs, which have negative numbers `-1, -2, …`. -/
def boundaryTotal [Ring K] (n : Nat) (dofs : List (List Int)) (M : Nat → Nat → Nat → K) (bdata : List K) (cells : List Nat) (I : Nat) : K :=
  (cells.map fun i => ∑ j ∈ Finset.range n, ∑ k ∈ Finset.range n,
    if (dofs.getD i []).getD j 0 = I ∧ (dofs.getD i []).getD k 0 < 0 then M i j k * bdata.getD (-(dofs.getD i []).getD k 0 - 1).toNat 0 else 0).sum

/-- The cells have `n` dofs below `numDofs`, and the interior dofs of a cell are distinct. -/
structure Good (n numDofs : Nat) (dofs : List (List Int)) (cells : List Nat) : Prop where
  length : ∀ i ∈ cells, (dofs.getD i []).length = n
  lt : ∀ i ∈ cells, ∀ d ∈ dofs.getD i [], d < numDofs
  distinct : ∀ i ∈ cells, ∀ j k, j < n → k < n → 0 ≤ (dofs.getD i []).getD j 0 → (dofs.getD i []).getD j 0 = (dofs.getD i []).getD k 0 → j = k

/-- `loc` is the upper triangle of the symmetric local matrices `M`. -/
def IsLocal (n : Nat) (M : Nat → Nat → Nat → K) (loc : Nat → List K) : Prop :=
  (∀ i j k, M i j k = M i k j) ∧ ∀ i, loc i = (upper n).map fun q => M i q.1 q.2

/-- The same pattern and shape. -/
def SamePattern (A B : CSR K) : Prop := B.Valid ∧ B.Sorted ∧ B.indptr = A.indptr ∧ B.indices = A.indices ∧ B.numRows = A.numRows ∧ B.numCols = A.numCols

/-- The entry is stored. -/
def Stored (A : CSR K) (I J : Nat) : Prop := J ∈ (A.row I).map Prod.fst

private theorem good_row {n numDofs : Nat} {dofs : List (List Int)} {cells : List Nat} (h : Good n numDofs dofs cells) (i : Nat) (hi : i ∈ cells) :
    GoodRow n numDofs (dofs.getD i []) := ⟨h.length i hi, h.lt i hi, h.distinct i hi⟩

private theorem getD_lt {n numDofs : Nat} {row : List Int} (hl : row.length = n) (hlt : ∀ d ∈ row, d < numDofs) (j : Nat) (hj : j < n) : row.getD j 0 < numDofs := by
  rw [List.getD_eq_getElem _ _ (by omega)]
  exact hlt _ (List.getElem_mem _)

private theorem items_lt {pairs : Int → Int → List (Nat × Nat)} (hp : ∀ (I J : Int) (N : Nat), I < N → J < N → ∀ e ∈ pairs I J, e.1 < N ∧ e.2 < N) {n numDofs : Nat} {row : List Int}
    (h : GoodRow n numDofs row) (M : Nat → Nat → K) : ∀ e ∈ cellItems pairs n row M, e.1 < numDofs ∧ e.2.1 < numDofs := by
  intro e he
  unfold cellItems at he
  obtain ⟨q, hq, he⟩ := List.mem_flatMap.1 he
  obtain ⟨p, hpm, rfl⟩ := List.mem_map.1 he
  have hq' := (PyNucleus.Simplex.mem_upper n q).1 hq
  exact hp _ _ numDofs (getD_lt h.length h.lt q.1 (by omega)) (getD_lt h.length h.lt q.2 (by omega)) p hpm

private theorem symPairs_lt (I J : Int) (N : Nat) (hI : I < N) (hJ : J < N) : ∀ e ∈ symPairs I J, e.1 < N ∧ e.2 < N := by
  intro e he
  unfold symPairs at he
  split at he
  · cases he
  · split at he
    · rw [List.mem_singleton] at he; subst he; dsimp only; omega
    · simp only [List.mem_cons, List.not_mem_nil, or_false] at he
      rcases he with rfl | rfl <;> dsimp only <;> omega

private theorem sssPairs_lt (I J : Int) (N : Nat) (hI : I < N) (hJ : J < N) : ∀ e ∈ sssPairs I J, e.1 < N ∧ e.2 < N := by
  intro e he
  unfold sssPairs at he
  split at he
  · cases he
  · split at he <;> rw [List.mem_singleton] at he <;> subst he <;> dsimp only <;> omega

private theorem sum_congr_mem [AddCommMonoid K] {α : Type} (l : List α) (f g : α → K) (h : ∀ a ∈ l, f a = g a) : (l.map f).sum = (l.map g).sum :=
  congrArg List.sum (List.map_congr_left h)

private theorem sum_flatMap [AddCommMonoid K] {α : Type} (l : List α) (g : α → List K) : (l.flatMap g).sum = (l.map fun a => (g a).sum).sum := by
  induction l with
  | nil => rfl
  | cons a t ih => rw [List.flatMap_cons, List.sum_append, ih, List.map_cons, List.sum_cons]

private theorem foldl_congr_mem' {α σ : Type} (l : List α) (f g : σ → α → σ) (h : ∀ s, ∀ a ∈ l, f s a = g s a) (s : σ) : l.foldl f s = l.foldl g s := by
  induction l generalizing s with
  | nil => rfl
  | cons a t ih => rw [List.foldl_cons, List.foldl_cons, h s a (by simp)]; exact ih (fun s b hb => h s b (by simp [hb])) _

private theorem symCSR_eq [AddCommMonoid K] (n : Nat) (dofs : List (List Int)) (M : Nat → Nat → Nat → K) (loc : Nat → List K) (hl : IsLocal n M loc) (cells : List Nat) (A : CSR K) :
    symCSR n dofs loc cells A = (cells.flatMap fun i => cellItems symPairs n (dofs.getD i []) (M i)).foldl (fun A e => CSR.addToEntry A e.1 e.2.1 e.2.2) A := by
  unfold symCSR
  rw [Galerkin.foldl_flatMap']
  exact foldl_congr_mem' _ _ _ (fun s i _ => by rw [hl.2 i, symCell_eq]) _

private theorem symSSS_eq [AddCommMonoid K] (n : Nat) (dofs : List (List Int)) (M : Nat → Nat → Nat → K) (loc : Nat → List K) (hl : IsLocal n M loc) (cells : List Nat) (A : SSS K) :
    symSSS n dofs loc cells A = (cells.flatMap fun i => cellItems sssPairs n (dofs.getD i []) (M i)).foldl (fun A e => SSS.addToEntry A e.1 e.2.1 e.2.2) A := by
  unfold symSSS
  rw [Galerkin.foldl_flatMap']
  exact foldl_congr_mem' _ _ _ (fun s i _ => by rw [hl.2 i, sssCell_eq]) _

private theorem contrib_total [AddCommMonoid K] (n N : Nat) (dofs : List (List Int)) (M : Nat → Nat → Nat → K) (hs : ∀ i j k, M i j k = M i k j) (cells : List Nat)
    (h : Good n N dofs cells) (I J : Nat) :
    SSS.contrib (cells.flatMap fun i => cellItems symPairs n (dofs.getD i []) (M i)) I J = total n n dofs dofs M cells I J := by
  rw [Galerkin.contrib_flatMap']
  exact sum_congr_mem _ _ _ fun i hi => contrib_sym n N _ (good_row h i hi) (M i) (hs i) I J

private theorem contrib_total_sss [AddCommMonoid K] (n N : Nat) (dofs : List (List Int)) (M : Nat → Nat → Nat → K) (hs : ∀ i j k, M i j k = M i k j) (cells : List Nat)
    (h : Good n N dofs cells) (I J : Nat) (hJ : J ≤ I) :
    SSS.contrib (cells.flatMap fun i => cellItems sssPairs n (dofs.getD i []) (M i)) I J = total n n dofs dofs M cells I J := by
  rw [Galerkin.contrib_flatMap']
  exact sum_congr_mem _ _ _ fun i hi => contrib_sss n N _ (good_row h i hi) (M i) (hs i) I J hJ

private theorem all_lt {pairs : Int → Int → List (Nat × Nat)} (hp : ∀ (I J : Int) (N : Nat), I < N → J < N → ∀ e ∈ pairs I J, e.1 < N ∧ e.2 < N) {n N : Nat} {dofs : List (List Int)} {cells : List Nat}
    (h : Good n N dofs cells) (M : Nat → Nat → Nat → K) : ∀ e ∈ cells.flatMap fun i => cellItems pairs n (dofs.getD i []) (M i), e.1 < N := by
  intro e he
  obtain ⟨i, hi, he⟩ := List.mem_flatMap.1 he
  exact (items_lt hp (good_row h i hi) (M i) e he).1

/-- Assembly into a given CSR matrix, over any list of cells (a range or `cellIndices`). -/
theorem csr_sum_partial [AddCommMonoid K] (n : Nat) (dofs : List (List Int)) (M : Nat → Nat → Nat → K) (loc : Nat → List K) (hl : IsLocal n M loc) (cells : List Nat)
    (A : CSR K) (hA : A.Valid) (hs : A.Sorted) (h : Good n A.numRows dofs cells) :
    SamePattern A (symCSR n dofs loc cells A) ∧ ∀ I J, I < A.numRows →
      (Stored A I J → (symCSR n dofs loc cells A).entry I J = A.entry I J + total n n dofs dofs M cells I J) ∧
      (¬ Stored A I J → (symCSR n dofs loc cells A).entry I J = A.entry I J) := by
  rw [symCSR_eq n dofs M loc hl]
  obtain ⟨h1, h2, h3, h4, h5, h6, h7⟩ := Galerkin.csr_adds _ A hA hs (all_lt symPairs_lt h M)
  refine ⟨⟨h1, h2, h3, h4, h5, h6⟩, fun I J hI => ⟨fun hst => ?_, (h7 I J hI).2⟩⟩
  rw [(h7 I J hI).1 hst, contrib_total n A.numRows dofs M hl.1 cells h]

/-- With boundary data: the same matrix, and the products with the boundary data are subtracted from the right hand side. -/
theorem csr_boundary_partial [Ring K] (n : Nat) (dofs : List (List Int)) (M : Nat → Nat → Nat → K) (loc : Nat → List K) (hl : IsLocal n M loc) (cells : List Nat)
    (bdata : List K) (A : CSR K) (b : List K) :
    (symCSRBoundary n bdata dofs loc cells (A, b)).1 = symCSR n dofs loc cells A ∧
    (symCSRBoundary n bdata dofs loc cells (A, b)).2.length = b.length ∧
    ∀ I, I < b.length → (symCSRBoundary n bdata dofs loc cells (A, b)).2.getD I 0 = b.getD I 0 - boundaryTotal n dofs M bdata cells I := by
  have e : symCSRBoundary n bdata dofs loc cells (A, b) = (symCSR n dofs loc cells A,
      cells.foldl (fun b i => (rhsItems bdata n (dofs.getD i []) (M i)).foldl (fun b e => b.modify e.1 (· - e.2)) b) b) := by
    unfold symCSRBoundary symCSR
    rw [← foldl_prod]
    exact foldl_congr_mem' _ _ _ (fun s i _ => by rw [hl.2 i, (boundary_eq _ n bdata _ (M i) s).1, symCell_eq]) _
  rw [e]
  refine ⟨rfl, ?_⟩
  have hlen : ∀ (l : List (Nat × K)) (b : List K), (l.foldl (fun b e => b.modify e.1 (· - e.2)) b).length = b.length := by
    intro l
    induction l with
    | nil => intro b; rfl
    | cons a t ih => intro b; rw [List.foldl_cons, ih, List.length_modify]
  rw [← Galerkin.foldl_flatMap' cells (fun i => rhsItems bdata n (dofs.getD i []) (M i))]
  refine ⟨hlen _ _, fun I hI => ?_⟩
  rw [(sub_fold _ b I hI).2]
  congr 1
  unfold boundaryTotal
  rw [List.map_flatMap, sum_flatMap]
  exact sum_congr_mem _ _ _ fun i _ => rhs_sum bdata n _ (M i) (hl.1 i) I

private theorem total_comm [AddCommMonoid K] (n : Nat) (dofs : List (List Int)) (M : Nat → Nat → Nat → K) (hs : ∀ i j k, M i j k = M i k j) (cells : List Nat) (I J : Nat) :
    total n n dofs dofs M cells I J = total n n dofs dofs M cells J I := by
  unfold total
  refine sum_congr_mem _ _ _ fun i _ => ?_
  rw [Finset.sum_comm]
  refine Finset.sum_congr rfl fun j _ => Finset.sum_congr rfl fun k _ => ?_
  rw [hs i k j]
  exact if_congr And.comm rfl rfl

/-- Assembly into a given matrix in symmetric storage. -/
theorem sss_sum_partial [AddCommMonoid K] (n : Nat) (dofs : List (List Int)) (M : Nat → Nat → Nat → K) (loc : Nat → List K) (hl : IsLocal n M loc) (cells : List Nat)
    (S : SSS K) (hS : S.Valid) (hs : S.lower.Sorted) (h : Good n S.n dofs cells) :
    (symSSS n dofs loc cells S).Valid ∧ SamePattern S.lower (symSSS n dofs loc cells S).lower ∧
    ∀ I J, I < S.n → J < S.n →
      (I = J ∨ Stored S.lower (max I J) (min I J) → (symSSS n dofs loc cells S).entry I J = S.entry I J + total n n dofs dofs M cells I J) ∧
      (¬ (I = J ∨ Stored S.lower (max I J) (min I J)) → (symSSS n dofs loc cells S).entry I J = S.entry I J) := by
  rw [symSSS_eq n dofs M loc hl]
  obtain ⟨h1, h2, h3, h4, h5, h6, h7⟩ := Galerkin.sss_adds _ S hS hs (all_lt sssPairs_lt h M)
  refine ⟨h1, ⟨?_, h2, h3, h4, h5, h5⟩, fun I J hI hJ => ?_⟩
  · refine ⟨h1.indptr, h1.data, fun j hj => ?_⟩
    have e : S.lower.Valid := SSS.lower_valid S hS
    have : j < S.n := e.cols j (by show j ∈ S.indices; rw [← h4]; exact hj)
    rw [← h5] at this
    exact this
  · unfold SSS.entry
    rcases Nat.lt_trichotomy I J with hlt | rfl | hlt
    · rw [if_neg (by omega), if_neg (by omega), if_neg (by omega), if_neg (by omega), max_eq_right (by omega), min_eq_left (by omega)]
      refine ⟨fun hst => ?_, fun hst => (h7 J I hJ hlt).2 fun e => hst (Or.inr e)⟩
      rw [(h7 J I hJ hlt).1 (hst.resolve_left (by omega)), contrib_total_sss n S.n dofs M hl.1 cells h J I (by omega), total_comm n dofs M hl.1]
    · rw [if_pos rfl, if_pos rfl, h6 I hI, contrib_total_sss n S.n dofs M hl.1 cells h I I le_rfl]
      exact ⟨fun _ => rfl, fun hst => absurd (Or.inl rfl) hst⟩
    · rw [if_neg (by omega), if_pos hlt, if_neg (by omega), if_pos hlt, max_eq_left (by omega), min_eq_right (by omega)]
      refine ⟨fun hst => ?_, fun hst => (h7 I J hI hlt).2 fun e => hst (Or.inr e)⟩
      rw [(h7 I J hI hlt).1 (hst.resolve_left (by omega)), contrib_total_sss n S.n dofs M hl.1 cells h I J (by omega)]

/-- With boundary data. -/
theorem sss_boundary_partial [Ring K] (n : Nat) (dofs : List (List Int)) (M : Nat → Nat → Nat → K) (loc : Nat → List K) (hl : IsLocal n M loc) (cells : List Nat)
    (bdata : List K) (S : SSS K) (b : List K) :
    (symSSSBoundary n bdata dofs loc cells (S, b)).1 = symSSS n dofs loc cells S ∧
    (symSSSBoundary n bdata dofs loc cells (S, b)).2.length = b.length ∧
    ∀ I, I < b.length → (symSSSBoundary n bdata dofs loc cells (S, b)).2.getD I 0 = b.getD I 0 - boundaryTotal n dofs M bdata cells I := by
  obtain ⟨-, e2, e3⟩ := csr_boundary_partial n dofs M loc hl cells bdata (⟨[], [], [], 0, 0⟩ : CSR K) b
  have e : symSSSBoundary n bdata dofs loc cells (S, b) = (symSSS n dofs loc cells S, (symCSRBoundary n bdata dofs loc cells ((⟨[], [], [], 0, 0⟩ : CSR K), b)).2) := by
    have f1 : symSSSBoundary n bdata dofs loc cells (S, b) = (symSSS n dofs loc cells S,
        cells.foldl (fun b i => (rhsItems bdata n (dofs.getD i []) (M i)).foldl (fun b e => b.modify e.1 (· - e.2)) b) b) := by
      unfold symSSSBoundary symSSS
      rw [← foldl_prod]
      exact foldl_congr_mem' _ _ _ (fun s i _ => by rw [hl.2 i, (boundary_eq _ n bdata _ (M i) s).2, sssCell_eq]) _
    have f2 : symCSRBoundary n bdata dofs loc cells ((⟨[], [], [], 0, 0⟩ : CSR K), b) = (symCSR n dofs loc cells ⟨[], [], [], 0, 0⟩,
        cells.foldl (fun b i => (rhsItems bdata n (dofs.getD i []) (M i)).foldl (fun b e => b.modify e.1 (· - e.2)) b) b) := by
      unfold symCSRBoundary symCSR
      rw [← foldl_prod]
      exact foldl_congr_mem' _ _ _ (fun s i _ => by rw [hl.2 i, (boundary_eq _ n bdata _ (M i) s).1, symCell_eq]) _
    rw [f1, f2]
  rw [e]
  exact ⟨rfl, e2, e3⟩

/-- `loc` contains the rows of the local matrices `M`. -/
def IsFull (n1 n2 : Nat) (M : Nat → Nat → Nat → K) (loc : Nat → List K) : Prop := ∀ i, loc i = (List.range n1).flatMap fun j => (List.range n2).map fun k => M i j k

/-- Assembly of two maps; no condition of distinct dofs. -/
theorem nonsym_sum [AddCommMonoid K] (n1 n2 : Nat) (dofs1 dofs2 : List (List Int)) (M : Nat → Nat → Nat → K) (loc : Nat → List K) (hl : IsFull n1 n2 M loc) (cells : List Nat)
    (A : CSR K) (hA : A.Valid) (hs : A.Sorted) (h1 : ∀ i ∈ cells, (dofs1.getD i []).length = n1) (h2 : ∀ i ∈ cells, ∀ d ∈ dofs1.getD i [], d < A.numRows) :
    SamePattern A (nonsymCSR n1 n2 dofs1 dofs2 loc cells A) ∧ ∀ I J, I < A.numRows →
      (Stored A I J → (nonsymCSR n1 n2 dofs1 dofs2 loc cells A).entry I J = A.entry I J + total n1 n2 dofs1 dofs2 M cells I J) ∧
      (¬ Stored A I J → (nonsymCSR n1 n2 dofs1 dofs2 loc cells A).entry I J = A.entry I J) := by
  have e : nonsymCSR n1 n2 dofs1 dofs2 loc cells A =
      (cells.flatMap fun i => rectItems n1 n2 (dofs1.getD i []) (dofs2.getD i []) (M i)).foldl (fun A e => CSR.addToEntry A e.1 e.2.1 e.2.2) A := by
    unfold nonsymCSR
    rw [Galerkin.foldl_flatMap']
    exact foldl_congr_mem' _ _ _ (fun s i _ => by rw [hl i, nonsymCell_eq]) _
  rw [e]
  obtain ⟨g1, g2, g3, g4, g5, g6, g7⟩ := Galerkin.csr_adds (cells.flatMap fun i => rectItems n1 n2 (dofs1.getD i []) (dofs2.getD i []) (M i)) A hA hs (fun e he => by
    obtain ⟨i, hi, he⟩ := List.mem_flatMap.1 he
    unfold rectItems at he
    obtain ⟨q, hq, he⟩ := List.mem_flatMap.1 he
    obtain ⟨j, hj, hq⟩ := List.mem_flatMap.1 hq
    obtain ⟨k, hk, rfl⟩ := List.mem_map.1 hq
    split at he
    · cases he
    · rw [List.mem_singleton] at he
      subst he
      rename_i hn _
      have := getD_lt (h1 i hi) (h2 i hi) j (List.mem_range.1 hj)
      change ¬((dofs1.getD i []).getD j 0 < 0 ∨ (dofs2.getD i []).getD k 0 < 0) at hn
      show ((dofs1.getD i []).getD j 0).toNat < A.numRows
      omega)
  refine ⟨⟨g1, g2, g3, g4, g5, g6⟩, fun I J hI => ⟨fun hst => ?_, (g7 I J hI).2⟩⟩
  rw [(g7 I J hI).1 hst, Galerkin.contrib_flatMap']
  congr 1
  exact sum_congr_mem _ _ _ fun i hi => contrib_rect n1 n2 _ _ (M i) I J

/-! ### matrices from new patterns -/

open PyNucleus.AssemblyPattern (build buildNonSymmetric)
open PyNucleus.Props.C40 (IsPattern Coupled Sane)

private theorem csrRow_map {α β : Type} (f : α → β) (p : List Nat) (l : List α) (i : Nat) : csrRow p (l.map f) i = (csrRow p l i).map f := by
  unfold csrRow
  rw [List.map_take, List.map_drop]

private theorem zero_spec [AddCommMonoid K] (n m : Nat) (p : List Nat × List Int) (P : Nat → Int → Prop) (h : IsPattern n p P) (hP : ∀ I J, I < n → P I J → 0 ≤ J ∧ J < m) :
    (zeroCSR n m p : CSR K).Valid ∧ (zeroCSR n m p : CSR K).Sorted ∧ (∀ I J, I < n → (Stored (zeroCSR n m p : CSR K) I J ↔ P I J)) ∧
      ∀ I J, (zeroCSR n m p : CSR K).entry I J = 0 := by
  have hall : ∀ J ∈ p.2, 0 ≤ J ∧ J < m := by
    intro J hJ
    rw [← CSR.flatMap_csrRow _ _ _ h.indptr] at hJ
    obtain ⟨I, hI, hJ⟩ := List.mem_flatMap.1 hJ
    exact hP I J (List.mem_range.1 hI) ((h.entries I (List.mem_range.1 hI) J).1 hJ)
  have hv : (zeroCSR n m p : CSR K).Valid := by
    refine ⟨?_, ?_, ?_⟩
    · show ValidIndptr p.1 n (p.2.map Int.toNat).length
      rw [List.length_map]; exact h.indptr
    · show (List.replicate p.2.length (0 : K)).length = (p.2.map Int.toNat).length
      rw [List.length_replicate, List.length_map]
    · intro j hj
      obtain ⟨J, hJ, rfl⟩ := List.mem_map.1 hj
      have := hall J hJ
      show J.toNat < m
      omega
  have hrow : ∀ I, ((zeroCSR n m p : CSR K).row I).map Prod.fst = (csrRow p.1 p.2 I).map Int.toNat := fun I => by
    rw [CSR.row_fst _ hv]
    exact csrRow_map _ _ _ _
  refine ⟨hv, fun I hI => ?_, fun I J hI => ?_, fun I J => ?_⟩
  · have hs := h.sorted I hI
    rw [hrow, List.pairwise_map]
    refine hs.imp_of_mem fun {a b} ha hb hab => ?_
    have h1 := hP I a hI ((h.entries I hI a).1 ha)
    omega
  · unfold Stored
    rw [hrow, List.mem_map]
    constructor
    · rintro ⟨J', hJ', rfl⟩
      have h1 := (h.entries I hI J').1 hJ'
      rw [Int.toNat_of_nonneg (hP I J' hI h1).1]
      exact h1
    · intro hp
      exact ⟨J, (h.entries I hI J).2 hp, by simp⟩
  · unfold CSR.entry
    refine List.sum_eq_zero fun v hv => ?_
    obtain ⟨e, he, rfl⟩ := List.mem_map.1 hv
    have he := (List.mem_filter.1 he).1
    unfold CSR.row csrRow at he
    have he := List.mem_of_mem_drop (List.mem_of_mem_take he)
    exact List.eq_of_mem_replicate (List.of_mem_zip he).2

private theorem total_zero [AddCommMonoid K] (n1 n2 : Nat) (dofs1 dofs2 : List (List Int)) (M : Nat → Nat → Nat → K) (start stop I J : Nat)
    (h1 : ∀ i ∈ List.range' start (stop - start), (dofs1.getD i []).length = n1) (h2 : ∀ i ∈ List.range' start (stop - start), (dofs2.getD i []).length = n2)
    (hc : ¬ Coupled dofs1 dofs2 start stop I J) : total n1 n2 dofs1 dofs2 M (List.range' start (stop - start)) I J = 0 := by
  unfold total
  refine List.sum_eq_zero fun v hv => ?_
  obtain ⟨i, hi, rfl⟩ := List.mem_map.1 hv
  have hi' := List.mem_range'_1.1 hi
  refine Finset.sum_eq_zero fun j hj => Finset.sum_eq_zero fun k hk => if_neg fun ⟨e1, e2⟩ => hc ?_
  have l1 := h1 i hi
  have l2 := h2 i hi
  rw [Finset.mem_range] at hj hk
  rw [List.getD_eq_getElem _ _ (by omega)] at e1 e2
  exact ⟨i, by omega, by omega, e1 ▸ List.getElem_mem _, e2 ▸ List.getElem_mem _⟩

/-- New pattern without renumbering: all entries of the matrix. -/
theorem assemble_csr_partial [AddCommMonoid K] (n : Nat) (dofs : List (List Int)) (numDofs start stop : Nat) (M : Nat → Nat → Nat → K) (loc : Nat → List K) (hl : IsLocal n M loc)
    (h : Good n numDofs dofs (List.range' start (stop - start))) (hsane : Sane dofs dofs numDofs start stop) (perm : CSR.Graph → List Nat) (iperm : List Nat) :
    ∃ A, assembleCSR n dofs numDofs start stop false perm iperm loc = some (A, dofs) ∧ A.Valid ∧ A.Sorted ∧ A.numRows = numDofs ∧ A.numCols = numDofs ∧
      ∀ I J, I < numDofs → A.entry I J = total n n dofs dofs M (List.range' start (stop - start)) I J := by
  obtain ⟨p, hb, hp⟩ := C40.pattern_of_cells dofs numDofs start stop false hsane perm iperm
  obtain ⟨z1, z2, z3, z4⟩ := zero_spec (K := K) numDofs numDofs p _ hp (fun I J hI hP => by
    obtain ⟨⟨i, a1, a2, -, a3⟩, h0, -⟩ := hP
    exact ⟨h0, hsane.range i a1 a2 J a3⟩)
  obtain ⟨⟨c1, c2, -, -, c5, c6⟩, c7⟩ := csr_sum_partial n dofs M loc hl _ (zeroCSR numDofs numDofs p) z1 z2 h
  refine ⟨_, by unfold assembleCSR; rw [hb]; rfl, c1, c2, c5, c6, fun I J hI => ?_⟩
  by_cases hst : Stored (zeroCSR numDofs numDofs p : CSR K) I J
  · rw [(c7 I J hI).1 hst, z4, zero_add]
  · rw [(c7 I J hI).2 hst, z4, total_zero n n dofs dofs M start stop I J h.length h.length]
    exact fun hc => hst ((z3 I J hI).2 ⟨hc, by omega, by simp⟩)

/-- New pattern in symmetric storage. -/
theorem assemble_sss_partial [AddCommMonoid K] (n : Nat) (dofs : List (List Int)) (numDofs start stop : Nat) (M : Nat → Nat → Nat → K) (loc : Nat → List K) (hl : IsLocal n M loc)
    (h : Good n numDofs dofs (List.range' start (stop - start))) (hsane : Sane dofs dofs numDofs start stop) (perm : CSR.Graph → List Nat) (iperm : List Nat) :
    ∃ S, assembleSSS n dofs numDofs start stop false perm iperm loc = some (S, dofs) ∧ S.Valid ∧ S.n = numDofs ∧
      ∀ I J, I < numDofs → J < numDofs → S.entry I J = total n n dofs dofs M (List.range' start (stop - start)) I J := by
  obtain ⟨p, hb, hp⟩ := C40.pattern_of_cells dofs numDofs start stop true hsane perm iperm
  obtain ⟨z1, z2, z3, z4⟩ := zero_spec (K := K) numDofs numDofs p _ hp (fun I J hI hP => by
    obtain ⟨⟨i, a1, a2, -, a3⟩, h0, -⟩ := hP
    exact ⟨h0, hsane.range i a1 a2 J a3⟩)
  have hlow : (zeroSSS numDofs p : SSS K).lower = zeroCSR numDofs numDofs p := rfl
  have hS : (zeroSSS numDofs p : SSS K).Valid := by
    refine ⟨z1.indptr, z1.data, by show (List.replicate _ _).length = _; rw [List.length_replicate]; rfl, fun i hi e he => ?_⟩
    rw [hlow] at he
    have := (z3 i e.1 hi).1 (List.mem_map_of_mem he)
    have := this.2.2 rfl
    omega
  obtain ⟨c1, ⟨-, -, -, -, c5, -⟩, c7⟩ := sss_sum_partial n dofs M loc hl _ (zeroSSS numDofs p) hS z2 h
  refine ⟨_, by unfold assembleSSS; rw [hb]; rfl, c1, c5, fun I J hI hJ => ?_⟩
  have hz : (zeroSSS numDofs p : SSS K).entry I J = 0 := by
    unfold SSS.entry
    split
    · show (List.replicate numDofs (0 : K)).getD I 0 = 0
      simp [List.getD_eq_getElem?_getD, List.getElem?_replicate]
      split <;> rfl
    · split <;> rw [hlow, z4]
  by_cases hst : I = J ∨ Stored (zeroSSS numDofs p : SSS K).lower (max I J) (min I J)
  · rw [(c7 I J hI hJ).1 hst, hz, zero_add]
  · rw [(c7 I J hI hJ).2 hst, hz, total_zero n n dofs dofs M start stop I J h.length h.length]
    rintro ⟨i, a1, a2, a3, a4⟩
    refine hst ?_
    by_cases e : I = J
    · exact Or.inl e
    · refine Or.inr ((z3 _ _ (by omega)).2 ⟨?_, by omega, fun _ => by omega⟩)
      rcases Nat.lt_or_ge I J with hlt | hge
      · rw [max_eq_right (by omega), min_eq_left (by omega)]; exact ⟨i, a1, a2, a4, a3⟩
      · rw [max_eq_left (by omega), min_eq_right (by omega)]; exact ⟨i, a1, a2, a3, a4⟩

/-- Two maps. -/
theorem assemble_nonsym [AddCommMonoid K] (n1 n2 : Nat) (dofs1 dofs2 : List (List Int)) (num1 num2 start stop : Nat) (M : Nat → Nat → Nat → K) (loc : Nat → List K) (hl : IsFull n1 n2 M loc)
    (h1 : ∀ i, start ≤ i → i < stop → (dofs1.getD i []).length = n1) (h2 : ∀ i, start ≤ i → i < stop → (dofs2.getD i []).length = n2)
    (h3 : ∀ i, start ≤ i → i < stop → ∀ d ∈ dofs2.getD i [], d < num2) (hsane : Sane dofs1 dofs2 num1 start stop) :
    ∃ A, assembleNonSym n1 n2 dofs1 dofs2 num1 num2 start stop loc = some A ∧ A.Valid ∧ A.Sorted ∧ A.numRows = num1 ∧ A.numCols = num2 ∧
      ∀ I J, I < num1 → A.entry I J = total n1 n2 dofs1 dofs2 M (List.range' start (stop - start)) I J := by
  have hm : ∀ i ∈ List.range' start (stop - start), start ≤ i ∧ i < stop := fun i hi => by have := List.mem_range'_1.1 hi; omega
  obtain ⟨p, hb, hp⟩ := C40.nonsymmetric_pattern dofs1 dofs2 num1 start stop hsane
  obtain ⟨z1, z2, z3, z4⟩ := zero_spec (K := K) num1 num2 p _ hp (fun I J hI hP => by
    obtain ⟨⟨i, a1, a2, -, a3⟩, h0⟩ := hP
    exact ⟨h0, h3 i a1 a2 J a3⟩)
  obtain ⟨⟨c1, c2, -, -, c5, c6⟩, c7⟩ := nonsym_sum n1 n2 dofs1 dofs2 M loc hl (List.range' start (stop - start)) (zeroCSR num1 num2 p) z1 z2
    (fun i hi => h1 i (hm i hi).1 (hm i hi).2) (fun i hi => hsane.range i (hm i hi).1 (hm i hi).2)
  refine ⟨_, by unfold assembleNonSym; rw [hb]; rfl, c1, c2, c5, c6, fun I J hI => ?_⟩
  by_cases hst : Stored (zeroCSR num1 num2 p : CSR K) I J
  · rw [(c7 I J hI).1 hst, z4, zero_add]
  · rw [(c7 I J hI).2 hst, z4, total_zero n1 n2 dofs1 dofs2 M start stop I J (fun i hi => h1 i (hm i hi).1 (hm i hi).2) (fun i hi => h2 i (hm i hi).1 (hm i hi).2)]
    exact fun hc => hst ((z3 I J hI).2 ⟨hc, by omega⟩)

/-! ### renumbering -/

private theorem reorder_good (n numDofs : Nat) (dofs : List (List Int)) (cells : List Nat) (h : Good n numDofs dofs cells) (q : List Int)
    (hq : q.Perm ((List.range numDofs).map fun k : Nat => (k : Int))) : Good n numDofs (DoFMap.reorder dofs q) cells ∧
      ∀ i ∈ cells, ∀ j, j < n → ∀ I, I < numDofs → (((DoFMap.reorder dofs q).getD i []).getD j 0 = q.getD I 0 ↔ (dofs.getD i []).getD j 0 = I) := by
  have hlen : q.length = numDofs := by rw [hq.length_eq]; simp
  have hnd : q.Nodup := hq.nodup_iff.2 (List.nodup_range.map fun a b e => by exact_mod_cast e)
  have hmem : ∀ k, k < numDofs → 0 ≤ q.getD k 0 ∧ q.getD k 0 < numDofs := fun k hk => by
    rw [List.getD_eq_getElem _ _ (by omega)]
    obtain ⟨a, ha, e⟩ := List.mem_map.1 (hq.mem_iff.1 (List.getElem_mem (l := q) (n := k) (by omega)))
    rw [← e]
    have := List.mem_range.1 ha
    omega
  have hinj : ∀ a b, a < numDofs → b < numDofs → q.getD a 0 = q.getD b 0 → a = b := fun a b ha hb e => by
    rw [List.getD_eq_getElem _ _ (by omega), List.getD_eq_getElem _ _ (by omega)] at e
    exact (List.Nodup.getElem_inj_iff hnd).1 e
  have hrow : ∀ i ∈ cells, (DoFMap.reorder dofs q).getD i [] = (dofs.getD i []).map fun d => if 0 ≤ d then q.getD d.toNat 0 else d := fun i _ => by
    unfold DoFMap.reorder
    by_cases hi : i < dofs.length
    · rw [List.getD_eq_getElem _ _ (by rw [List.length_map]; exact hi), List.getElem_map, List.getD_eq_getElem _ _ hi]
    · rw [List.getD_eq_default _ _ (by rw [List.length_map]; omega), List.getD_eq_default _ _ (by omega)]; rfl
  have hget : ∀ i ∈ cells, ∀ j, j < n → ((DoFMap.reorder dofs q).getD i []).getD j 0 =
      if 0 ≤ (dofs.getD i []).getD j 0 then q.getD ((dofs.getD i []).getD j 0).toNat 0 else (dofs.getD i []).getD j 0 := fun i hi j hj => by
    rw [hrow i hi]
    have hl := h.length i hi
    rw [List.getD_eq_getElem _ _ (by rw [List.length_map]; omega), List.getElem_map, List.getD_eq_getElem (dofs.getD i []) _ (show j < (dofs.getD i []).length by omega)]
  have hlt : ∀ i ∈ cells, ∀ j, j < n → (dofs.getD i []).getD j 0 < numDofs := fun i hi j hj => getD_lt (h.length i hi) (h.lt i hi) j hj
  refine ⟨⟨fun i hi => by rw [hrow i hi, List.length_map]; exact h.length i hi, fun i hi d hd => ?_, fun i hi j k hj hk h0 he => ?_⟩, fun i hi j hj I hI => ?_⟩
  · rw [hrow i hi] at hd
    obtain ⟨e, he, rfl⟩ := List.mem_map.1 hd
    have := h.lt i hi e he
    split
    · exact (hmem e.toNat (by omega)).2
    · exact this
  · rw [hget i hi j hj] at h0 he
    rw [hget i hi k hk] at he
    have l1 := hlt i hi j hj
    have l2 := hlt i hi k hk
    by_cases p1 : 0 ≤ (dofs.getD i []).getD j 0
    · rw [if_pos p1] at h0 he
      by_cases p2 : 0 ≤ (dofs.getD i []).getD k 0
      · rw [if_pos p2] at he
        have := hinj _ _ (by omega) (by omega) he
        exact h.distinct i hi j k hj hk p1 (by omega)
      · rw [if_neg p2] at he; omega
    · rw [if_neg p1] at h0; omega
  · rw [hget i hi j hj]
    have l1 := hlt i hi j hj
    by_cases p1 : 0 ≤ (dofs.getD i []).getD j 0
    · rw [if_pos p1]
      constructor
      · intro e
        have := hinj _ _ (by omega) hI e
        omega
      · intro e
        rw [e, Int.toNat_natCast]
    · rw [if_neg p1]
      have := hmem I hI
      constructor <;> intro e <;> omega

/-- With renumbering by any permutation: `q` contains the new numbers, and the entry of the new numbers of `I` and `J` is the sum of the contributions to
`I` and `J`. -/
theorem assemble_reordered_partial [AddCommMonoid K] (n : Nat) (dofs : List (List Int)) (numDofs start stop : Nat) (M : Nat → Nat → Nat → K) (loc : Nat → List K) (hl : IsLocal n M loc)
    (h : Good n numDofs dofs (List.range' start (stop - start))) (hsane : Sane dofs dofs numDofs start stop) (perm : CSR.Graph → List Nat)
    (hperm : ∀ G, C18.WellFormed G → G.numRows = numDofs → (perm G).Perm (List.range numDofs)) (iperm : List Nat) (hi : iperm.length = numDofs) :
    ∃ A q, assembleCSR n dofs numDofs start stop true perm iperm loc = some (A, DoFMap.reorder dofs q) ∧ A.Valid ∧ A.Sorted ∧ A.numRows = numDofs ∧ A.numCols = numDofs ∧
      q.Perm ((List.range numDofs).map fun k : Nat => (k : Int)) ∧
      ∀ I J, I < numDofs → J < numDofs → A.entry (q.getD I 0).toNat (q.getD J 0).toNat = total n n dofs dofs M (List.range' start (stop - start)) I J := by
  obtain ⟨p, dofs', hb, ⟨q, hq, rfl⟩, hp⟩ := C40.reordered_pattern dofs numDofs start stop false hsane perm hperm iperm hi
  obtain ⟨hg, hiff⟩ := reorder_good n numDofs dofs _ h q hq
  have hmr : ∀ i, start ≤ i → i < stop → i ∈ List.range' start (stop - start) := fun i h1 h2 => List.mem_range'_1.2 (by omega)
  obtain ⟨z1, z2, z3, z4⟩ := zero_spec (K := K) numDofs numDofs p _ hp (fun I J hI hP => by
    obtain ⟨⟨i, a1, a2, -, a3⟩, h0, -⟩ := hP
    exact ⟨h0, hg.lt i (hmr i a1 a2) J a3⟩)
  obtain ⟨⟨c1, c2, -, -, c5, c6⟩, c7⟩ := csr_sum_partial n (DoFMap.reorder dofs q) M loc hl _ (zeroCSR numDofs numDofs p) z1 z2 hg
  refine ⟨_, q, by unfold assembleCSR; rw [hb]; rfl, c1, c2, c5, c6, hq, fun I J hI hJ => ?_⟩
  have hlen : q.length = numDofs := by rw [hq.length_eq]; simp
  have hmem : ∀ k, k < numDofs → 0 ≤ q.getD k 0 ∧ q.getD k 0 < numDofs := fun k hk => by
    rw [List.getD_eq_getElem _ _ (by omega)]
    obtain ⟨a, ha, e⟩ := List.mem_map.1 (hq.mem_iff.1 (List.getElem_mem (l := q) (n := k) (by omega)))
    rw [← e]
    have := List.mem_range.1 ha
    omega
  have m1 := hmem I hI
  have m2 := hmem J hJ
  have htot : total n n (DoFMap.reorder dofs q) (DoFMap.reorder dofs q) M (List.range' start (stop - start)) (q.getD I 0).toNat (q.getD J 0).toNat =
      total n n dofs dofs M (List.range' start (stop - start)) I J := by
    unfold total
    refine sum_congr_mem _ _ _ fun i hi => Finset.sum_congr rfl fun j hj => Finset.sum_congr rfl fun k hk => ?_
    rw [Int.toNat_of_nonneg m1.1, Int.toNat_of_nonneg m2.1]
    exact if_congr (and_congr (hiff i hi j (Finset.mem_range.1 hj) I hI) (hiff i hi k (Finset.mem_range.1 hk) J hJ)) rfl rfl
  rw [← htot]
  by_cases hst : Stored (zeroCSR numDofs numDofs p : CSR K) (q.getD I 0).toNat (q.getD J 0).toNat
  · rw [(c7 _ _ (by show _ < numDofs; omega)).1 hst, z4, zero_add]
  · rw [(c7 _ _ (by show _ < numDofs; omega)).2 hst, z4, total_zero n n _ _ M start stop _ _ hg.length hg.length]
    exact fun hc => hst ((z3 _ _ (by omega)).2 ⟨hc, by omega, by simp⟩)

/-! ### full local matrices and setting of entries -/

/-- `symLocalMatrix` with equal numbers of local dofs: `contrib` is filled completely, whatever it contained. -/
theorem nonsym_symlocal [AddCommMonoid K] (n : Nat) (dofs1 dofs2 : List (List Int)) (M : Nat → Nat → Nat → K) (loc : Nat → List K) (hl : IsLocal n M loc) (cells : List Nat) (contrib : List K)
    (hc : contrib.length = n * n) (A : CSR K) (hv : A.Valid) (hs : A.Sorted) (h1 : ∀ i ∈ cells, (dofs1.getD i []).length = n)
    (h2 : ∀ i ∈ cells, ∀ d ∈ dofs1.getD i [], d < A.numRows) :
    let B := nonsymCSRfull n n dofs1 dofs2 loc cells contrib A
    SamePattern A B ∧ ∀ I J, I < A.numRows → (Stored A I J → B.entry I J = A.entry I J + total n n dofs1 dofs2 M cells I J) ∧
      (¬ Stored A I J → B.entry I J = A.entry I J) := by
  have key : ∀ (cells : List Nat) (contrib : List K) (A : CSR K), contrib.length = n * n → nonsymCSRfull n n dofs1 dofs2 loc cells contrib A =
      nonsymCSR n n dofs1 dofs2 (fun i => (List.range n).flatMap fun j => (List.range n).map fun k => M i j k) cells A := by
    intro cells
    induction cells with
    | nil => intro _ _ _; rfl
    | cons i t ih =>
      intro contrib A hc
      have e := fullLocal_eq n (M i) (hl.1 i) contrib hc
      have hlen := (rowMajor_getD n (M i)).1
      have := ih (fullLocal n n (loc i) contrib) (nonsymCell CSR.addToEntry n n (dofs1.getD i []) (dofs2.getD i []) (fullLocal n n (loc i) contrib) A) (by rw [hl.2 i, e, hlen])
      unfold nonsymCSRfull nonsymCSR at this ⊢
      rw [List.foldl_cons, List.foldl_cons]
      dsimp only at this ⊢
      rw [this, hl.2 i, e]
  intro B
  have hB : B = _ := key cells contrib A hc
  rw [hB]
  exact nonsym_sum n n dofs1 dofs2 M _ (fun i => rfl) cells A hv hs h1 h2

private theorem same_refl (A : CSR K) (hv : A.Valid) (hs : A.Sorted) : SamePattern A A := ⟨hv, hs, rfl, rfl, rfl, rfl⟩

private theorem set_items [AddCommMonoid K] (V : Nat → Nat → K) : ∀ (l : List (Nat × Nat × K)) (A : CSR K), A.Valid → A.Sorted → (∀ e ∈ l, e.1 < A.numRows ∧ Stored A e.1 e.2.1 ∧ e.2.2 = V e.1 e.2.1) →
    ∃ B, l.foldl (fun A e => A.bind fun A => CSR.setEntry A e.1 e.2.1 e.2.2) (some A) = some B ∧ SamePattern A B ∧
      ∀ I J, I < A.numRows → ((∃ e ∈ l, e.1 = I ∧ e.2.1 = J) → B.entry I J = V I J) ∧ ((¬ ∃ e ∈ l, e.1 = I ∧ e.2.1 = J) → B.entry I J = A.entry I J) := by
  intro l
  induction l with
  | nil => intro A hv hs _; exact ⟨A, rfl, same_refl A hv hs, fun I J _ => ⟨fun ⟨_, he, _⟩ => absurd he List.not_mem_nil, fun _ => rfl⟩⟩
  | cons e t ih =>
    intro A hv hs h
    obtain ⟨e1, e2, e3⟩ := h e List.mem_cons_self
    obtain ⟨C, c1, c2, c3, c4, c5, c6, c7, c8⟩ := C12.setEntry_correct A hv hs e.1 e.2.1 e1 e.2.2 e2
    have hst : ∀ I J, Stored A I J → Stored C I J := fun I J hh => by
      unfold Stored at hh ⊢
      rw [CSR.row_fst _ hv] at hh
      rw [CSR.row_fst _ c2, c4, c5]
      exact hh
    obtain ⟨B, b1, ⟨b2, b3, b4, b5, b6, b7⟩, b8⟩ := ih C c2 c3 (fun a ha => by
      obtain ⟨g1, g2, g3⟩ := h a (List.mem_cons_of_mem _ ha)
      exact ⟨by rw [c6]; exact g1, hst _ _ g2, g3⟩)
    refine ⟨B, ?_, ⟨b2, b3, b4.trans c4, b5.trans c5, b6.trans c6, b7.trans c7⟩, fun I J hI => ⟨?_, ?_⟩⟩
    · rw [List.foldl_cons, Option.bind_some, c1]; exact b1
    · rintro ⟨a, ha, e4⟩
      by_cases ht : ∃ a ∈ t, a.1 = I ∧ a.2.1 = J
      · exact (b8 I J (by rw [c6]; exact hI)).1 ht
      · rw [(b8 I J (by rw [c6]; exact hI)).2 ht, c8 I J hI]
        rcases List.mem_cons.1 ha with rfl | ha
        · rw [if_pos ⟨e4.1.symm, e4.2.symm⟩, e3, e4.1, e4.2]
        · exact absurd ⟨a, ha, e4⟩ ht
    · intro hn
      rw [(b8 I J (by rw [c6]; exact hI)).2 (fun ⟨a, ha, hh⟩ => hn ⟨a, List.mem_cons_of_mem _ ha, hh⟩), c8 I J hI, if_neg]
      rintro ⟨rfl, rfl⟩
      exact hn ⟨e, List.mem_cons_self, rfl, rfl⟩

/-- Without `additiveAssembly`: if the local matrices agree on common entries, these are the entries of the matrix; the other entries are kept. -/
theorem nonsym_set [AddCommMonoid K] (n1 n2 : Nat) (dofs1 dofs2 : List (List Int)) (M : Nat → Nat → Nat → K) (loc : Nat → List K) (hl : IsFull n1 n2 M loc) (V : Nat → Nat → K) (cells : List Nat) (A : CSR K)
    (hv : A.Valid) (hs : A.Sorted)
    (h : ∀ i ∈ cells, ∀ j < n1, ∀ k < n2, ∀ I J : Nat, (dofs1.getD i []).getD j 0 = I → (dofs2.getD i []).getD k 0 = J → I < A.numRows ∧ Stored A I J ∧ M i j k = V I J) :
    ∃ B, setCSR n1 n2 dofs1 dofs2 loc cells A = some B ∧ SamePattern A B ∧ ∀ I J : Nat, I < A.numRows →
      ((∃ i ∈ cells, ∃ j < n1, ∃ k < n2, (dofs1.getD i []).getD j 0 = I ∧ (dofs2.getD i []).getD k 0 = J) → B.entry I J = V I J) ∧
      ((¬ ∃ i ∈ cells, ∃ j < n1, ∃ k < n2, (dofs1.getD i []).getD j 0 = I ∧ (dofs2.getD i []).getD k 0 = J) → B.entry I J = A.entry I J) := by
  have hitem : ∀ e, e ∈ (cells.flatMap fun i => rectItems n1 n2 (dofs1.getD i []) (dofs2.getD i []) (M i)) ↔
      ∃ i ∈ cells, ∃ j < n1, ∃ k < n2, (dofs1.getD i []).getD j 0 = e.1 ∧ (dofs2.getD i []).getD k 0 = e.2.1 ∧ e.2.2 = M i j k := by
    intro e
    unfold rectItems
    simp only [List.mem_flatMap, List.mem_map, List.mem_range]
    constructor
    · rintro ⟨i, hi, q, ⟨j, hj, k, hk, rfl⟩, he⟩
      dsimp only at he
      split at he
      · cases he
      · rename_i hn
        rw [List.mem_singleton] at he
        subst he
        refine ⟨i, hi, j, hj, k, hk, ?_, ?_, rfl⟩ <;> dsimp only <;> omega
    · rintro ⟨i, hi, j, hj, k, hk, h1, h2, h3⟩
      refine ⟨i, hi, (j, k), ⟨j, hj, k, hk, rfl⟩, ?_⟩
      dsimp only
      rw [if_neg (by omega), List.mem_singleton, h1, h2, Int.toNat_natCast, Int.toNat_natCast, ← h3]
  obtain ⟨B, b1, b2, b3⟩ := set_items V (cells.flatMap fun i => rectItems n1 n2 (dofs1.getD i []) (dofs2.getD i []) (M i)) A hv hs (fun e he => by
    obtain ⟨i, hi, j, hj, k, hk, h1, h2, h3⟩ := (hitem e).1 he
    obtain ⟨g1, g2, g3⟩ := h i hi j hj k hk _ _ h1 h2
    exact ⟨g1, g2, h3.trans g3⟩)
  have hex : ∀ I J : Nat, (∃ e ∈ (cells.flatMap fun i => rectItems n1 n2 (dofs1.getD i []) (dofs2.getD i []) (M i)), e.1 = I ∧ e.2.1 = J) ↔
      ∃ i ∈ cells, ∃ j < n1, ∃ k < n2, (dofs1.getD i []).getD j 0 = I ∧ (dofs2.getD i []).getD k 0 = J := by
    intro I J
    constructor
    · rintro ⟨e, he, rfl, rfl⟩
      obtain ⟨i, hi, j, hj, k, hk, h1, h2, -⟩ := (hitem e).1 he
      exact ⟨i, hi, j, hj, k, hk, h1, h2⟩
    · rintro ⟨i, hi, j, hj, k, hk, h1, h2⟩
      exact ⟨(I, J, M i j k), (hitem _).2 ⟨i, hi, j, hj, k, hk, h1, h2, rfl⟩, rfl, rfl⟩
  refine ⟨B, ?_, b2, fun I J hI => ?_⟩
  · rw [← b1]
    unfold setCSR
    rw [Galerkin.foldl_flatMap']
    congr 1
    funext s i
    rw [hl i, nonsymCell_eq]
  · rw [← hex]; exact b3 I J hI

/-! ### matrix-free -/

private theorem items_bound {n N : Nat} {dofs : List (List Int)} {cells : List Nat} (h : Good n N dofs cells) (M : Nat → Nat → Nat → K) :
    ∀ e ∈ (cells.flatMap fun i => cellItems symPairs n (dofs.getD i []) (M i)), e.1 < N ∧ e.2.1 < N := by
  intro e he
  obtain ⟨i, hi, he⟩ := List.mem_flatMap.1 he
  exact items_lt symPairs_lt (good_row h i hi) (M i) e he

/-- The product of the matrix-free operator with a vector, added to `y` and written over it. -/
theorem matrix_free_partial [Ring K] (n : Nat) (dofs : List (List Int)) (numCells numDofs : Nat) (M : Nat → Nat → Nat → K) (loc : Nat → List K) (hl : IsLocal n M loc)
    (h : Good n numDofs dofs (List.range numCells)) (x y : List K) (hy : y.length = numDofs) :
    (matrixFree n dofs loc numCells x y).length = numDofs ∧ (matrixFreeMatvec n dofs loc numCells numDofs x y).length = numDofs ∧
    ∀ I, I < numDofs →
      (matrixFree n dofs loc numCells x y).getD I 0 = y.getD I 0 + ∑ J ∈ Finset.range numDofs, total n n dofs dofs M (List.range numCells) I J * x.getD J 0 ∧
      (matrixFreeMatvec n dofs loc numCells numDofs x y).getD I 0 = ∑ J ∈ Finset.range numDofs, total n n dofs dofs M (List.range numCells) I J * x.getD J 0 := by
  have hb := items_bound h M
  have key : ∀ y : List K, y.length = numDofs → (matrixFree n dofs loc numCells x y).length = numDofs ∧ ∀ I,
      (matrixFree n dofs loc numCells x y).getD I 0 = y.getD I 0 + ∑ J ∈ Finset.range numDofs, total n n dofs dofs M (List.range numCells) I J * x.getD J 0 := by
    intro y hy
    rw [matrixFree_eq n dofs M loc hl.2]
    obtain ⟨g1, g2⟩ := modify_fold numDofs x _ y (fun e he => by rw [hy]; exact hb e he)
    refine ⟨g1.trans hy, fun I => ?_⟩
    rw [g2 I]
    refine congrArg _ (Finset.sum_congr rfl fun J _ => ?_)
    rw [contrib_total n numDofs dofs M hl.1 _ h I J]
  have hz : (List.replicate numDofs (0 : K)).length = numDofs := List.length_replicate
  unfold matrixFreeMatvec
  rw [clear numDofs y hy]
  refine ⟨(key y hy).1, (key _ hz).1, fun I hI => ⟨(key y hy).2 I, ?_⟩⟩
  rw [(key _ hz).2 I, List.getD_replicate _ hI, zero_add]

/-- Its diagonal. -/
theorem matrix_free_diagonal_partial [Ring K] (n : Nat) (dofs : List (List Int)) (numCells numDofs : Nat) (M : Nat → Nat → Nat → K) (loc : Nat → List K) (hl : IsLocal n M loc)
    (h : Good n numDofs dofs (List.range numCells)) :
    (matrixFreeDiagonal n dofs loc numCells numDofs).length = numDofs ∧
      ∀ I, I < numDofs → (matrixFreeDiagonal n dofs loc numCells numDofs).getD I 0 = total n n dofs dofs M (List.range numCells) I I := by
  have hb := items_bound h M
  rw [diagonal_eq n dofs M loc hl.2]
  obtain ⟨g1, g2⟩ := diag_fold _ (List.replicate numDofs (0 : K)) (fun e he => by rw [List.length_replicate]; exact (hb e he).1)
  refine ⟨g1.trans List.length_replicate, fun I hI => ?_⟩
  rw [g2 I, contrib_total n numDofs dofs M hl.1 _ h I I, List.getD_replicate _ hI, zero_add]

/-! ### the mass matrix -/

section
open PyNucleus.LocalMatrices PyNucleus.SimplexGeometry PyNucleus.ShapeFunctions PyNucleus.Props.C56 MvPolynomial
open PyNucleus.Props.C55 (IsShape)
open PyNucleus.Simplex (IsGradient inner mean)

/-- The assembled mass matrix of Lagrange elements consists of the integrals of products of shape functions, summed over the cells; `x i` are the vertices of
cell `i`, the factor `1 + ε` comes from the literals in the code. -/
theorem mass_matrix_partial [Field K] [LinearOrder K] [IsStrictOrderedRing K] (p d : Nat) (hp : p ≤ 3) (h1 : 1 ≤ d) (h3 : d ≤ 3) :
    ∃ ε : ℚ, |ε| ≤ 1 / 10 ^ 14 ∧ ∀ (f : Nat → MvPolynomial (Fin (d + 1)) ℚ), IsShape p d f → ∀ (x : Nat → Nat → Nat → K) (dofs : List (List Int)) (numDofs start stop : Nat),
      Good (localShapeFunctions p d).length numDofs dofs (List.range' start (stop - start)) → Sane dofs dofs numDofs start stop → ∀ perm iperm,
      ∃ A, assembleCSR (localShapeFunctions p d).length dofs numDofs start stop false perm iperm
          (fun i => evalMass (mass p d) (if d = 1 then simplexVolume1D (x i) else if d = 2 then simplexVolume2D (x i) else simplexVolume3D (x i))) = some (A, dofs) ∧
        ∀ I J, I < numDofs → A.entry I J = total (localShapeFunctions p d).length (localShapeFunctions p d).length dofs dofs
          (fun i j k => ((1 + ε : ℚ) : K) * (|edgeDet d (x i)| / d.factorial * ((mean d (f j * f k) : ℚ) : K))) (List.range' start (stop - start)) I J := by
  obtain ⟨ε, hε, hall⟩ := C56.mass_integral (K := K) p d hp h1 h3
  refine ⟨ε, hε, fun f hf x dofs numDofs start stop hg hsane perm iperm => ?_⟩
  obtain ⟨A, a1, -, -, -, -, a2⟩ := assemble_csr_partial (localShapeFunctions p d).length dofs numDofs start stop
    (fun i j k => ((1 + ε : ℚ) : K) * (|edgeDet d (x i)| / d.factorial * ((mean d (f j * f k) : ℚ) : K))) _
    ⟨fun i j k => by dsimp only; rw [mul_comm (f j)], fun i => hall (x i) f hf⟩ hg hsane perm iperm
  exact ⟨A, a1, a2⟩

/-- The assembled stiffness matrix in two and three dimensions; `g i k` is the gradient of the barycentric coordinate `k` of cell `i`. -/
theorem stiffness_matrix_partial [Field K] [LinearOrder K] [IsStrictOrderedRing K] (p d : Nat) (h0 : 1 ≤ p) (hp : p ≤ 3) (h2 : 2 ≤ d) (h3 : d ≤ 3) :
    ∃ ε : ℚ, |ε| ≤ 1 / 10 ^ 14 ∧ ∀ (f : Nat → MvPolynomial (Fin (d + 1)) ℚ), IsShape p d f → ∀ (x g : Nat → Nat → Nat → K), (∀ i, IsGradient d d (x i) (g i)) →
      ∀ (dofs : List (List Int)) (numDofs start stop : Nat),
      Good (localShapeFunctions p d).length numDofs dofs (List.range' start (stop - start)) → Sane dofs dofs numDofs start stop → ∀ perm iperm,
      ∃ A, assembleCSR (localShapeFunctions p d).length dofs numDofs start stop false perm iperm
          (fun i => let r := if d = 2 then simplexVolumeAndProducts2D (x i) else simplexVolumeAndProducts3D (x i); evalStiffness (stiffness p d) r.1 r.2) = some (A, dofs) ∧
        ∀ I J, I < numDofs → A.entry I J = total (localShapeFunctions p d).length (localShapeFunctions p d).length dofs dofs
          (fun i j k => ((1 + ε : ℚ) : K) * (|edgeDet d (x i)| / d.factorial *
            ∑ a : Fin (d + 1), ∑ b : Fin (d + 1), ((mean d (pderiv a (f j) * pderiv b (f k)) : ℚ) : K) * inner d (g i a) (g i b))) (List.range' start (stop - start)) I J := by
  obtain ⟨ε, hε, hall⟩ := C56.stiffness_integral (K := K) p d h0 hp h2 h3
  refine ⟨ε, hε, fun f hf x g hgr dofs numDofs start stop hg hsane perm iperm => ?_⟩
  have hin : ∀ u v : Nat → K, inner d u v = inner d v u := fun u v => by
    unfold inner; exact Finset.sum_congr rfl fun k _ => mul_comm _ _
  obtain ⟨A, a1, -, -, -, -, a2⟩ := assemble_csr_partial (localShapeFunctions p d).length dofs numDofs start stop
    (fun i j k => ((1 + ε : ℚ) : K) * (|edgeDet d (x i)| / d.factorial *
            ∑ a : Fin (d + 1), ∑ b : Fin (d + 1), ((mean d (pderiv a (f j) * pderiv b (f k)) : ℚ) : K) * inner d (g i a) (g i b))) _
    ⟨fun i j k => by
      dsimp only
      rw [Finset.sum_comm]
      refine congrArg _ (congrArg _ (Finset.sum_congr rfl fun a _ => Finset.sum_congr rfl fun b _ => ?_))
      rw [hin, mul_comm (pderiv b (f j))], fun i => hall (x i) (g i) f (hgr i) hf⟩ hg hsane perm iperm
  exact ⟨A, a1, a2⟩
end

/-! ### repeated dofs -/

deriving instance DecidableEq for CSR

/-- A cell with the same dof twice and the local matrix of ones: the entry should be 4. -/
theorem repeated_fails : ∃ A : CSR Int, assembleCSR 2 [[0, 0]] 1 0 1 false (fun _ => []) [] (fun _ => [1, 1, 1]) = some (A, [[0, 0]]) ∧
    IsLocal 2 (fun _ _ _ => (1 : Int)) (fun _ => [1, 1, 1]) ∧ total 2 2 [[0, 0]] [[0, 0]] (fun _ _ _ => (1 : Int)) [0] 0 0 = 4 ∧ A.entry 0 0 = 3 :=
  ⟨⟨[0, 1], [0], [3], 1, 1⟩, by decide +kernel, ⟨fun _ _ _ => rfl, fun _ => rfl⟩, by decide, by decide⟩

/-- Two cells, one boundary vertex. -/
example : Good 2 2 [[0, 1], [1, -1]] [0, 1] where
  length := by decide
  lt := by decide
  distinct := by
    intro i hi j k hj hk
    have hj' : j = 0 ∨ j = 1 := by omega
    have hk' : k = 0 ∨ k = 1 := by omega
    have hi' : i = 0 ∨ i = 1 := by simpa using hi
    rcases hi' with rfl | rfl <;> rcases hj' with rfl | rfl <;> rcases hk' with rfl | rfl <;> decide

example : IsLocal 2 (fun _ j k => if j = k then (1 : Int) else -1) (fun _ => [1, -1, 1]) :=
  ⟨fun _ j k => by simp only [eq_comm], fun _ => rfl⟩

example : assembleCSR 2 [[0, 1], [1, -1]] 2 0 2 false (fun _ => []) [] (fun _ => [1, -1, (1 : Int)]) =
    some (⟨[0, 2, 4], [0, 1, 0, 1], [1, -1, -1, 2], 2, 2⟩, [[0, 1], [1, -1]]) := by decide +kernel

end PyNucleus.Props.C57
