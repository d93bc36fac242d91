import Verif.Proof.SSS
import Verif.Props.C08
import Verif.Props.C12

/-!
# C11 Symmetric storage round trip

`S.entry` is the symmetric matrix described by the arrays (Spec.Symmetric).  Arrays `u`, `v`,
`dg` are the contents of uninitialised memory.

Full property: for every symmetric CSR matrix, `to_sss` keeps the matrix.  This is false when a
diagonal entry is not stored (`missing_diagonal_uninitialised`) or stored twice; the theorems
about `to_sss` assume exactly one stored diagonal entry per row.
-/

namespace PyNucleus.Props.C11

open PyNucleus.Spec PyNucleus.Loops PyNucleus.CSR PyNucleus.SSS

variable {K : Type}

/-- `matvec_no_overwrite` of symmetric storage adds the product with the full symmetric
matrix. -/
theorem matvec_no_overwrite_correct [CommSemiring K] (S : SSS K) (hS : S.Valid) (x y : List K)
    (hy : y.length = S.n) :
    (SSS.matvecNoOverwrite S x y).length = S.n ∧ ∀ i, i < S.n →
      (SSS.matvecNoOverwrite S x y).getD i 0 = y.getD i 0 + mulVec S.n S.entry x i := by
  have h := matvecNoOverwrite_rows S hS x y S.n (Nat.le_refl _)
  refine ⟨h.1.trans hy, fun i hi => ?_⟩
  rw [show SSS.matvecNoOverwrite S x y = _ from rfl, SSS.matvecNoOverwrite, h.2 i (by omega)]
  congr 1
  rw [Finset.sum_add_distrib, Finset.sum_ite_eq' (Finset.range S.n) i, if_pos (Finset.mem_range.2 hi)]
  unfold mulVec
  have e : ∀ k ∈ Finset.range S.n, S.entry i k * x.getD k 0 =
      (if i = k then S.diagonal.getD i 0 * x.getD i 0 else 0) + S.lower.entry i k * x.getD k 0 +
        S.lower.entry k i * x.getD k 0 := by
    intro k hk
    rw [entry_split S hS i k hi (Finset.mem_range.1 hk), add_mul, add_mul]
    congr 2
    by_cases h : i = k
    · subst h; simp
    · simp [h]
  rw [Finset.sum_congr rfl e, Finset.sum_add_distrib, Finset.sum_add_distrib,
    Finset.sum_ite_eq (Finset.range S.n) i, if_pos (Finset.mem_range.2 hi)]
  rw [add_comm]

/-- `matvec` (one thread) of symmetric storage is the product with the symmetric matrix. -/
theorem matvec_correct [CommSemiring K] (S : SSS K) (hS : S.Valid) (x y : List K)
    (hy : y.length = S.n) :
    (SSS.matvec S x y).length = S.n ∧ ∀ i, i < S.n →
      (SSS.matvec S x y).getD i 0 = mulVec S.n S.entry x i := by
  have h := matvec_no_overwrite_correct S hS x (List.replicate y.length 0) (by simpa using hy)
  refine ⟨h.1, fun i hi => ?_⟩
  rw [SSS.matvec, h.2 i hi]
  simp [List.getD_eq_getElem?_getD, hy, hi]

/-- `to_csr` has the entries of the symmetric matrix (both triangles). -/
theorem to_csr_correct [AddCommMonoid K] (S : SSS K) (hS : S.Valid) (u : List Nat) (v : List K)
    (hu : u.length = S.n + 2 * S.indices.length) (hv : v.length = S.n + 2 * S.indices.length) :
    let B := toCSR S u v
    B.Valid ∧ B.numRows = S.n ∧ B.numCols = S.n ∧
      B.indices.length = S.n + 2 * S.indices.length ∧
      ∀ i j, i < S.n → j < S.n → B.entry i j = S.entry i j := by
  have hb := fullItems_bound S hS
  have hl := fullItems_length S hS
  have h := assemble S.n S.n (fullItems S) (fun e he => (hb e he).1) (fun e he => (hb e he).2) u v
    (by omega) (by omega)
  simp only at h ⊢
  rw [toCSR_eq S hS]
  obtain ⟨h1, h2, h3⟩ := h
  refine ⟨h1, rfl, rfl, h2.trans hl, fun i j hi hj => ?_⟩
  rw [CSR.entry, h3 i hi, contrib_eq]
  unfold fullItems
  rw [contrib_flatMap]
  have e : ∀ k ∈ Finset.range S.n, contrib ((k, k, S.diagonal.getD k 0) ::
        (S.lower.row k).flatMap fun e => [(k, e.1, e.2), (e.1, k, e.2)]) i j =
      (if k = i then (if i = j then S.diagonal.getD i 0 else 0) else 0) +
        ((if k = i then S.lower.entry i j else 0) + (if k = j then S.lower.entry j i else 0)) := by
    intro k _
    rw [contrib_cons, contrib_both, contrib_row, contrib_col]
    have e1 : (if k = i ∧ k = j then S.diagonal.getD k 0 else 0) =
        (if k = i then (if i = j then S.diagonal.getD i 0 else 0) else 0) := by
      by_cases h1 : k = i
      · subst h1; simp
      · simp [h1]
    have e2 : (if k = i then (((S.lower.row k).filter fun e => e.1 = j).map Prod.snd).sum else 0) =
        (if k = i then S.lower.entry i j else 0) := by
      by_cases h1 : k = i
      · subst h1; rfl
      · simp [h1]
    have e3 : (if k = j then (((S.lower.row k).filter fun e => e.1 = i).map Prod.snd).sum else 0) =
        (if k = j then S.lower.entry j i else 0) := by
      by_cases h1 : k = j
      · subst h1; rfl
      · simp [h1]
    rw [← e1, ← e2, ← e3]
  rw [Finset.sum_congr rfl e, Finset.sum_add_distrib, Finset.sum_add_distrib,
    Finset.sum_ite_eq' (Finset.range S.n) i, Finset.sum_ite_eq' (Finset.range S.n) i,
    Finset.sum_ite_eq' (Finset.range S.n) j, if_pos (Finset.mem_range.2 hi),
    if_pos (Finset.mem_range.2 hi), if_pos (Finset.mem_range.2 hj),
    entry_split S hS i j hi hj, add_assoc]

/-- `to_lower_csc`: column `c` of the result holds the lower triangle of the matrix. -/
theorem to_lower_csc_correct [AddCommMonoid K] (S : SSS K) (hS : S.Valid) (u : List Nat) (v : List K)
    (hu : u.length = S.n + S.indices.length) (hv : v.length = S.n + S.indices.length) :
    let B := toLowerCSC S u v
    B.Valid ∧ B.numRows = S.n ∧ B.numCols = S.n ∧
      ∀ c i, c < S.n → i < S.n → B.entry c i = if c ≤ i then S.entry i c else 0 := by
  have hb := lowerItems_bound S hS
  have hl := lowerItems_length S hS
  have h := assemble S.n S.n (lowerItems S) (fun e he => (hb e he).1) (fun e he => (hb e he).2) u v
    (by omega) (by omega)
  simp only at h ⊢
  rw [toLowerCSC_eq S hS]
  obtain ⟨h1, h2, h3⟩ := h
  refine ⟨h1, rfl, rfl, fun i j hi hj => ?_⟩
  rw [CSR.entry, h3 i hi, contrib_eq]
  unfold lowerItems
  rw [contrib_flatMap]
  have e : ∀ k ∈ Finset.range S.n, contrib ((k, k, S.diagonal.getD k 0) ::
        (S.lower.row k).map fun e => (e.1, k, e.2)) i j =
      (if k = i then (if i = j then S.diagonal.getD i 0 else 0) else 0) +
        (if k = j then S.lower.entry j i else 0) := by
    intro k _
    rw [contrib_cons, contrib_col]
    have e1 : (if k = i ∧ k = j then S.diagonal.getD k 0 else 0) =
        (if k = i then (if i = j then S.diagonal.getD i 0 else 0) else 0) := by
      by_cases h1 : k = i
      · subst h1; simp
      · simp [h1]
    have e3 : (if k = j then (((S.lower.row k).filter fun e => e.1 = i).map Prod.snd).sum else 0) =
        (if k = j then S.lower.entry j i else 0) := by
      by_cases h1 : k = j
      · subst h1; rfl
      · simp [h1]
    rw [← e1, ← e3]
  rw [Finset.sum_congr rfl e, Finset.sum_add_distrib,
    Finset.sum_ite_eq' (Finset.range S.n) i,
    Finset.sum_ite_eq' (Finset.range S.n) j, if_pos (Finset.mem_range.2 hi),
    if_pos (Finset.mem_range.2 hj)]
  by_cases hle : i ≤ j
  · rw [if_pos hle, entry_split S hS j i hj hi, lower_entry_zero S hS i j hi hle, add_zero]
    by_cases he : i = j
    · subst he; rfl
    · rw [if_neg he, if_neg (fun h => he h.symm)]
  · rw [if_neg hle, if_neg (by omega), lower_entry_zero S hS j i hj (by omega), add_zero]

/-- `getEntry` of symmetric storage with sorted rows: the entry of the symmetric matrix; in
particular it is symmetric. -/
theorem getEntry_correct [AddCommMonoid K] (S : SSS K) (hS : S.Valid) (hs : S.lower.Sorted)
    (I J : Nat) (hI : I < S.n) (hJ : J < S.n) :
    SSS.getEntry S I J = S.entry I J ∧ SSS.getEntry S I J = SSS.getEntry S J I := by
  have key : ∀ I J, I < S.n → J < S.n → SSS.getEntry S I J = S.entry I J := by
    intro I J hI hJ
    unfold SSS.getEntry Spec.SSS.entry
    by_cases h : I = J
    · rw [if_pos h, if_pos h]
    · rw [if_neg h, if_neg h]
      by_cases hlt : I < J
      · rw [if_pos hlt, if_neg (by omega)]
        exact C12.getEntry_correct S.lower (lower_valid S hS) hs J I hJ
      · rw [if_neg hlt, if_pos (show J < I by omega)]
        exact C12.getEntry_correct S.lower (lower_valid S hS) hs I J hI
  exact ⟨key I J hI hJ, by rw [key I J hI hJ, key J I hJ hI, entry_symm]⟩

/-- `to_sss` of a square matrix with exactly one stored diagonal entry per row keeps the
diagonal and the lower triangle. -/
theorem to_sss_lower_partial [AddCommMonoid K] (A : CSR K) (hA : A.Valid) (hsq : A.numCols = A.numRows)
    (hdiag : ∀ i, i < A.numRows → ((A.row i).filter fun e => e.1 = i).length = 1)
    (u : List Nat) (v dg : List K)
    (hu : u.length = (sssItems A).length) (hv : v.length = (sssItems A).length)
    (hdg : dg.length = A.numRows) :
    let S := ofCSR A u v dg
    S.Valid ∧ S.n = A.numRows ∧
      ∀ i j, i < A.numRows → j ≤ i → S.entry i j = A.entry i j := by
  have hb := sssItems_bound A hA hsq
  have h := assemble A.numRows A.numRows (sssItems A) (fun e he => (hb e he).1)
    (fun e he => (hb e he).2) u v hu hv
  simp only at h ⊢
  rw [ofCSR_eq A hA]
  obtain ⟨h1, h2, h3⟩ := h
  have hset := forRange_set dg A.numRows (by omega) fun i _ => A.entry i i
  have hdgEq : (forRange 0 A.numRows dg fun dg i =>
      ((A.row i).filter fun e => e.1 = i).foldl (fun dg e => dg.set i e.2) dg) =
      forRange 0 A.numRows dg fun dg i => dg.set i (A.entry i i) :=
    forRange_congr _ _ _ _ _ fun s k _ hk => diag_fold A k s (hdiag k hk)
  rw [hdgEq]
  have hrow : ∀ i, i < A.numRows →
      (Spec.SSS.lower ⟨shiftBack A.numRows ((sssItems A).foldl (fun s e => put s e.1 e.2.1 e.2.2)
        (cumsum A.numRows (countKeys A.numRows ((sssItems A).map Prod.fst)), u, v)).1,
        ((sssItems A).foldl (fun s e => put s e.1 e.2.1 e.2.2)
        (cumsum A.numRows (countKeys A.numRows ((sssItems A).map Prod.fst)), u, v)).2.1,
        ((sssItems A).foldl (fun s e => put s e.1 e.2.1 e.2.2)
        (cumsum A.numRows (countKeys A.numRows ((sssItems A).map Prod.fst)), u, v)).2.2,
        forRange 0 A.numRows dg fun dg i => dg.set i (A.entry i i), A.numRows⟩).row i =
      (A.row i).filter fun e => e.1 < i := by
    intro i hi
    exact (h3 i hi).trans (sssItems_filter A i hi)
  refine ⟨⟨h1.indptr, h1.data, by rw [hset.1, hdg], fun i hi e he => ?_⟩, rfl, fun i j hi hj => ?_⟩
  · rw [hrow i hi] at he
    simpa using (List.mem_filter.1 he).2
  · unfold Spec.SSS.entry
    by_cases hij : i = j
    · subst hij
      rw [if_pos rfl]
      show (forRange 0 A.numRows dg fun dg i => dg.set i (A.entry i i)).getD i 0 = _
      rw [hset.2 i, if_pos hi]
    · rw [if_neg hij, if_pos (show j < i by omega), CSR.entry, hrow i hi]
      unfold CSR.entry
      rw [List.filter_filter]
      congr 2
      apply List.filter_congr
      intro e _
      by_cases h : e.1 = j
      · simp [h]; omega
      · simp [h]

/-- Round trip: for a symmetric matrix with stored diagonal, `to_sss` has the same entries, its
`matvec` is the CSR `matvec`, and `to_csr` after `to_sss` has the entries of the original. -/
theorem to_sss_round_trip_partial [CommSemiring K] (A : CSR K) (hA : A.Valid)
    (hsq : A.numCols = A.numRows)
    (hdiag : ∀ i, i < A.numRows → ((A.row i).filter fun e => e.1 = i).length = 1)
    (hsym : ∀ i j, i < A.numRows → j < A.numRows → A.entry i j = A.entry j i)
    (u : List Nat) (v dg : List K)
    (hu : u.length = (sssItems A).length) (hv : v.length = (sssItems A).length)
    (hdg : dg.length = A.numRows) :
    let S := ofCSR A u v dg
    (∀ i j, i < A.numRows → j < A.numRows → S.entry i j = A.entry i j) ∧
    (∀ x y y' : List K, y.length = A.numRows → y'.length = A.numRows → ∀ i, i < A.numRows →
      (SSS.matvec S x y).getD i 0 = (CSR.matvec false A x y').getD i 0) ∧
    (∀ (u' : List Nat) (v' : List K), u'.length = S.n + 2 * S.indices.length →
      v'.length = S.n + 2 * S.indices.length → ∀ i j, i < A.numRows → j < A.numRows →
      (toCSR S u' v').entry i j = A.entry i j) := by
  obtain ⟨h1, h2, h3⟩ := to_sss_lower_partial A hA hsq hdiag u v dg hu hv hdg
  have hent : ∀ i j, i < A.numRows → j < A.numRows → (ofCSR A u v dg).entry i j = A.entry i j := by
    intro i j hi hj
    rcases Nat.lt_or_ge i j with h | h
    · rw [entry_symm, h3 j i hj (by omega), hsym j i hj hi]
    · exact h3 i j hi h
  refine ⟨hent, fun x y y' hy hy' i hi => ?_, fun u' v' hu' hv' i j hi hj => ?_⟩
  · rw [(matvec_correct _ h1 x y (by rw [h2]; exact hy)).2 i (by rw [h2]; exact hi),
      (C08.matvec_correct false A hA x y' hy').2 i hi]
    unfold mulVec
    rw [h2, hsq]
    exact Finset.sum_congr rfl fun k hk => by rw [hent i k hi (Finset.mem_range.1 hk)]
  · obtain ⟨_, _, _, _, g⟩ := to_csr_correct _ h1 u' v' hu' hv'
    rw [g i j (by rw [h2]; exact hi) (by rw [h2]; exact hj), hent i j hi hj]

/-! ### Concrete cases -/

/-- `[[2, 1, 0], [1, 3, 4], [0, 4, 5]]`. -/
def sample : CSR ℤ where
  indptr := [0, 2, 5, 7]
  indices := [0, 1, 0, 1, 2, 1, 2]
  data := [2, 1, 1, 3, 4, 4, 5]
  numRows := 3
  numCols := 3

example : sample.Valid ∧ sample.numCols = sample.numRows ∧
    (∀ i, i < sample.numRows → ((sample.row i).filter fun e => e.1 = i).length = 1) ∧
    (∀ i j, i < sample.numRows → j < sample.numRows → sample.entry i j = sample.entry j i) := by
  refine ⟨⟨⟨by decide, by decide, by decide, by decide⟩, by decide, by decide⟩, rfl, ?_, ?_⟩
  · show ∀ i, i < 3 → _; decide
  · show ∀ i j, i < 3 → j < 3 → _; intro i j hi hj
    have : ∀ i < 3, ∀ j < 3, sample.entry i j = sample.entry j i := by decide
    exact this i hi j hj

example : (ofCSR sample [9, 9] [8, 8] [7, 7, 7]).indices = [0, 1] ∧
    (ofCSR sample [9, 9] [8, 8] [7, 7, 7]).data = [1, 4] ∧
    (ofCSR sample [9, 9] [8, 8] [7, 7, 7]).diagonal = [2, 3, 5] ∧
    SSS.matvec (ofCSR sample [9, 9] [8, 8] [7, 7, 7]) [1, 2, 3] [0, 0, 0] = [4, 19, 23] := by
  decide +kernel

/-- `[[0, 1], [1, 0]]` without stored diagonal. -/
def offDiag : CSR ℤ where
  indptr := [0, 1, 2]
  indices := [1, 0]
  data := [1, 1]
  numRows := 2
  numCols := 2

/-- The full property is false: for a symmetric matrix without stored diagonal entries the
result depends on the content of uninitialised memory. -/
theorem missing_diagonal_uninitialised : ∃ A : CSR ℤ, A.Valid ∧ A.numCols = A.numRows ∧
    (∀ i j, i < A.numRows → j < A.numRows → A.entry i j = A.entry j i) ∧
    ∃ (u : List Nat) (v dg dg' : List ℤ), u.length = (sssItems A).length ∧
      v.length = (sssItems A).length ∧ dg.length = A.numRows ∧ dg'.length = A.numRows ∧
      (ofCSR A u v dg).entry 0 0 ≠ A.entry 0 0 ∧
      (ofCSR A u v dg).entry 0 0 ≠ (ofCSR A u v dg').entry 0 0 := by
  refine ⟨offDiag, ⟨⟨by decide, by decide, by decide, by decide⟩, by decide, by decide⟩, rfl, ?_,
    [0], [0], [7, 7], [8, 8], by decide, by decide, by decide, by decide, ?_, ?_⟩
  · have : ∀ i < 2, ∀ j < 2, offDiag.entry i j = offDiag.entry j i := by decide
    exact fun i j hi hj => this i hi j hj
  · decide +kernel
  · decide +kernel

end PyNucleus.Props.C11
