import Verif.Proof.Direct
import Verif.Spec.Triangular

/-! # Triangular substitution on the stored matrices -/

namespace PyNucleus.Direct

open PyNucleus.Loops PyNucleus.Spec PyNucleus.CSR Finset

variable {K : Type}

theorem getD_zip [Zero K] (A : CSR K) (hA : A.Valid) (k : Nat) (hk : k < A.indices.length) :
    (A.indices.zip A.data).getD k (0, 0) = (A.indices.getD k 0, A.data.getD k 0) := by
  have h2 : k < A.data.length := by rw [hA.data]; exact hk
  simp only [List.getD_eq_getElem?_getD]
  rw [List.getElem?_eq_getElem (by rw [List.length_zip]; omega), List.getElem?_eq_getElem hk,
    List.getElem?_eq_getElem h2]
  simp

theorem zlen (A : CSR K) (hA : A.Valid) : (A.indices.zip A.data).length = A.indices.length := by
  rw [List.length_zip, hA.data]; omega

/-- The scatter loop as a fold over the stored pairs. -/
theorem scatter_slice [Field K] (C : CSR K) (hC : C.Valid) (lo hi j : Nat) (h : hi ≤ C.indices.length) (y : List K) :
    scatter C lo hi j y = (((C.indices.zip C.data).drop lo).take (hi - lo)).foldl
      (fun y e => y.modify e.1 (· + e.2 * y.getD j 0)) y := by
  rw [← forRange_slice _ (0, 0) _ _ (by rw [zlen C hC]; exact h)]
  unfold scatter
  apply forRange_congr
  intro s k _ hk
  rw [getD_zip C hC k (by omega)]

theorem split_first [Zero K] (C : CSR K) (hC : C.Valid) (j : Nat) (hj : j < C.numRows) (d : K) (rest : List (Nat × K))
    (h : C.row j = (j, d) :: rest) :
    C.data.getD (C.indptr.getD j 0) 0 = d ∧
    ((C.indices.zip C.data).drop (C.indptr.getD j 0 + 1)).take (C.indptr.getD (j + 1) 0 - (C.indptr.getD j 0 + 1)) = rest ∧
    C.indptr.getD (j + 1) 0 ≤ C.indices.length ∧
    C.indices.getD (C.indptr.getD j 0) 0 = j ∧ C.indptr.getD j 0 < C.indptr.getD (j + 1) 0 := by
  have hle := ValidIndptr.le_nnz hC.indptr (j + 1) (by omega)
  have hr : ((C.indices.zip C.data).drop (C.indptr.getD j 0)).take (C.indptr.getD (j + 1) 0 - C.indptr.getD j 0) = (j, d) :: rest := h
  have hlt : C.indptr.getD j 0 < C.indptr.getD (j + 1) 0 := by
    by_contra hc
    rw [Nat.sub_eq_zero_of_le (by omega), List.take_zero] at hr
    simp at hr
  have hz := zlen C hC
  have h0 := getD_zip C hC (C.indptr.getD j 0) (by omega)
  rw [List.drop_eq_getElem_cons (by omega), show C.indptr.getD (j + 1) 0 - C.indptr.getD j 0 =
    (C.indptr.getD (j + 1) 0 - (C.indptr.getD j 0 + 1)) + 1 by omega, List.take_succ_cons, List.cons.injEq] at hr
  rw [List.getD_eq_getElem?_getD, List.getElem?_eq_getElem (by omega), Option.getD_some, hr.1, Prod.mk.injEq] at h0
  exact ⟨h0.2.symm, hr.2, hle, h0.1.symm, hlt⟩

theorem split_last [Zero K] (C : CSR K) (hC : C.Valid) (j : Nat) (hj : j < C.numRows) (d : K) (rest : List (Nat × K))
    (h : C.row j = rest ++ [(j, d)]) :
    C.data.getD (C.indptr.getD (j + 1) 0 - 1) 0 = d ∧
    ((C.indices.zip C.data).drop (C.indptr.getD j 0)).take (C.indptr.getD (j + 1) 0 - 1 - C.indptr.getD j 0) = rest ∧
    C.indptr.getD (j + 1) 0 ≤ C.indices.length := by
  have hle := ValidIndptr.le_nnz hC.indptr (j + 1) (by omega)
  have hr : ((C.indices.zip C.data).drop (C.indptr.getD j 0)).take (C.indptr.getD (j + 1) 0 - C.indptr.getD j 0) = rest ++ [(j, d)] := h
  have hz := zlen C hC
  have hlt : C.indptr.getD j 0 < C.indptr.getD (j + 1) 0 := by
    by_contra hc
    rw [Nat.sub_eq_zero_of_le (by omega), List.take_zero] at hr
    simp at hr
  have h0 := getD_zip C hC (C.indptr.getD (j + 1) 0 - 1) (by omega)
  rw [show C.indptr.getD (j + 1) 0 - C.indptr.getD j 0 = (C.indptr.getD (j + 1) 0 - 1 - C.indptr.getD j 0) + 1 by omega,
    List.take_add_one, List.getElem?_drop, show C.indptr.getD j 0 + (C.indptr.getD (j + 1) 0 - 1 - C.indptr.getD j 0) =
      C.indptr.getD (j + 1) 0 - 1 by omega, List.getElem?_eq_getElem (by omega)] at hr
  have hr2 := List.append_inj' hr rfl
  rw [List.getD_eq_getElem?_getD, List.getElem?_eq_getElem (by omega), Option.getD_some] at h0
  have h3 := hr2.2
  rw [Option.toList_some, List.cons.injEq] at h3
  rw [h3.1, Prod.mk.injEq] at h0
  exact ⟨h0.2.symm, hr2.1, hle⟩

theorem entry_at' [AddCommMonoid K] (C : CSR K) (j i : Nat) : C.entry j i = at' (C.row j) i := rfl

theorem entry_first [AddCommMonoid K] (C : CSR K) (j : Nat) (d : K) (rest : List (Nat × K))
    (h : C.row j = (j, d) :: rest) (hr : ∀ e ∈ rest, j < e.1) (i : Nat) :
    C.entry j i = (if i = j then d else 0) + at' rest i ∧ (i ≤ j → at' rest i = 0) := by
  refine ⟨?_, fun hi => at'_zero _ _ fun e he => by have := hr e he; omega⟩
  rw [entry_at', h, at'_cons]
  congr 1
  by_cases hij : i = j
  · rw [if_pos hij.symm, if_pos hij]
  · rw [if_neg (fun h => hij h.symm), if_neg hij]

theorem entry_last [AddCommMonoid K] (C : CSR K) (j : Nat) (d : K) (rest : List (Nat × K))
    (h : C.row j = rest ++ [(j, d)]) (hr : ∀ e ∈ rest, e.1 < j) (i : Nat) :
    C.entry j i = at' rest i + (if i = j then d else 0) ∧ (j ≤ i → at' rest i = 0) := by
  refine ⟨?_, fun hi => at'_zero _ _ fun e he => by have := hr e he; omega⟩
  rw [entry_at', h, at'_append, at'_cons, at'_nil, add_zero]
  congr 1
  by_cases hij : i = j
  · rw [if_pos hij.symm, if_pos hij]
  · rw [if_neg (fun h => hij h.symm), if_neg hij]

theorem forDown_congr {σ : Type} (n : Nat) (s : σ) (f g : σ → Nat → σ)
    (h : ∀ s k, k < n → f s k = g s k) : forDown n s f = forDown n s g := by
  unfold forDown
  apply foldl_congr_mem
  intro s k hk
  exact h s k (by simpa using hk)

/-- Forward substitution by columns solves the lower triangular system. -/
theorem forwardCSC_eq [Field K] (C : CSR K) (hC : C.Valid) (hsq : C.numCols = C.numRows) (hd : DiagFirst C)
    (unit : Bool) (hdiag : ∀ j, j < C.numRows → if unit then C.entry j j = 1 else C.entry j j ≠ 0)
    (b y0 : List K) (hb : b.length = C.numRows) (hy : y0.length = C.numRows) (hz : ∀ i, y0.getD i 0 = 0) :
    (forwardCSC C b y0 unit).length = C.numRows ∧
    ∀ i, i < C.numRows → ∑ j ∈ range C.numRows, C.entry j i * (forwardCSC C b y0 unit).getD j 0 = b.getD i 0 := by
  have key : ∀ j, ∃ rest, j < C.numRows → C.row j = (j, C.entry j j) :: rest ∧ ∀ e ∈ rest, j < e.1 := by
    intro j
    by_cases hj : j < C.numRows
    · obtain ⟨d, rest, h1, h2⟩ := hd j hj
      refine ⟨rest, fun _ => ⟨?_, h2⟩⟩
      have := entry_first C j d rest h1 h2 j
      rw [if_pos rfl, this.2 (le_refl _), add_zero] at this
      rw [h1, this.1]
    · exact ⟨[], fun h => absurd h hj⟩
  choose cols hcols using key
  have heq : forwardCSC C b y0 unit = forRange 0 C.numRows y0
      (colStep (fun j t => t / C.entry j j) cols b) := by
    unfold forwardCSC
    rw [hb]
    apply forRange_congr
    intro y j _ hj
    obtain ⟨h1, h2⟩ := hcols j hj
    obtain ⟨e1, e2, e3, _⟩ := split_first C hC j hj _ _ h1
    have hd := hdiag j hj
    simp only [e1]
    rw [scatter_slice C hC _ _ _ e3, e2]
    unfold colStep
    cases unit with
    | false => rfl
    | true =>
      simp only [if_true] at hd ⊢
      rw [hd, div_one]
  obtain ⟨g1, g2⟩ := forward_solve C.numRows (fun j t => t / C.entry j j) cols b y0 hy hz
    (fun j hj e he => ⟨(hcols j hj).2 e he, by
      rw [← hsq]; exact row_cols C hC j e (by rw [(hcols j hj).1]; exact List.mem_cons_of_mem _ he)⟩)
  rw [← heq] at g1 g2
  refine ⟨g1, fun i hi => ?_⟩
  have hne : C.entry i i ≠ 0 := by
    have := hdiag i hi
    cases unit with
    | false => exact this
    | true => simp only [if_true] at this; rw [this]; exact one_ne_zero
  have hy := g2 i hi
  generalize forwardCSC C b y0 unit = y at *
  rw [eq_div_iff hne] at hy
  have : ∑ j ∈ range C.numRows, C.entry j i * y.getD j 0 = C.entry i i * y.getD i 0 +
      ∑ j ∈ range C.numRows, at' (cols j) i * y.getD j 0 := by
    rw [← Finset.sum_ite_eq' (range C.numRows) i (fun j => C.entry j j * y.getD j 0) |>.trans
      (if_pos (mem_range.2 hi)), ← sum_add_distrib]
    apply sum_congr rfl
    intro j hj
    obtain ⟨h1, h2⟩ := hcols j (mem_range.1 hj)
    rw [(entry_first C j _ _ h1 h2 i).1, add_mul]
    congr 1
    by_cases hij : i = j
    · rw [if_pos hij, if_pos hij.symm]
    · rw [if_neg hij, if_neg (fun h => hij h.symm), zero_mul]
  rw [this, mul_comm, hy]; ring

/-- Backward substitution by columns solves the upper triangular system. -/
theorem backwardCSC_eq [Field K] (C : CSR K) (hC : C.Valid) (hd : DiagLast C)
    (hdiag : ∀ j, j < C.numRows → C.entry j j ≠ 0)
    (b y0 : List K) (hb : b.length = C.numRows) (hy : y0.length = C.numRows) (hz : ∀ i, y0.getD i 0 = 0) :
    (backwardCSC C b y0).length = C.numRows ∧
    ∀ i, i < C.numRows → ∑ j ∈ range C.numRows, C.entry j i * (backwardCSC C b y0).getD j 0 = b.getD i 0 := by
  have key : ∀ j, ∃ rest, j < C.numRows → C.row j = rest ++ [(j, C.entry j j)] ∧ ∀ e ∈ rest, e.1 < j := by
    intro j
    by_cases hj : j < C.numRows
    · obtain ⟨d, rest, h1, h2⟩ := hd j hj
      refine ⟨rest, fun _ => ⟨?_, h2⟩⟩
      have := entry_last C j d rest h1 h2 j
      rw [if_pos rfl, this.2 (le_refl _), zero_add] at this
      rw [h1, this.1]
    · exact ⟨[], fun h => absurd h hj⟩
  choose cols hcols using key
  have heq : backwardCSC C b y0 = forDown C.numRows y0
      (colStep (fun j t => t / C.entry j j) cols b) := by
    unfold backwardCSC
    rw [hb]
    apply forDown_congr
    intro y j hj
    obtain ⟨h1, h2⟩ := hcols j hj
    obtain ⟨e1, e2, e3⟩ := split_last C hC j hj _ _ h1
    simp only [e1]
    rw [scatter_slice C hC _ _ _ (by omega), e2]
    rfl
  obtain ⟨g1, g2⟩ := backward_solve C.numRows (fun j t => t / C.entry j j) cols b y0 hy hz
    (fun j hj e he => (hcols j hj).2 e he)
  rw [← heq] at g1 g2
  refine ⟨g1, fun i hi => ?_⟩
  have hne := hdiag i hi
  have hy := g2 i hi
  generalize backwardCSC C b y0 = y at *
  rw [eq_div_iff hne] at hy
  have : ∑ j ∈ range C.numRows, C.entry j i * y.getD j 0 = C.entry i i * y.getD i 0 +
      ∑ j ∈ range C.numRows, at' (cols j) i * y.getD j 0 := by
    rw [← Finset.sum_ite_eq' (range C.numRows) i (fun j => C.entry j j * y.getD j 0) |>.trans
      (if_pos (mem_range.2 hi)), ← sum_add_distrib]
    apply sum_congr rfl
    intro j hj
    obtain ⟨h1, h2⟩ := hcols j (mem_range.1 hj)
    rw [(entry_last C j _ _ h1 h2 i).1, add_mul, add_comm]
    congr 1
    by_cases hij : i = j
    · rw [if_pos hij, if_pos hij.symm]
    · rw [if_neg hij, if_neg (fun h => hij h.symm), zero_mul]
  rw [this, mul_comm, hy]; ring

end PyNucleus.Direct
