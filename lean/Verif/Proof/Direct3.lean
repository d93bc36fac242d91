import Verif.Proof.Direct2

/-! # Row oriented substitution, permutations and packed factors -/

namespace PyNucleus.Direct

open PyNucleus.Loops PyNucleus.Spec PyNucleus.CSR Finset
open PyNucleus.Galerkin (forRange_add pos_sum)

variable {K : Type}

theorem range_post (n : Nat) (pre post : List Nat) (i : Nat) (h : List.range n = pre ++ i :: post) :
    ∀ k ∈ post, i < k := by
  have h1 : (List.range n).Pairwise (· < ·) := List.pairwise_lt_range
  rw [h, List.pairwise_append] at h1
  exact (List.pairwise_cons.1 h1.2.1).1

theorem range_rev_post (n : Nat) (pre post : List Nat) (i : Nat) (h : (List.range n).reverse = pre ++ i :: post) :
    ∀ k ∈ post, k < i := by
  have h1 : (List.range n).reverse.Pairwise (fun a b => b < a) := List.pairwise_reverse.2 List.pairwise_lt_range
  rw [h, List.pairwise_append] at h1
  exact (List.pairwise_cons.1 h1.2.1).1

/-- Backward row substitution: `g i` depends only on later entries. -/
theorem down_solve [Zero K] (n : Nat) (g : Nat → List K → K) (y0 : List K) (hy : y0.length = n)
    (hg : ∀ i, i < n → ∀ y y' : List K, (∀ k, i < k → y.getD k 0 = y'.getD k 0) → g i y = g i y') :
    (forDown n y0 fun y i => y.set i (g i y)).length = n ∧
    ∀ i, i < n → (forDown n y0 fun y i => y.set i (g i y)).getD i 0 = g i (forDown n y0 fun y i => y.set i (g i y)) := by
  obtain ⟨h1, _, h3⟩ := row_solve g (List.range n).reverse y0 (List.nodup_reverse.2 List.nodup_range)
    (fun i hi => by rw [hy]; simpa using hi)
    (fun pre i post hl y y' hyy _ => by
      have hi : i < n := by
        have : i ∈ (List.range n).reverse := by rw [hl]; simp
        simpa using this
      refine hg i hi y y' fun k hk => hyy k (fun hp => ?_) (by omega)
      have := range_rev_post n pre post i hl k hp
      omega)
  exact ⟨h1.trans hy, fun i hi => h3 i (by simpa using hi)⟩

/-- Forward row substitution: `g i` depends only on earlier entries. -/
theorem up_solve [Zero K] (n : Nat) (g : Nat → List K → K) (y0 : List K) (hy : y0.length = n)
    (hg : ∀ i, i < n → ∀ y y' : List K, (∀ k, k < i → y.getD k 0 = y'.getD k 0) → g i y = g i y') :
    (forRange 0 n y0 fun y i => y.set i (g i y)).length = n ∧
    ∀ i, i < n → (forRange 0 n y0 fun y i => y.set i (g i y)).getD i 0 = g i (forRange 0 n y0 fun y i => y.set i (g i y)) := by
  rw [forRange_zero]
  obtain ⟨h1, _, h3⟩ := row_solve g (List.range n) y0 List.nodup_range
    (fun i hi => by rw [hy]; simpa using hi)
    (fun pre i post hl y y' hyy _ => by
      have hi : i < n := by
        have : i ∈ List.range n := by rw [hl]; simp
        simpa using this
      refine hg i hi y y' fun k hk => hyy k (fun hp => ?_) (by omega)
      have := range_post n pre post i hl k hp
      omega)
  exact ⟨h1.trans hy, fun i hi => h3 i (by simpa using hi)⟩

/-- In-place variant: reading the old value of the entry about to be overwritten. -/
theorem alias_eq [Zero K] (g : Nat → K → List K → K) (y0 : List K) : ∀ (l : List Nat) (y : List K), l.Nodup →
    (∀ i ∈ l, y.getD i 0 = y0.getD i 0) →
    l.foldl (fun y i => y.set i (g i (y.getD i 0) y)) y = l.foldl (fun y i => y.set i (g i (y0.getD i 0) y)) y := by
  intro l
  induction l with
  | nil => intros; rfl
  | cons j t ih =>
    intro y hnd h
    rw [List.nodup_cons] at hnd
    rw [List.foldl_cons, List.foldl_cons, h j (by simp)]
    apply ih _ hnd.2
    intro i hi
    rw [getD_set, if_neg (show ¬ (j = i ∧ i < y.length) from fun e => hnd.1 (e.1 ▸ hi))]
    exact h i (by simp [hi])

theorem forRange_sub [CommRing K] (lo hi : Nat) (f : Nat → K) (s : K) :
    forRange lo hi s (fun s k => s - f k) = s - ∑ k ∈ Ico lo hi, f k := by
  have := forRange_add lo hi (fun k => - f k) s
  rw [sum_neg_distrib, ← sub_eq_add_neg] at this
  rw [← this]
  apply forRange_congr
  intro s k _ _
  rw [sub_eq_add_neg]

/-! ### separate diagonal -/

theorem forwardSSS_gen [Field K] (C : CSR K) (hC : C.Valid) (hsq : C.numCols = C.numRows) (hd : StrictlyBelow C)
    (f : Nat → K → K) (b y0 : List K) (hy : y0.length = C.numRows) (hz : ∀ i, y0.getD i 0 = 0) (y : List K)
    (heq : y = forRange 0 C.numRows y0 fun y j =>
      scatter C (C.indptr.getD j 0) (C.indptr.getD (j + 1) 0) j (y.set j (f j (b.getD j 0 - y.getD j 0)))) :
    y.length = C.numRows ∧
    ∀ i, i < C.numRows → y.getD i 0 = f i (b.getD i 0 - ∑ j ∈ range C.numRows, C.entry j i * y.getD j 0) := by
  have h2 : y = forRange 0 C.numRows y0 (colStep f C.row b) := by
    rw [heq]
    apply forRange_congr
    intro y j _ hj
    rw [scatter_slice C hC _ _ _ (ValidIndptr.le_nnz hC.indptr (j + 1) (by omega))]
    rfl
  have := forward_solve C.numRows f C.row b y0 hy hz
    (fun j hj e he => ⟨hd j hj e he, by rw [← hsq]; exact row_cols C hC j e he⟩)
  rw [← h2] at this
  exact this

theorem forwardSSS_eq [Field K] (C : CSR K) (hC : C.Valid) (hsq : C.numCols = C.numRows) (hd : StrictlyBelow C)
    (diag b y0 : List K) (unit : Bool) (hb : b.length = C.numRows) (hy : y0.length = C.numRows)
    (hz : ∀ i, y0.getD i 0 = 0) (hdiag : unit = false → ∀ i, i < C.numRows → diag.getD i 0 ≠ 0) :
    (forwardSSS C diag b y0 unit).length = C.numRows ∧
    ∀ i, i < C.numRows → (if unit then 1 else diag.getD i 0) * (forwardSSS C diag b y0 unit).getD i 0 +
      ∑ j ∈ range C.numRows, C.entry j i * (forwardSSS C diag b y0 unit).getD j 0 = b.getD i 0 := by
  cases unit with
  | false =>
    obtain ⟨h1, h2⟩ := forwardSSS_gen C hC hsq hd (fun j t => t / diag.getD j 0) b y0 hy hz (forwardSSS C diag b y0 false)
      (by unfold forwardSSS; rw [hb]; rfl)
    refine ⟨h1, fun i hi => ?_⟩
    have := h2 i hi
    rw [eq_div_iff (hdiag rfl i hi)] at this
    simp only [Bool.false_eq_true, if_false]
    rw [mul_comm, this]; ring
  | true =>
    obtain ⟨h1, h2⟩ := forwardSSS_gen C hC hsq hd (fun j t => t) b y0 hy hz (forwardSSS C diag b y0 true)
      (by unfold forwardSSS; rw [hb]; rfl)
    refine ⟨h1, fun i hi => ?_⟩
    have := h2 i hi
    simp only [if_true]
    rw [one_mul, this]; ring

theorem forwardSSSInv_eq [Field K] (C : CSR K) (hC : C.Valid) (hsq : C.numCols = C.numRows) (hd : StrictlyBelow C)
    (invDiag b y0 : List K) (unit : Bool) (hb : b.length = C.numRows) (hy : y0.length = C.numRows)
    (hz : ∀ i, y0.getD i 0 = 0) (hdiag : unit = false → ∀ i, i < C.numRows → invDiag.getD i 0 ≠ 0) :
    (forwardSSSInv C invDiag b y0 unit).length = C.numRows ∧
    ∀ i, i < C.numRows → (if unit then 1 else (invDiag.getD i 0)⁻¹) * (forwardSSSInv C invDiag b y0 unit).getD i 0 +
      ∑ j ∈ range C.numRows, C.entry j i * (forwardSSSInv C invDiag b y0 unit).getD j 0 = b.getD i 0 := by
  cases unit with
  | false =>
    obtain ⟨h1, h2⟩ := forwardSSS_gen C hC hsq hd (fun j t => t * invDiag.getD j 0) b y0 hy hz (forwardSSSInv C invDiag b y0 false)
      (by unfold forwardSSSInv; rw [hb]; rfl)
    refine ⟨h1, fun i hi => ?_⟩
    have := h2 i hi
    have hne := hdiag rfl i hi
    simp only [Bool.false_eq_true, if_false]
    rw [mul_comm, ← div_eq_mul_inv, this, mul_div_assoc, div_self hne]; ring
  | true =>
    obtain ⟨h1, h2⟩ := forwardSSS_gen C hC hsq hd (fun j t => t) b y0 hy hz (forwardSSSInv C invDiag b y0 true)
      (by unfold forwardSSSInv; rw [hb]; rfl)
    refine ⟨h1, fun i hi => ?_⟩
    have := h2 i hi
    simp only [if_true]
    rw [one_mul, this]; ring

theorem forRow_sub [Field K] (C : CSR K) (hC : C.Valid) (i : Nat) (hi : i < C.numRows) (t : K) (y : List K) :
    (forRow C i t fun temp j d => temp - d * y.getD j 0) =
      t - ∑ m ∈ range C.numCols, C.entry i m * y.getD m 0 := by
  rw [forRow_eq C hC i hi, foldl_sub (C.row i) (fun e : Nat × K => e.2 * y.getD e.1 0), sum_row_eq _ _ (row_cols C hC i) (fun m => y.getD m 0)]
  rfl

theorem entry_strict [AddCommMonoid K] (C : CSR K) (hd : StrictlyBelow C) (i m : Nat) (hi : i < C.numRows) (h : m ≤ i) :
    C.entry i m = 0 := by
  rw [entry_at']
  exact at'_zero _ _ fun e he => by have := hd i hi e he; omega

theorem backwardSSS_gen [Field K] (C : CSR K) (hC : C.Valid) (hsq : C.numCols = C.numRows) (hd : StrictlyBelow C)
    (f : Nat → K → K) (b y0 : List K) (hy : y0.length = C.numRows) (y : List K)
    (heq : y = forDown C.numRows y0 fun y i =>
      y.set i (f i (forRow C i (b.getD i 0) fun temp j d => temp - d * y.getD j 0))) :
    y.length = C.numRows ∧
    ∀ i, i < C.numRows → y.getD i 0 = f i (b.getD i 0 - ∑ m ∈ range C.numRows, C.entry i m * y.getD m 0) := by
  have h2 : y = forDown C.numRows y0 fun y i =>
      y.set i (f i (b.getD i 0 - ∑ m ∈ range C.numRows, C.entry i m * y.getD m 0)) := by
    rw [heq]
    apply forDown_congr
    intro y i hi
    rw [forRow_sub C hC i hi, hsq]
  have := down_solve C.numRows (fun i y => f i (b.getD i 0 - ∑ m ∈ range C.numRows, C.entry i m * y.getD m 0)) y0 hy
    (by
      intro i hi y y' hyy
      have : ∑ m ∈ range C.numRows, C.entry i m * y.getD m 0 = ∑ m ∈ range C.numRows, C.entry i m * y'.getD m 0 := by
        apply sum_congr rfl
        intro m _
        by_cases hm : i < m
        · rw [hyy m hm]
        · rw [entry_strict C hd i m hi (by omega), zero_mul, zero_mul]
      simp only [this])
  rw [← h2] at this
  exact this

theorem backwardSSS_eq [Field K] (C : CSR K) (hC : C.Valid) (hsq : C.numCols = C.numRows) (hd : StrictlyBelow C)
    (diag b y0 : List K) (hb : b.length = C.numRows) (hy : y0.length = C.numRows)
    (hdiag : ∀ i, i < C.numRows → diag.getD i 0 ≠ 0) :
    (backwardSSS C diag b y0).length = C.numRows ∧
    ∀ i, i < C.numRows → diag.getD i 0 * (backwardSSS C diag b y0).getD i 0 +
      ∑ j ∈ range C.numRows, C.entry i j * (backwardSSS C diag b y0).getD j 0 = b.getD i 0 := by
  obtain ⟨h1, h2⟩ := backwardSSS_gen C hC hsq hd (fun j t => t / diag.getD j 0) b y0 hy (backwardSSS C diag b y0)
    (by unfold backwardSSS; rw [hb])
  refine ⟨h1, fun i hi => ?_⟩
  have := h2 i hi
  rw [eq_div_iff (hdiag i hi)] at this
  rw [mul_comm, this]; ring

theorem backwardSSSInv_eq [Field K] (C : CSR K) (hC : C.Valid) (hsq : C.numCols = C.numRows) (hd : StrictlyBelow C)
    (invDiag b y0 : List K) (hb : b.length = C.numRows) (hy : y0.length = C.numRows)
    (hdiag : ∀ i, i < C.numRows → invDiag.getD i 0 ≠ 0) :
    (backwardSSSInv C invDiag b y0).length = C.numRows ∧
    ∀ i, i < C.numRows → (invDiag.getD i 0)⁻¹ * (backwardSSSInv C invDiag b y0).getD i 0 +
      ∑ j ∈ range C.numRows, C.entry i j * (backwardSSSInv C invDiag b y0).getD j 0 = b.getD i 0 := by
  obtain ⟨h1, h2⟩ := backwardSSS_gen C hC hsq hd (fun j t => t * invDiag.getD j 0) b y0 hy (backwardSSSInv C invDiag b y0)
    (by unfold backwardSSSInv; rw [hb])
  refine ⟨h1, fun i hi => ?_⟩
  have := h2 i hi
  have hne := hdiag i hi
  rw [mul_comm, ← div_eq_mul_inv, this, mul_div_assoc, div_self hne]; ring

/-! ### backward substitution by rows, diagonal first -/

theorem rowBack_eq [Field K] (C : CSR K) (y : List K) (i i1 : Nat) (hi1 : ¬ C.indices.getD i1 0 > i) (m : Nat) :
    ∀ t : K, (∀ k, i1 < k → k ≤ i1 + m → C.indices.getD k 0 > i) →
    rowBack C y i (i1 + m) t = (t - ∑ k ∈ Ico (i1 + 1) (i1 + m + 1), C.data.getD k 0 * y.getD (C.indices.getD k 0) 0, i1) := by
  induction m with
  | zero =>
    intro t _
    rw [Nat.add_zero, Ico_self, sum_empty, sub_zero]
    cases i1 with
    | zero => rfl
    | succ i1 => unfold rowBack; rw [if_neg hi1]
  | succ m ih =>
    intro t h
    rw [show i1 + (m + 1) = (i1 + m) + 1 by omega]
    unfold rowBack
    rw [if_pos (h _ (by omega) (by omega)), ih _ (fun k h1 h2 => h k h1 (by omega)),
      sum_Ico_succ_top (show i1 + 1 ≤ i1 + m + 1 by omega)]
    congr 1
    ring

theorem backwardCSR_eq [Field K] (C : CSR K) (hC : C.Valid) (hsq : C.numCols = C.numRows) (hd : DiagFirst C)
    (hdiag : ∀ j, j < C.numRows → C.entry j j ≠ 0) (y0 : List K) (hy : y0.length = C.numRows) :
    (backwardCSR C y0).length = C.numRows ∧
    ∀ i, i < C.numRows → ∑ m ∈ range C.numRows, C.entry i m * (backwardCSR C y0).getD m 0 = y0.getD i 0 := by
  have hrow : ∀ i, i < C.numRows → ∀ (y : List K) (t : K),
      (rowBack C y i (C.indptr.getD (i + 1) 0 - 1) t).1 / C.data.getD (rowBack C y i (C.indptr.getD (i + 1) 0 - 1) t).2 0 =
      (t - (∑ m ∈ range C.numRows, C.entry i m * y.getD m 0 - C.entry i i * y.getD i 0)) / C.entry i i := by
    intro i hi y t
    obtain ⟨d, rest, h1, h2⟩ := hd i hi
    obtain ⟨e1, e2, e3, e4, e5⟩ := split_first C hC i hi d rest h1
    have hde : C.entry i i = d := by
      have := entry_first C i d rest h1 h2 i
      rw [if_pos rfl, this.2 (le_refl _), add_zero] at this
      exact this.1
    have hmem : ∀ k, C.indptr.getD i 0 < k → k ≤ C.indptr.getD i 0 + (C.indptr.getD (i + 1) 0 - 1 - C.indptr.getD i 0) →
        C.indices.getD k 0 > i := by
      intro k hk1 hk2
      have : (C.indices.getD k 0, C.data.getD k 0) ∈ rest := by
        rw [← e2, List.mem_iff_getElem?]
        refine ⟨k - (C.indptr.getD i 0 + 1), ?_⟩
        rw [List.getElem?_take, if_pos (by omega), List.getElem?_drop,
          show C.indptr.getD i 0 + 1 + (k - (C.indptr.getD i 0 + 1)) = k by omega,
          ← getD_zip C hC k (by omega), List.getD_eq_getElem?_getD,
          List.getElem?_eq_getElem (by rw [zlen C hC]; omega)]
        rfl
      exact h2 _ this
    have hrb := rowBack_eq C y i (C.indptr.getD i 0) (by omega) (C.indptr.getD (i + 1) 0 - 1 - C.indptr.getD i 0) t hmem
    rw [show C.indptr.getD i 0 + (C.indptr.getD (i + 1) 0 - 1 - C.indptr.getD i 0) = C.indptr.getD (i + 1) 0 - 1 by omega,
      show C.indptr.getD (i + 1) 0 - 1 + 1 = C.indptr.getD (i + 1) 0 by omega] at hrb
    have hps := pos_sum C hC i hi (fun m => y.getD m 0)
    rw [hsq, sum_eq_sum_Ico_succ_bot e5, e1, e4] at hps
    rw [hrb, e1, ← hps, hde]
    congr 2
    ring
  have heq : backwardCSR C y0 = forDown C.numRows y0 fun y i =>
      y.set i ((y0.getD i 0 - (∑ m ∈ range C.numRows, C.entry i m * y.getD m 0 - C.entry i i * y.getD i 0)) / C.entry i i) := by
    have h1 : backwardCSR C y0 = forDown C.numRows y0 fun y i =>
      y.set i ((y.getD i 0 - (∑ m ∈ range C.numRows, C.entry i m * y.getD m 0 - C.entry i i * y.getD i 0)) / C.entry i i) := by
      unfold backwardCSR
      rw [hy]
      apply forDown_congr
      intro y i hi
      simp only []
      rw [hrow i hi]
    rw [h1]
    exact alias_eq (fun i t y => (t - (∑ m ∈ range C.numRows, C.entry i m * y.getD m 0 - C.entry i i * y.getD i 0)) / C.entry i i)
      y0 _ y0 (List.nodup_reverse.2 List.nodup_range) (fun _ _ => rfl)
  have := down_solve C.numRows (fun i y => (y0.getD i 0 - (∑ m ∈ range C.numRows, C.entry i m * y.getD m 0 - C.entry i i * y.getD i 0)) / C.entry i i) y0 hy
    (by
      intro i hi y y' hyy
      obtain ⟨d, rest, h1, h2⟩ := hd i hi
      have hlow : ∀ m, m < i → C.entry i m = 0 := by
        intro m hm
        have := entry_first C i d rest h1 h2 m
        rw [this.1, this.2 (by omega), if_neg (by omega), add_zero]
      have : ∀ y : List K, ∑ m ∈ range C.numRows, C.entry i m * y.getD m 0 - C.entry i i * y.getD i 0 =
          ∑ m ∈ range C.numRows, if i < m then C.entry i m * y.getD m 0 else 0 := by
        intro y
        rw [← Finset.sum_ite_eq' (range C.numRows) i (fun j => C.entry i j * y.getD j 0) |>.trans
          (if_pos (mem_range.2 hi)), ← sum_sub_distrib]
        apply sum_congr rfl
        intro m _
        rcases Nat.lt_trichotomy m i with h | h | h
        · rw [hlow m h, if_neg (by omega), if_neg (by omega), zero_mul, sub_zero]
        · rw [if_pos h, if_neg (by omega), sub_self]
        · rw [if_neg (by omega), if_pos h, sub_zero]
      simp only [this]
      congr 2
      apply sum_congr rfl
      intro m _
      by_cases hm : i < m
      · rw [if_pos hm, if_pos hm, hyy m hm]
      · rw [if_neg hm, if_neg hm])
  rw [← heq] at this
  refine ⟨this.1, fun i hi => ?_⟩
  have h := this.2 i hi
  rw [eq_div_iff (hdiag i hi)] at h
  have e : ∀ a b c d : K, a * b = c - (d - b * a) → d = c := by
    intro a b c d h
    have : d - b * a = c - a * b := by rw [h]; ring
    rw [mul_comm b a] at this
    exact sub_left_injective this
  exact e _ _ _ _ h

/-! ### permutations -/

theorem perm_facts (p : List Nat) (n : Nat) (h : p.Perm (List.range n)) :
    p.length = n ∧ p.Nodup ∧ ∀ i, i < n → p.getD i 0 < n := by
  have h1 : p.length = n := by rw [h.length_eq, List.length_range]
  refine ⟨h1, h.nodup_iff.2 List.nodup_range, fun i hi => ?_⟩
  have : p.getD i 0 ∈ p := by
    rw [List.getD_eq_getElem?_getD, List.getElem?_eq_getElem (by omega)]
    exact List.getElem_mem _
  simpa using h.mem_iff.1 this

theorem perm_inj (p : List Nat) (h : p.Nodup) (i j : Nat) (hi : i < p.length) (hj : j < p.length)
    (e : p.getD i 0 = p.getD j 0) : i = j := by
  rw [List.getD_eq_getElem?_getD, List.getD_eq_getElem?_getD, List.getElem?_eq_getElem hi, List.getElem?_eq_getElem hj] at e
  exact (List.Nodup.getElem_inj_iff h).1 e

theorem perm_sum [AddCommMonoid K] (p : List Nat) (n : Nat) (h : p.Perm (List.range n)) (g : Nat → K) :
    ∑ j ∈ range n, g (p.getD j 0) = ∑ j ∈ range n, g j := by
  rw [← sum_range_map n g, ← (h.map g).sum_eq, ← sum_range_map]
  congr 1
  have h1 := (perm_facts p n h).1
  apply List.ext_getElem
  · simp [h1]
  · intro i h2 h3
    rw [List.getElem_map, List.getElem_map, List.getElem_range, List.getD_eq_getElem?_getD,
      List.getElem?_eq_getElem (by simpa using h3)]
    rfl

theorem scatterPerm_eq [Zero K] (p : List Nat) (b u : List K) (h : p.Perm (List.range b.length)) (hu : u.length = b.length) :
    (scatterPerm p b u).length = b.length ∧
    ∀ i, i < b.length → (scatterPerm p b u).getD (p.getD i 0) 0 = b.getD i 0 := by
  obtain ⟨h1, h2, h3⟩ := perm_facts p _ h
  unfold scatterPerm
  have : ∀ m, m ≤ b.length → (forRange 0 m u fun t i => t.set (p.getD i 0) (b.getD i 0)).length = b.length ∧
      ∀ i, i < m → (forRange 0 m u fun t i => t.set (p.getD i 0) (b.getD i 0)).getD (p.getD i 0) 0 = b.getD i 0 := by
    intro m
    induction m with
    | zero => intro _; exact ⟨hu, fun i hi => absurd hi (by omega)⟩
    | succ m ih =>
      intro hm
      obtain ⟨g1, g2⟩ := ih (by omega)
      rw [forRange_succ]
      refine ⟨by rw [List.length_set, g1], fun i hi => ?_⟩
      rw [getD_set]
      by_cases him : i = m
      · subst him; rw [if_pos ⟨rfl, by rw [g1]; exact h3 i (by omega)⟩]
      · rw [if_neg (fun e => him (perm_inj p h2 m i (by omega) (by omega) e.1).symm), g2 i (by omega)]
  exact this _ (le_refl _)

/-! ### packed factor -/

theorem tri_succ (i : Nat) : (i + 1) * (i + 1 + 1) / 2 = i * (i + 1) / 2 + (i + 1) := by
  rw [show (i + 1) * (i + 1 + 1) = i * (i + 1) + (i + 1) * 2 by ring, Nat.add_mul_div_right _ _ (by omega)]

theorem tri_mono {i j : Nat} (h : i ≤ j) : i * (i + 1) / 2 ≤ j * (j + 1) / 2 :=
  Nat.div_le_div_right (Nat.mul_le_mul h (by omega))

theorem packLower_eq [Zero K] (L : Nat → Nat → K) (n : Nat) (u : List K) (hu : n * (n + 1) / 2 ≤ u.length) :
    (packLower L n u).length = u.length ∧
    ∀ i j, i < n → j ≤ i → (packLower L n u).getD (i * (i + 1) / 2 + j) 0 = L i j := by
  unfold packLower
  have inner : ∀ (i m k : Nat) (v : List K), m ≤ i + 1 →
      let s := forRange 0 m (k, v) fun s j => (s.1 + 1, s.2.set s.1 (L i j))
      s.1 = k + m ∧ s.2.length = v.length ∧ (∀ q, q < k ∨ k + m ≤ q → s.2.getD q 0 = v.getD q 0) ∧
      (k + m ≤ v.length → ∀ j, j < m → s.2.getD (k + j) 0 = L i j) := by
    intro i m k v
    induction m with
    | zero => intro _; exact ⟨rfl, rfl, fun _ _ => rfl, fun _ j hj => absurd hj (by omega)⟩
    | succ m ih =>
      intro hm
      obtain ⟨h1, h2, h3, h4⟩ := ih (by omega)
      simp only [forRange_succ]
      generalize forRange 0 m (k, v) (fun s j => (s.1 + 1, s.2.set s.1 (L i j))) = s at *
      refine ⟨by rw [h1]; omega, by rw [List.length_set, h2], fun q hq => ?_, fun hlen j hj => ?_⟩
      · rw [getD_set, if_neg (by rw [h1]; omega), h3 q (by omega)]
      · rw [getD_set, h1, h2]
        by_cases hjm : j = m
        · rw [if_pos (by omega), hjm]
        · rw [if_neg (by omega), h4 (by omega) j (by omega)]
  have outer : ∀ m, m ≤ n →
      let s := forRange 0 m (0, u) fun s i => forRange 0 (i + 1) s fun s j => (s.1 + 1, s.2.set s.1 (L i j))
      s.1 = m * (m + 1) / 2 ∧ s.2.length = u.length ∧
      ∀ i j, i < m → j ≤ i → s.2.getD (i * (i + 1) / 2 + j) 0 = L i j := by
    intro m
    induction m with
    | zero => intro _; exact ⟨rfl, rfl, fun i j hi => absurd hi (by omega)⟩
    | succ m ih =>
      intro hm
      obtain ⟨h1, h2, h3⟩ := ih (by omega)
      intro s'
      have hs' : s' = forRange 0 (m + 1) (forRange 0 m (0, u) fun s i => forRange 0 (i + 1) s fun s j =>
        (s.1 + 1, s.2.set s.1 (L i j))) fun s j => (s.1 + 1, s.2.set s.1 (L m j)) := forRange_succ _ _ _
      rw [hs']
      clear_value s'
      clear hs' s'
      generalize forRange 0 m (0, u) (fun s i => forRange 0 (i + 1) s fun s j => (s.1 + 1, s.2.set s.1 (L i j))) = s at *
      obtain ⟨k, v⟩ := s
      simp only [] at h1 h2 h3
      obtain ⟨g1, g2, g3, g4⟩ := inner m (m + 1) k v (le_refl _)
      have ht := tri_succ m
      have hmn := tri_mono hm
      refine ⟨by rw [g1, h1, ht], by rw [g2, h2], fun i j hi hj => ?_⟩
      by_cases him : i = m
      · subst him
        rw [← h1]
        exact g4 (by omega) j (by omega)
      · have hmi := @tri_mono (i + 1) m (by omega)
        have := tri_succ i
        rw [g3 _ (Or.inl (by omega)), h3 i j (by omega) hj]
  exact ⟨(outer n (le_refl _)).2.1, (outer n (le_refl _)).2.2⟩

theorem packedForward_eq [Field K] (Lflat b temp : List K) (n : Nat) (ht : temp.length = n)
    (hd : ∀ i, i < n → Lflat.getD (i * (i + 1) / 2 + i) 0 ≠ 0) :
    (packedForward Lflat b temp n).2.length = n ∧
    ∀ i, i < n → ∑ j ∈ range (i + 1), Lflat.getD (i * (i + 1) / 2 + j) 0 * (packedForward Lflat b temp n).2.getD j 0 = b.getD i 0 := by
  have inner : ∀ (m k : Nat) (v : K) (t : List K),
      forRange 0 m (k, v) (fun r j => (r.1 + 1, r.2 - Lflat.getD r.1 0 * t.getD j 0)) =
      (k + m, v - ∑ j ∈ range m, Lflat.getD (k + j) 0 * t.getD j 0) := by
    intro m k v t
    induction m with
    | zero => rw [range_zero, sum_empty, sub_zero]; rfl
    | succ m ih =>
      rw [forRange_succ, ih, sum_range_succ]
      refine Prod.ext_iff.2 ⟨by simp only []; omega, by simp only []; ring⟩
  have heq : ∀ m, packedForward Lflat b temp m = (m * (m + 1) / 2, forRange 0 m temp fun t i =>
      t.set i ((b.getD i 0 - ∑ j ∈ range i, Lflat.getD (i * (i + 1) / 2 + j) 0 * t.getD j 0) / Lflat.getD (i * (i + 1) / 2 + i) 0)) := by
    intro m
    induction m with
    | zero => rfl
    | succ m ih =>
      unfold packedForward at *
      rw [forRange_succ, forRange_succ, ih]
      simp only [inner]
      rw [tri_succ, Nat.add_assoc]
  have := up_solve n (fun i t => (b.getD i 0 - ∑ j ∈ range i, Lflat.getD (i * (i + 1) / 2 + j) 0 * t.getD j 0) / Lflat.getD (i * (i + 1) / 2 + i) 0) temp ht
    (by
      intro i hi y y' h
      congr 2
      apply sum_congr rfl
      intro j hj
      rw [h j (mem_range.1 hj)])
  rw [heq n]
  refine ⟨this.1, fun i hi => ?_⟩
  have h := this.2 i hi
  generalize (forRange 0 n temp fun t i => _) = t at *
  rw [eq_div_iff (hd i hi)] at h
  simp only []
  rw [sum_range_succ, mul_comm (Lflat.getD (i * (i + 1) / 2 + i) 0), h]; ring

theorem packedBackward_eq [Field K] (Lflat temp x : List K) (n : Nat) (hx : x.length = n)
    (hd : ∀ i, i < n → Lflat.getD (i * (i + 1) / 2 + i) 0 ≠ 0) :
    (packedBackward Lflat temp x n).length = n ∧
    ∀ i, i < n → ∑ j ∈ Ico i n, Lflat.getD (j * (j + 1) / 2 + i) 0 * (packedBackward Lflat temp x n).getD j 0 = temp.getD i 0 := by
  have heq : packedBackward Lflat temp x n = forDown n x fun x i =>
      x.set i ((temp.getD i 0 - ∑ j ∈ Ico (i + 1) n, Lflat.getD (j * (j + 1) / 2 + i) 0 * x.getD j 0) / Lflat.getD (i * (i + 1) / 2 + i) 0) := by
    unfold packedBackward
    apply forDown_congr
    intro x i hi
    simp only []
    rw [forRange_sub]
  have := down_solve n (fun i x => (temp.getD i 0 - ∑ j ∈ Ico (i + 1) n, Lflat.getD (j * (j + 1) / 2 + i) 0 * x.getD j 0) / Lflat.getD (i * (i + 1) / 2 + i) 0) x hx
    (by
      intro i hi y y' h
      congr 2
      apply sum_congr rfl
      intro j hj
      rw [h j (by have := (mem_Ico.1 hj).1; omega)])
  rw [← heq] at this
  refine ⟨this.1, fun i hi => ?_⟩
  have h := this.2 i hi
  rw [eq_div_iff (hd i hi)] at h
  rw [sum_eq_sum_Ico_succ_bot hi, mul_comm (Lflat.getD (i * (i + 1) / 2 + i) 0), h]; ring

end PyNucleus.Direct
