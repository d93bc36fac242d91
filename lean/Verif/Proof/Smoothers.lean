import Verif.Model.Smoothers
import Verif.Spec.Smoothers
import Verif.Proof.Direct3
import Verif.Proof.Vec
import Mathlib.Tactic.FieldSimp
import Mathlib.Tactic.LinearCombination

/-! # Proofs about the smoothers -/

namespace PyNucleus.Smoothers

open PyNucleus.Loops PyNucleus.Spec PyNucleus.CSR PyNucleus.Direct PyNucleus.Blas Finset

variable {K : Type}

/-! ### rows -/

theorem breakRow_eq [Field K] (stop : Nat → Bool) (r : List K) (l : List (Nat × K))
    (h : l.Pairwise fun a b => stop a.1 = true → stop b.1 = true) : ∀ t : K,
    breakRow stop r l t = t - ((l.filter fun e => !stop e.1).map fun e => e.2 * r.getD e.1 0).sum := by
  induction l with
  | nil => intro t; simp [breakRow]
  | cons a l ih =>
    intro t
    obtain ⟨k, d⟩ := a
    rw [List.pairwise_cons] at h
    unfold breakRow
    by_cases hs : stop k = true
    · rw [if_pos hs, List.filter_cons_of_neg (by simpa using hs)]
      have : l.filter (fun e => !stop e.1) = [] := by
        rw [List.filter_eq_nil_iff]
        intro e he
        simpa using h.1 e he hs
      rw [this]; simp
    · rw [if_neg hs, ih h.2, List.filter_cons_of_pos (by simpa using hs), List.map_cons, List.sum_cons]
      ring

theorem filter_sum [Field K] (l : List (Nat × K)) (n : Nat) (hl : ∀ e ∈ l, e.1 < n) (p : Nat → Bool) (r : List K) :
    ((l.filter fun e => p e.1).map fun e => e.2 * r.getD e.1 0).sum =
      ∑ m ∈ range n, if p m then at' l m * r.getD m 0 else 0 := by
  rw [sum_row_eq _ n (fun e he => hl e (List.mem_of_mem_filter he)) (fun m => r.getD m 0)]
  apply sum_congr rfl
  intro m _
  rw [List.filter_filter]
  split
  · rename_i hp
    unfold at'
    congr 4
    funext e
    by_cases he : e.1 = m
    · simp [he, hp]
    · simp [he]
  · rename_i hp
    rw [List.filter_eq_nil_iff.2 (by
      intro e _
      by_cases he : e.1 = m
      · simp [he, hp]
      · simp [he])]
    simp

theorem sum_lower [AddCommMonoid K] (n i : Nat) (hi : i ≤ n) (f : Nat → K) :
    (∑ m ∈ range n, if !(decide (m ≥ i)) then f m else 0) = ∑ m ∈ range i, f m := by
  rw [← sum_filter]
  apply sum_congr _ fun _ _ => rfl
  ext m
  simp
  omega

theorem sum_upper [AddCommMonoid K] (n i : Nat) (f : Nat → K) :
    (∑ m ∈ range n, if !(decide (m ≤ i)) then f m else 0) = ∑ m ∈ Ico (i + 1) n, f m := by
  rw [← sum_filter]
  apply sum_congr _ fun _ _ => rfl
  ext m
  simp
  omega

theorem sorRow_fwd [Field K] (A : CSR K) (hA : A.Valid) (hs : A.Sorted) (hsq : A.numCols = A.numRows) (D : List K)
    (omega : K) (i : Nat) (hi : i < A.numRows) (r : List K) (t : K) :
    sorRow A D omega true i r t = omega * (t - lowerMul A.entry r i) / D.getD i 0 := by
  unfold sorRow
  rw [if_pos rfl, breakRow_eq, filter_sum (A.row i) A.numCols (row_cols A hA i) (fun k => !decide (k ≥ i)),
    sum_lower _ _ (by omega)]
  · rfl
  · have := hs i hi
    rw [List.pairwise_map] at this
    refine this.imp fun h => ?_
    simp only [decide_eq_true_eq]
    omega

theorem sorRow_bwd [Field K] (A : CSR K) (hA : A.Valid) (hs : A.Sorted) (hsq : A.numCols = A.numRows) (D : List K)
    (omega : K) (i : Nat) (hi : i < A.numRows) (r : List K) (t : K) :
    sorRow A D omega false i r t = omega * (t - upperMul A.numRows A.entry r i) / D.getD i 0 := by
  unfold sorRow
  rw [if_neg (by simp), breakRow_eq, List.filter_reverse, List.map_reverse, List.sum_reverse,
    filter_sum (A.row i) A.numCols (row_cols A hA i) (fun k => !decide (k ≤ i)), sum_upper, hsq]
  · rfl
  · rw [List.pairwise_reverse]
    have := hs i hi
    rw [List.pairwise_map] at this
    refine this.imp fun h => ?_
    simp only [decide_eq_true_eq]
    omega

theorem split_mul [Field K] (n : Nat) (M : Nat → Nat → K) (x : List K) (i : Nat) (hi : i < n) :
    mulVec n M x i = lowerMul M x i + M i i * x.getD i 0 + upperMul n M x i := by
  unfold mulVec lowerMul upperMul
  rw [range_eq_Ico, ← sum_Ico_consecutive _ (Nat.zero_le i) hi.le, sum_eq_sum_Ico_succ_bot hi, ← range_eq_Ico]
  ring

/-! ### SOR -/

theorem lower_congr [Field K] (M : Nat → Nat → K) (x y : List K) (i : Nat) (h : ∀ k, k < i → x.getD k 0 = y.getD k 0) :
    lowerMul M x i = lowerMul M y i :=
  sum_congr rfl fun m hm => by rw [h m (mem_range.1 hm)]

theorem upper_congr [Field K] (n : Nat) (M : Nat → Nat → K) (x y : List K) (i : Nat)
    (h : ∀ k, i < k → x.getD k 0 = y.getD k 0) : upperMul n M x i = upperMul n M y i :=
  sum_congr rfl fun m hm => by rw [h m (by have := mem_Ico.1 hm; omega)]

theorem zeros_len [Zero K] (r : List K) : (zeros r).length = r.length := (zeroOut r).1

theorem sorSweep_eq [Field K] (A : CSR K) (hA : A.Valid) (hs : A.Sorted) (hsq : A.numCols = A.numRows) (D : List K)
    (hD : D.length = A.numRows) (hD0 : ∀ i, i < A.numRows → D.getD i 0 ≠ 0) (omega : K) (ho : omega ≠ 0)
    (forward : Bool) (x r : List K) (hr : r.length = A.numRows) :
    (sorSweep A D omega forward x r).length = A.numRows ∧ ∀ i, i < A.numRows →
      D.getD i 0 / omega * (sorSweep A D omega forward x r).getD i 0 +
        (if forward then lowerMul A.entry (sorSweep A D omega forward x r) i
          else upperMul A.numRows A.entry (sorSweep A D omega forward x r) i) = x.getD i 0 := by
  cases forward
  · have h := down_solve A.numRows (fun i r => sorRow A D omega false i r (x.getD i 0)) r hr
      (fun i hi y y' hyy => by
        rw [sorRow_bwd A hA hs hsq D omega i hi, sorRow_bwd A hA hs hsq D omega i hi,
          upper_congr _ _ y y' i hyy])
    have he : sorSweep A D omega false x r = forDown A.numRows r fun r i =>
        r.set i (sorRow A D omega false i r (x.getD i 0)) := by
      unfold sorSweep; rw [if_neg (by simp), hD]
    rw [he]
    generalize (forDown A.numRows r fun r i => r.set i (sorRow A D omega false i r (x.getD i 0))) = z at *
    refine ⟨h.1, fun i hi => ?_⟩
    have h2 := h.2 i hi
    rw [sorRow_bwd A hA hs hsq D omega i hi] at h2
    have := hD0 i hi
    rw [h2]
    simp only [Bool.false_eq_true, if_false]
    field_simp
    ring
  · have h := up_solve A.numRows (fun i r => sorRow A D omega true i r (x.getD i 0)) r hr
      (fun i hi y y' hyy => by
        rw [sorRow_fwd A hA hs hsq D omega i hi, sorRow_fwd A hA hs hsq D omega i hi,
          lower_congr _ y y' i hyy])
    have he : sorSweep A D omega true x r = forRange 0 A.numRows r fun r i =>
        r.set i (sorRow A D omega true i r (x.getD i 0)) := by
      unfold sorSweep; rw [if_pos rfl, hD]
    rw [he]
    generalize (forRange 0 A.numRows r fun r i => r.set i (sorRow A D omega true i r (x.getD i 0))) = z at *
    refine ⟨h.1, fun i hi => ?_⟩
    have h2 := h.2 i hi
    rw [sorRow_fwd A hA hs hsq D omega i hi] at h2
    have := hD0 i hi
    rw [h2]
    simp only [if_true]
    field_simp
    ring

theorem ssor_eq [Field K] (A : CSR K) (hA : A.Valid) (hs : A.Sorted) (hsq : A.numCols = A.numRows) (D : List K)
    (hD : D.length = A.numRows) (hD0 : ∀ i, i < A.numRows → D.getD i 0 ≠ 0) (omega : K) (ho : omega ≠ 0)
    (x r : List K) (hr : r.length = A.numRows) :
    (ssorMatvec A D omega x r).length = A.numRows ∧ ∃ y z : List K, y.length = A.numRows ∧ z.length = A.numRows ∧
      ∀ i, i < A.numRows → D.getD i 0 / omega * y.getD i 0 + lowerMul A.entry y i = x.getD i 0 ∧
        D.getD i 0 / omega * z.getD i 0 + upperMul A.numRows A.entry z i = D.getD i 0 / omega * y.getD i 0 ∧
        (ssorMatvec A D omega x r).getD i 0 = (2 - omega) * z.getD i 0 := by
  obtain ⟨h1, h2⟩ := sorSweep_eq A hA hs hsq D hD hD0 omega ho true x (zeros r) ((zeros_len r).trans hr)
  unfold ssorMatvec
  dsimp only
  generalize sorSweep A D omega true x (zeros r) = y at *
  have hw := CSR.forRange_set y D.length (by omega) fun i v => v * (D.getD i 0 / omega)
  generalize (forRange 0 D.length y fun r i => r.set i (r.getD i 0 * (D.getD i 0 / omega))) = w at *
  have halias : (forDown D.length w fun r i => r.set i (sorRow A D omega false i r (r.getD i 0))) =
      sorSweep A D omega false w w := by
    unfold sorSweep
    rw [if_neg (by simp)]
    exact alias_eq (fun i v r => sorRow A D omega false i r v) w _ w (List.nodup_reverse.2 List.nodup_range)
      fun _ _ => rfl
  rw [halias]
  obtain ⟨h3, h4⟩ := sorSweep_eq A hA hs hsq D hD hD0 omega ho false w w (by omega)
  generalize sorSweep A D omega false w w = z at *
  have hf := CSR.forRange_set z D.length (by omega) fun _ v => v * (2 - omega)
  refine ⟨by omega, y, z, h1, h3, fun i hi => ⟨by simpa using h2 i hi, ?_, ?_⟩⟩
  · have := h4 i hi
    simp only [Bool.false_eq_true, if_false] at this
    rw [this, hw.2 i, if_pos (by omega)]; ring
  · rw [hf.2 i, if_pos (by omega)]; ring

/-! ### two operands of a time stepper -/

theorem comb_valid [Field K] (M S : CSR K) (facS facM : K) (hS : S.Valid) : (comb M S facS facM).Valid :=
  ⟨hS.indptr, by simp [comb], hS.cols⟩

theorem comb_row [Field K] (M S : CSR K) (facS facM : K) (hS : S.Valid) (hM : M.Valid) (hp : SamePattern M S) (i : Nat) :
    (comb M S facS facM).row i = List.zipWith (fun e e' => (e.1, facS * e.2 + facM * e'.2)) (S.row i) (M.row i) := by
  have hz : ((comb M S facS facM).indices.zip (comb M S facS facM).data) =
      List.zipWith (fun (e e' : Nat × K) => (e.1, facS * e.2 + facM * e'.2)) (S.indices.zip S.data) (M.indices.zip M.data) := by
    have h1 := hS.data
    have h2 := hM.data
    have h3 := hp.2.1
    apply List.ext_getElem
    · have h4 : M.indices.length = S.indices.length := by rw [h3]
      simp [comb]; omega
    · intro j hj hj'
      simp [comb] at hj
      have e1 : j < S.data.length := by omega
      have e2 : j < M.data.length := by rw [h2, h3]; omega
      simp [comb, e1, e2]
  unfold CSR.row csrRow
  rw [hz, List.drop_zipWith, List.take_zipWith]
  simp only [comb, hp.1]

theorem row_fst_eq (M S : CSR K) (hS : S.Valid) (hM : M.Valid) (hp : SamePattern M S) (i : Nat) :
    (M.row i).map Prod.fst = (S.row i).map Prod.fst := by
  unfold CSR.row csrRow
  rw [List.map_take, List.map_drop, List.map_take, List.map_drop, List.map_fst_zip (by rw [hM.data]),
    List.map_fst_zip (by rw [hS.data]), hp.1, hp.2.1]

theorem at'_zipWith [Field K] (a b : K) : ∀ (l l' : List (Nat × K)), l'.map Prod.fst = l.map Prod.fst → ∀ m,
    at' (List.zipWith (fun (e e' : Nat × K) => (e.1, a * e.2 + b * e'.2)) l l') m = a * at' l m + b * at' l' m := by
  intro l
  induction l with
  | nil => intro l' h m; cases l' with
    | nil => simp [at'_nil]
    | cons => simp at h
  | cons e l ih => intro l' h m; cases l' with
    | nil => simp at h
    | cons e' l' =>
      simp only [List.map_cons, List.cons.injEq] at h
      rw [List.zipWith_cons_cons, at'_cons, at'_cons, at'_cons, ih l' h.2, h.1]
      dsimp only
      split <;> ring

theorem comb_entry [Field K] (M S : CSR K) (facS facM : K) (hS : S.Valid) (hM : M.Valid) (hp : SamePattern M S)
    (i j : Nat) : (comb M S facS facM).entry i j = facS * S.entry i j + facM * M.entry i j := by
  rw [entry_at', comb_row M S facS facM hS hM hp, at'_zipWith _ _ _ _ (row_fst_eq M S hS hM hp i)]
  rfl

theorem comb_sorted [Field K] (M S : CSR K) (facS facM : K) (hS : S.Valid) (hM : M.Valid) (hp : SamePattern M S)
    (h : S.Sorted) : (comb M S facS facM).Sorted := by
  intro i hi
  have : ((comb M S facS facM).row i).map Prod.fst = (S.row i).map Prod.fst := by
    have h1 := row_fst_eq M S hS hM hp i
    have h2 : (M.row i).length = (S.row i).length := by simpa using congrArg List.length h1
    rw [comb_row M S facS facM hS hM hp, List.map_zipWith]
    apply List.ext_getElem
    · simp [h2]
    · intro j hj hj'; simp
  rw [this]
  exact h i hi

/-! ### Gauss-Seidel on CSR matrices -/

/-- Every row is updated from the current array: the rows still to be visited hold their old value. -/
theorem inplace [Zero K] (g : Nat → List K → K) : ∀ (l : List Nat) (y0 : List K), l.Nodup →
    (∀ i ∈ l, i < y0.length) →
    (l.foldl (fun y i => y.set i (g i y)) y0).length = y0.length ∧
    (∀ i, i ∉ l → (l.foldl (fun y i => y.set i (g i y)) y0).getD i 0 = y0.getD i 0) ∧
    ∀ pre i post, l = pre ++ i :: post → ∃ w : List K, w.length = y0.length ∧
      (∀ k, k ∈ i :: post → w.getD k 0 = y0.getD k 0) ∧
      (∀ k, k ∉ i :: post → w.getD k 0 = (l.foldl (fun y i => y.set i (g i y)) y0).getD k 0) ∧
      (l.foldl (fun y i => y.set i (g i y)) y0).getD i 0 = g i w := by
  intro l
  induction l with
  | nil => intro y0 _ _; exact ⟨rfl, fun _ _ => rfl, fun pre i post h => by simp at h⟩
  | cons j t ih =>
    intro y0 hnd hlt
    rw [List.nodup_cons] at hnd
    have hj := hlt j (by simp)
    rw [List.foldl_cons]
    obtain ⟨h1, h2, h3⟩ := ih (y0.set j (g j y0)) hnd.2 (fun i hi => by rw [List.length_set]; exact hlt i (by simp [hi]))
    rw [List.length_set] at h1 h3
    generalize t.foldl (fun y i => y.set i (g i y)) (y0.set j (g j y0)) = y at *
    have hyj : y.getD j 0 = g j y0 := by rw [h2 j hnd.1, getD_set, if_pos ⟨rfl, hj⟩]
    refine ⟨h1, fun i hi => ?_, fun pre i post hl => ?_⟩
    · rw [List.mem_cons, not_or] at hi
      rw [h2 i hi.2, getD_set, if_neg (fun h => hi.1 h.1.symm)]
    · cases pre with
      | nil =>
        simp only [List.nil_append, List.cons.injEq] at hl
        obtain ⟨rfl, rfl⟩ := hl
        refine ⟨y0, rfl, fun _ _ => rfl, fun k hk => ?_, hyj⟩
        rw [List.mem_cons, not_or] at hk
        rw [h2 k hk.2, getD_set, if_neg (fun h => hk.1 h.1.symm)]
      | cons p pre =>
        simp only [List.cons_append, List.cons.injEq] at hl
        obtain ⟨w, w1, w2, w3, w4⟩ := h3 pre i post hl.2
        refine ⟨w, w1, fun k hk => ?_, w3, w4⟩
        have hkt : k ∈ t := by rw [hl.2]; simp at hk ⊢; tauto
        rw [w2 k hk, getD_set, if_neg (show ¬ (j = k ∧ k < y0.length) from fun h => hnd.1 (h.1 ▸ hkt))]

theorem range_split (n i : Nat) (hi : i < n) : ∃ post, List.range n = List.range i ++ i :: post ∧ ∀ k, k ∈ i :: post ↔ i ≤ k ∧ k < n := by
  refine ⟨(List.range (n - i - 1)).map (i + 1 + ·), ?_, fun k => ?_⟩
  · have h : n = i + (1 + (n - i - 1)) := by omega
    conv_lhs => rw [h]
    rw [List.range_add, List.range_add]
    simp [Nat.add_assoc]
  · simp only [List.mem_cons, List.mem_map, List.mem_range]
    constructor
    · rintro (rfl | ⟨a, ha, rfl⟩) <;> omega
    · intro h
      rcases Nat.eq_or_lt_of_le h.1 with h1 | h1
      · exact Or.inl h1.symm
      · exact Or.inr ⟨k - i - 1, by omega, by omega⟩

theorem gsRow_eq [Field K] (A : CSR K) (hA : A.Valid) (hsq : A.numCols = A.numRows) (D b : List K) (i : Nat)
    (hi : i < A.numRows) (hD : D.getD i 0 = A.entry i i) (hD0 : D.getD i 0 ≠ 0) (y : List K) :
    A.entry i i * gsRow A D b i y = b.getD i 0 - lowerMul A.entry y i - upperMul A.numRows A.entry y i := by
  unfold gsRow
  rw [forRow_sub A hA i hi, hsq]
  have := split_mul A.numRows A.entry y i hi
  unfold mulVec at this
  rw [this, ← hD]
  field_simp
  ring

theorem gsSweep_fwd [Field K] (A : CSR K) (hA : A.Valid) (hsq : A.numCols = A.numRows) (D b y : List K)
    (hy : y.length = A.numRows) (hD : ∀ i, i < A.numRows → D.getD i 0 = A.entry i i ∧ D.getD i 0 ≠ 0) :
    SweepEq A.numRows A.entry b true y (forRange 0 A.numRows y fun y i => y.set i (gsRow A D b i y)) := by
  rw [forRange_zero]
  obtain ⟨h1, h2, h3⟩ := inplace (fun i y => gsRow A D b i y) (List.range A.numRows) y List.nodup_range
    (fun i hi => by rw [hy]; simpa using hi)
  generalize (List.range A.numRows).foldl (fun y i => y.set i (gsRow A D b i y)) y = z at *
  refine ⟨h1.trans hy, fun i hi => ?_⟩
  obtain ⟨post, hp, hm⟩ := range_split A.numRows i hi
  obtain ⟨w, w1, w2, w3, w4⟩ := h3 _ i post hp
  rw [w4, gsRow_eq A hA hsq D b i hi (hD i hi).1 (hD i hi).2]
  rw [if_pos rfl, if_pos rfl]
  rw [lower_congr A.entry z w i fun k hk => (w3 k (by rw [hm]; omega)).symm,
    show upperMul A.numRows A.entry y i = upperMul A.numRows A.entry w i from
      sum_congr rfl fun m hmm => by
        have := mem_Ico.1 hmm
        rw [w2 m (by rw [hm]; omega)]]
  ring

theorem gsSweep_bwd [Field K] (A : CSR K) (hA : A.Valid) (hsq : A.numCols = A.numRows) (D b y : List K)
    (hy : y.length = A.numRows) (hD : ∀ i, i < A.numRows → D.getD i 0 = A.entry i i ∧ D.getD i 0 ≠ 0) :
    SweepEq A.numRows A.entry b false y (forDown A.numRows y fun y i => y.set i (gsRow A D b i y)) := by
  unfold forDown
  obtain ⟨h1, h2, h3⟩ := inplace (fun i y => gsRow A D b i y) (List.range A.numRows).reverse y
    (List.nodup_reverse.2 List.nodup_range) (fun i hi => by rw [hy]; simpa using hi)
  generalize (List.range A.numRows).reverse.foldl (fun y i => y.set i (gsRow A D b i y)) y = z at *
  refine ⟨h1.trans hy, fun i hi => ?_⟩
  obtain ⟨post, hp, hm⟩ := range_split A.numRows i hi
  obtain ⟨w, w1, w2, w3, w4⟩ := h3 post.reverse i (List.range i).reverse (by rw [hp]; simp)
  rw [w4, gsRow_eq A hA hsq D b i hi (hD i hi).1 (hD i hi).2]
  rw [if_neg (by simp), if_neg (by simp)]
  rw [upper_congr A.numRows A.entry z w i fun k hk => (w3 k (by simp; omega)).symm,
    lower_congr A.entry y w i fun k hk => (w2 k (by simp; omega)).symm]
  ring

theorem gsCSR_chain [Field K] (A : CSR K) (hA : A.Valid) (hsq : A.numCols = A.numRows) (D b : List K)
    (hD : ∀ i, i < A.numRows → D.getD i 0 = A.entry i i ∧ D.getD i 0 ≠ 0) (forward : Bool) (steps : Nat) (y : List K)
    (hy : y.length = A.numRows) :
    Chain (SweepEq A.numRows A.entry b forward) steps y (gsCSR A D b forward steps y) ∧
      (gsCSR A D b forward steps y).length = A.numRows := by
  have hstep : ∀ y : List K, y.length = A.numRows → SweepEq A.numRows A.entry b forward y
      (if forward then forRange 0 A.numRows y fun y i => y.set i (gsRow A D b i y)
        else forDown A.numRows y fun y i => y.set i (gsRow A D b i y)) := by
    intro y hy
    cases forward
    · exact gsSweep_bwd A hA hsq D b y hy hD
    · exact gsSweep_fwd A hA hsq D b y hy hD
  have hlen : ∀ m, (gsCSR A D b forward m y).length = A.numRows := by
    intro m
    induction m with
    | zero => exact hy
    | succ m ih =>
      unfold gsCSR at ih ⊢
      rw [forRange_succ]
      exact (hstep _ ih).1
  refine ⟨⟨fun m => gsCSR A D b forward m y, rfl, rfl, fun m _ => ?_⟩, hlen steps⟩
  have := hstep (gsCSR A D b forward m y) (hlen m)
  have e : gsCSR A D b forward (m + 1) y = if forward then
      forRange 0 A.numRows (gsCSR A D b forward m y) fun y i => y.set i (gsRow A D b i y)
      else forDown A.numRows (gsCSR A D b forward m y) fun y i => y.set i (gsRow A D b i y) := by
    conv_lhs => unfold gsCSR
    rw [forRange_succ]
    rfl
  beta_reduce
  rw [e]
  exact this

end PyNucleus.Smoothers
