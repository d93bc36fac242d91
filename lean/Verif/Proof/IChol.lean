import Verif.Model.IChol
import Verif.Proof.SSS
import Verif.Proof.Direct3
import Verif.Props.C10

/-! # Lemmas for the incomplete Cholesky factorisation -/

namespace PyNucleus.IChol

open PyNucleus.Loops PyNucleus.Spec PyNucleus.CSR PyNucleus.SSS PyNucleus.Direct Finset
open PyNucleus.Galerkin (sorted_nodup)

variable {K : Type}

/-! ### steps 1 and 2 -/

/-- The entries below the diagonal, keyed by column. -/
def lowItems (A : CSR K) : List (Nat × Nat × K) :=
  (List.range A.numRows).flatMap fun i =>
    ((A.row i).filter fun e => e.1 < i).map fun e => (e.1, i, e.2)

theorem foldl_filter' {α σ : Type} (p : α → Bool) (f : σ → α → σ) (l : List α) : ∀ s,
    l.foldl (fun s a => if p a then f s a else s) s = (l.filter p).foldl f s := by
  induction l with
  | nil => intro s; rfl
  | cons a t ih =>
    intro s
    by_cases h : p a = true
    · rw [List.filter_cons_of_pos h, List.foldl_cons, List.foldl_cons, if_pos h, ih]
    · rw [List.filter_cons_of_neg h, List.foldl_cons, if_neg h, ih]

theorem forRange_pair {σ τ : Type} (n : Nat) (a : σ) (b : τ) (f : σ → Nat → σ) (g : τ → Nat → τ) :
    forRange 0 n (a, b) (fun s i => (f s.1 i, g s.2 i)) = (forRange 0 n a f, forRange 0 n b g) := by
  induction n with
  | zero => rfl
  | succ n ih => rw [forRange_succ, forRange_succ, forRange_succ, ih]

theorem findDiag_eq [Zero K] (A : CSR K) (hA : A.Valid) (i : Nat) (hi : i < A.numRows) (diag : List K) :
    (findDiag A i diag).length = diag.length ∧ ∀ k, (findDiag A i diag).getD k 0 =
      if k = i ∧ i < diag.length then (((A.row i).find? fun e => e.1 = i).map Prod.snd).getD (diag.getD i 0) else diag.getD k 0 := by
  unfold findDiag
  rw [forRow_eq A hA i hi]
  have hT : ∀ (l : List (Nat × K)) (x : List K), l.foldl (fun s e => if s.2 then s else if e.1 = i then (s.1.set i e.2, true) else s) (x, true) = (x, true) := by
    intro l x
    induction l with
    | nil => rfl
    | cons a t ih => rw [List.foldl_cons]; exact ih
  have : ∀ (l : List (Nat × K)), (l.foldl (fun s e => if s.2 then s else if e.1 = i then (s.1.set i e.2, true) else s) (diag, false)).1 =
      match l.find? fun e => e.1 = i with | some e => diag.set i e.2 | none => diag := by
    intro l
    induction l with
    | nil => rfl
    | cons a t ih =>
      rw [List.foldl_cons]
      by_cases h : a.1 = i
      · rw [List.find?_cons_of_pos (by simpa using h)]
        simp only [Bool.false_eq_true, if_false, if_pos h]
        rw [hT]
      · rw [List.find?_cons_of_neg (by simpa using h)]
        simp only [Bool.false_eq_true, if_false, if_neg h]
        exact ih
  rw [this]
  cases hf : (A.row i).find? fun e => e.1 = i with
  | none =>
    refine ⟨rfl, fun k => ?_⟩
    by_cases hk : k = i ∧ i < diag.length
    · rw [if_pos hk, hk.1]; rfl
    · rw [if_neg hk]
  | some e =>
    refine ⟨List.length_set, fun k => ?_⟩
    simp only []
    rw [getD_set]
    by_cases hk : k = i ∧ i < diag.length
    · rw [if_pos ⟨hk.1.symm, by omega⟩, if_pos hk]; rfl
    · rw [if_neg (by omega), if_neg hk]

theorem diagLoop [Zero K] (A : CSR K) (hA : A.Valid) (dg : List K) (hdg : dg.length = A.numRows) : ∀ n, n ≤ A.numRows →
    (forRange 0 n dg fun d i => findDiag A i d).length = A.numRows ∧
    ∀ k, (forRange 0 n dg fun d i => findDiag A i d).getD k 0 =
      if k < n then (((A.row k).find? fun e => e.1 = k).map Prod.snd).getD (dg.getD k 0) else dg.getD k 0 := by
  intro n
  induction n with
  | zero => intro _; exact ⟨hdg, fun k => by simp [forRange]⟩
  | succ n ih =>
    intro hn
    obtain ⟨h1, h2⟩ := ih (by omega)
    rw [forRange_succ]
    generalize (forRange 0 n dg fun d i => findDiag A i d) = d at *
    obtain ⟨g1, g2⟩ := findDiag_eq A hA n (by omega) d
    refine ⟨g1.trans h1, fun k => ?_⟩
    rw [g2 k]
    by_cases hk : k = n
    · rw [if_pos ⟨hk, by omega⟩, if_pos (by omega), hk, h2 n, if_neg (by omega)]
    · rw [if_neg (fun h => hk h.1), h2 k]
      by_cases hkn : k < n
      · rw [if_pos hkn, if_pos (by omega)]
      · rw [if_neg hkn, if_neg (by omega)]

theorem lowItems_bound (A : CSR K) : ∀ e ∈ lowItems A, e.1 < e.2.1 ∧ e.2.1 < A.numRows := by
  intro e he
  obtain ⟨i, hi, he⟩ := List.mem_flatMap.1 he
  obtain ⟨x, hx, rfl⟩ := List.mem_map.1 he
  have := (List.mem_filter.1 hx).2
  exact ⟨by simpa using this, List.mem_range.1 hi⟩

/-- The columns before sorting. -/
theorem lowerColumns_eq [Zero K] (A : CSR K) (hA : A.Valid) (u : List Nat) (dg : List K)
    (hu : u.length = (lowItems A).length) :
    ∃ B : CSR K, lowerColumns A u dg = (sortMatrix B, forRange 0 A.numRows dg fun d i => findDiag A i d) ∧
      B.Valid ∧ B.numRows = A.numRows ∧ B.numCols = A.numRows ∧
      ∀ c, c < A.numRows → B.row c = ((lowItems A).filter fun it => it.1 = c).map Prod.snd := by
  have e1 : (forRange 0 A.numRows (List.replicate (A.numRows + 1) 0) fun p i =>
      forRow A i p fun p j _ => if j < i then p.modify (j + 1) (· + 1) else p) =
      countKeys A.numRows ((lowItems A).map Prod.fst) := by
    unfold countKeys lowItems
    rw [forRange_zero, List.foldl_map, List.foldl_flatMap]
    apply foldl_congr_mem
    intro p i hi
    rw [forRow_eq A hA i (List.mem_range.1 hi), List.foldl_map, ← foldl_filter']
    apply foldl_congr_mem
    intro p e _
    by_cases h : e.1 < i
    · rw [if_pos h, if_pos (by simpa using h)]
    · rw [if_neg h, if_neg (by simpa using h)]
  have e2 : ∀ s : Fill K, (forRange 0 A.numRows s fun s i =>
      forRow A i s fun s j d => if j < i then put s j i d else s) =
      (lowItems A).foldl (fun s e => put s e.1 e.2.1 e.2.2) s := by
    intro s
    unfold lowItems
    rw [forRange_zero, List.foldl_flatMap]
    apply foldl_congr_mem
    intro s i hi
    rw [forRow_eq A hA i (List.mem_range.1 hi), List.foldl_map, ← foldl_filter']
    apply foldl_congr_mem
    intro s e _
    by_cases h : e.1 < i
    · rw [if_pos h, if_pos (by simpa using h)]
    · rw [if_neg h, if_neg (by simpa using h)]
  obtain ⟨a1, a2, a3⟩ := assemble A.numRows A.numRows (lowItems A)
    (fun e he => by have := lowItems_bound A e he; omega) (fun e he => (lowItems_bound A e he).2)
    u (List.replicate u.length 0) hu (by simpa using hu)
  refine ⟨_, ?_, a1, rfl, rfl, a3⟩
  unfold lowerColumns
  simp only []
  rw [e1, forRange_pair A.numRows (cumsum A.numRows (countKeys A.numRows ((lowItems A).map Prod.fst)), u, List.replicate u.length 0) dg
    (fun s i => forRow A i s fun s j d => if j < i then put s j i d else s) (fun d i => findDiag A i d), e2]

theorem lowItems_filter (A : CSR K) (c : Nat) :
    ((lowItems A).filter fun it => it.1 = c).map Prod.snd =
      (List.range A.numRows).flatMap fun i => ((A.row i).filter fun e => e.1 = c ∧ c < i).map fun e => (i, e.2) := by
  unfold lowItems
  rw [List.filter_flatMap, List.map_flatMap]
  congr 1
  funext i
  rw [List.filter_map, List.map_map, List.filter_filter]
  congr 1
  apply List.filter_congr
  intro e _
  simp only [Function.comp]
  by_cases h1 : e.1 = c
  · simp [h1]
  · simp [h1]

/-! ### step 3 -/

/-- One column step with a general scatter rule. -/
def colStep' [Field K] (f : K → K) (h : K → K → K) (cols : Nat → List (Nat × K)) (y : List K) (j : Nat) : List K :=
  (cols j).foldl (fun y e => y.modify e.1 (· - h (y.getD j 0) e.2)) (y.modify j f)

theorem scatter_list' [Field K] (h : K → K → K) (j : Nat) (l : List (Nat × K)) : ∀ y : List K,
    (∀ e ∈ l, e.1 ≠ j ∧ e.1 < y.length) →
    (l.foldl (fun y e => y.modify e.1 (· - h (y.getD j 0) e.2)) y).length = y.length ∧
    ∀ i, (l.foldl (fun y e => y.modify e.1 (· - h (y.getD j 0) e.2)) y).getD i 0 =
      y.getD i 0 - at' (l.map fun e => (e.1, h (y.getD j 0) e.2)) i := by
  induction l with
  | nil => intro y _; exact ⟨rfl, fun i => by rw [List.map_nil, at'_nil, sub_zero]; rfl⟩
  | cons e t ih =>
    intro y hc
    have he := hc e (by simp)
    rw [List.foldl_cons]
    obtain ⟨h1, h2⟩ := ih (y.modify e.1 (· - h (y.getD j 0) e.2)) (fun x hx => by
      rw [List.length_modify]; exact hc x (by simp [hx]))
    have hj : (y.modify e.1 (· - h (y.getD j 0) e.2)).getD j 0 = y.getD j 0 := by
      rw [getD_modify, if_neg (show ¬ (e.1 = j ∧ j < y.length) from fun x => he.1 x.1)]
    refine ⟨by rw [h1, List.length_modify], fun i => ?_⟩
    rw [h2 i, hj, List.map_cons, at'_cons, getD_modify]
    by_cases hi : e.1 = i
    · rw [if_pos ⟨hi, hi ▸ he.2⟩, if_pos hi]; ring
    · rw [if_neg (fun x => hi x.1), if_neg hi]; ring

/-- Values after `m` columns: the first `m` are final, the others have the first `m` columns
subtracted. -/
theorem col_range [Field K] (f : K → K) (h : K → K → K) (cols : Nat → List (Nat × K)) (n : Nat) (y0 : List K)
    (hy : y0.length = n) (hc : ∀ j, j < n → ∀ e ∈ cols j, j < e.1 ∧ e.1 < n) : ∀ m, m ≤ n →
    (forRange 0 m y0 (colStep' f h cols)).length = n ∧
    (∀ k i, i < k → k ≤ m → (forRange 0 k y0 (colStep' f h cols)).getD i 0 = (forRange 0 m y0 (colStep' f h cols)).getD i 0) ∧
    (∀ i, i < n → (forRange 0 m y0 (colStep' f h cols)).getD i 0 =
      if i < m then f (y0.getD i 0 - ∑ j ∈ range i, at' ((cols j).map fun e => (e.1, h ((forRange 0 m y0 (colStep' f h cols)).getD j 0) e.2)) i)
      else y0.getD i 0 - ∑ j ∈ range m, at' ((cols j).map fun e => (e.1, h ((forRange 0 m y0 (colStep' f h cols)).getD j 0) e.2)) i) := by
  intro m
  induction m with
  | zero =>
    intro _
    refine ⟨hy, fun k i h1 h2 => absurd h1 (by omega), fun i _ => ?_⟩
    rw [if_neg (by omega), range_zero, sum_empty, sub_zero]; rfl
  | succ m ih =>
    intro hm
    obtain ⟨h1, h2, h3⟩ := ih (by omega)
    rw [forRange_succ]
    generalize hs : forRange 0 m y0 (colStep' f h cols) = y at *
    have hcond : ∀ e ∈ cols m, e.1 ≠ m ∧ e.1 < (y.modify m f).length := by
      intro e he
      have := hc m (by omega) e he
      rw [List.length_modify]; omega
    obtain ⟨s1, s2⟩ := scatter_list' h m (cols m) _ hcond
    have hstep : colStep' f h cols y m = (cols m).foldl (fun y e => y.modify e.1 (· - h (y.getD m 0) e.2)) (y.modify m f) := rfl
    rw [← hstep] at s1 s2
    rw [List.length_modify] at s1
    generalize colStep' f h cols y m = z at *
    have hzm : z.getD m 0 = f (y.getD m 0) := by
      rw [s2 m, at'_zero _ _ (by
        intro e he
        obtain ⟨x, hx, rfl⟩ := List.mem_map.1 he
        exact (hcond x hx).1), sub_zero, getD_modify, if_pos ⟨rfl, by omega⟩]
    have hmm : (y.modify m f).getD m 0 = z.getD m 0 := by
      rw [hzm, getD_modify, if_pos ⟨rfl, by omega⟩]
    have hlow : ∀ i, i < m → z.getD i 0 = y.getD i 0 := by
      intro i hi
      rw [s2 i, at'_zero _ _ (by
        intro e he
        obtain ⟨x, hx, rfl⟩ := List.mem_map.1 he
        have := hc m (by omega) x hx
        show x.1 ≠ i
        omega), sub_zero, getD_modify, if_neg (by omega)]
    have hsum : ∀ M i, M ≤ m → ∑ j ∈ range M, at' ((cols j).map fun e => (e.1, h (z.getD j 0) e.2)) i =
        ∑ j ∈ range M, at' ((cols j).map fun e => (e.1, h (y.getD j 0) e.2)) i := by
      intro M i hM
      apply sum_congr rfl
      intro j hj
      rw [hlow j (by have := mem_range.1 hj; omega)]
    refine ⟨s1.trans h1, fun k i hk1 hk2 => ?_, fun i hi => ?_⟩
    · by_cases hkm : k ≤ m
      · rw [h2 k i hk1 hkm, hlow i (by omega)]
      · have : k = m + 1 := by omega
        rw [this, forRange_succ, hs]
        exact congrArg (fun l => List.getD l i 0) hstep.symm
    · have h3i := h3 i hi
      by_cases him : i < m
      · rw [if_pos (by omega), hlow i him, hsum i i (by omega), h3i, if_pos him]
      · rw [if_neg him] at h3i
        by_cases hie : i = m
        · rw [hie] at h3i ⊢
          rw [if_pos (by omega), hzm, h3i, hsum m m (le_refl _)]
        · rw [if_neg (by omega), sum_range_succ, hsum m i (le_refl _), s2 i, hmm, getD_modify, if_neg (by omega), h3i]
          ring

theorem pos_mem [Zero K] (C : CSR K) (hC : C.Valid) (i a : Nat) (hi : i < C.numRows) (h1 : C.indptr.getD i 0 ≤ a)
    (h2 : a < C.indptr.getD (i + 1) 0) : (C.indices.getD a 0, C.data.getD a 0) ∈ C.row i := by
  have hle := ValidIndptr.le_nnz hC.indptr (i + 1) (by omega)
  show _ ∈ ((C.indices.zip C.data).drop (C.indptr.getD i 0)).take (C.indptr.getD (i + 1) 0 - C.indptr.getD i 0)
  rw [List.mem_iff_getElem?]
  refine ⟨a - C.indptr.getD i 0, ?_⟩
  rw [List.getElem?_take, if_pos (by omega), List.getElem?_drop,
    show C.indptr.getD i 0 + (a - C.indptr.getD i 0) = a by omega,
    ← getD_zip C hC a (by omega), List.getD_eq_getElem?_getD,
    List.getElem?_eq_getElem (by rw [zlen C hC]; omega)]
  rfl

/-- No three mutually coupled indices. -/
def TriangleFree (C : CSR K) : Prop :=
  ∀ i, i < C.numRows → ∀ e ∈ C.row i, ∀ e' ∈ C.row e.1, ∀ e'' ∈ C.row i, e''.1 ≠ e'.1

theorem subtractMatch_id [Field K] (C : CSR K) (i jj kk : Nat) (data : List K)
    (h : ∀ hh, jj ≤ hh → hh < C.indptr.getD (i + 1) 0 → C.indices.getD hh 0 ≠ C.indices.getD kk 0) :
    subtractMatch C i jj kk data = data := by
  unfold subtractMatch
  rw [forRange_congr _ _ _ _ (fun s _ => s) (fun s k h1 h2 => by
    by_cases hs : s.2 = true
    · rw [if_pos hs]
    · rw [if_neg hs, if_neg (h k h1 h2)])]
  have : ∀ (l : List Nat) (s : List K × Bool), l.foldl (fun s _ => s) s = s := by
    intro l s
    induction l with
    | nil => rfl
    | cons a t ih => exact ih
  unfold forRange
  rw [this]

/-- The factorisation without triangles: the third loop does nothing. -/
theorem factor_simple [Field K] (sqrt : K → K) (C : CSR K) (hC : C.Valid) (hsq : C.numCols = C.numRows)
    (ht : TriangleFree C) (diag : List K) :
    factor sqrt C diag = forRange 0 C.numRows (diag, C.data) fun s i =>
      forRange (C.indptr.getD i 0) (C.indptr.getD (i + 1) 0) (s.1.modify i sqrt, s.2) fun s jj =>
        (s.1.modify (C.indices.getD jj 0) (· - (s.2.modify jj (· / s.1.getD i 0)).getD jj 0 *
          (s.2.modify jj (· / s.1.getD i 0)).getD jj 0), s.2.modify jj (· / s.1.getD i 0)) := by
  unfold factor
  apply forRange_congr
  intro s i _ hi
  apply forRange_congr
  intro s jj hj1 hj2
  simp only []
  congr 1
  have hm := pos_mem C hC i jj hi hj1 hj2
  have hj : C.indices.getD jj 0 < C.numRows := by rw [← hsq]; exact row_cols C hC i _ hm
  rw [forRange_congr _ _ _ _ (fun s _ => s) (fun s kk h1 h2 => by
    apply subtractMatch_id
    intro hh g1 g2
    exact ht i hi _ hm _ (pos_mem C hC _ kk hj h1 h2) _ (pos_mem C hC i hh hi (by omega) g2))]
  unfold forRange
  generalize List.range' _ _ = l
  generalize s.2.modify jj _ = d
  induction l with
  | nil => rfl
  | cons a t ih => exact ih

/-- One column: the diagonal part is a column step, the values of the column are divided. -/
theorem column_step [Field K] (C : CSR K) (hC : C.Valid) (i : Nat) (hi : i < C.numRows) (hsq : C.numCols = C.numRows)
    (hs : StrictlyBelow C) (d : List K) (hd : d.length = C.numRows) (v : List K) (hv : v.length = C.data.length)
    (hcur : ∀ a, C.indptr.getD i 0 ≤ a → a < C.indptr.getD (i + 1) 0 → v.getD a 0 = C.data.getD a 0) :
    let r := forRange (C.indptr.getD i 0) (C.indptr.getD (i + 1) 0) (d, v) fun s jj =>
        (s.1.modify (C.indices.getD jj 0) (· - (s.2.modify jj (· / s.1.getD i 0)).getD jj 0 *
          (s.2.modify jj (· / s.1.getD i 0)).getD jj 0), s.2.modify jj (· / s.1.getD i 0))
    r.1 = (C.row i).foldl (fun y e => y.modify e.1 (· - e.2 / y.getD i 0 * (e.2 / y.getD i 0))) d ∧
    r.2 = forRange (C.indptr.getD i 0) (C.indptr.getD (i + 1) 0) v fun v jj => v.modify jj (· / d.getD i 0) := by
  have hle := ValidIndptr.le_nnz hC.indptr (i + 1) (by omega)
  have hdl := hC.data
  have e1 : (C.row i).foldl (fun y e => y.modify e.1 (· - e.2 / y.getD i 0 * (e.2 / y.getD i 0))) d =
      forRow C i d fun y j e => y.modify j (· - e / y.getD i 0 * (e / y.getD i 0)) :=
    (forRow_eq C hC i hi d fun y j e => y.modify j (· - e / y.getD i 0 * (e / y.getD i 0))).symm
  rw [e1]
  unfold forRow
  have : ∀ n lo, lo + n ≤ C.indptr.getD (i + 1) 0 → C.indptr.getD i 0 ≤ lo → ∀ (y v : List K), y.getD i 0 = d.getD i 0 →
      v.length = C.data.length → (∀ a, lo ≤ a → a < C.indptr.getD (i + 1) 0 → v.getD a 0 = C.data.getD a 0) →
      (List.range' lo n).foldl (fun s jj =>
        (s.1.modify (C.indices.getD jj 0) (· - (s.2.modify jj (· / s.1.getD i 0)).getD jj 0 *
          (s.2.modify jj (· / s.1.getD i 0)).getD jj 0), s.2.modify jj (· / s.1.getD i 0))) (y, v) =
      ((List.range' lo n).foldl (fun y k => y.modify (C.indices.getD k 0) (· - C.data.getD k 0 / y.getD i 0 * (C.data.getD k 0 / y.getD i 0))) y,
        (List.range' lo n).foldl (fun v jj => v.modify jj (· / d.getD i 0)) v) := by
    intro n
    induction n with
    | zero => intros; rfl
    | succ n ih =>
      intro lo h1 h2 y v hy hv hcur
      rw [List.range'_succ, List.foldl_cons, List.foldl_cons, List.foldl_cons]
      have hval : (v.modify lo (· / y.getD i 0)).getD lo 0 = C.data.getD lo 0 / y.getD i 0 := by
        rw [getD_modify, if_pos ⟨rfl, by omega⟩, hcur lo (le_refl _) (by omega)]
      simp only [hval]
      rw [hy]
      have hne : C.indices.getD lo 0 ≠ i := by
        have : i < C.indices.getD lo 0 := hs i hi _ (pos_mem C hC i lo hi h2 (by omega))
        omega
      apply ih (lo + 1) (by omega) (by omega)
      · rw [getD_modify, if_neg (fun h => hne h.1), hy]
      · rw [List.length_modify, hv]
      · intro a ha1 ha2
        rw [getD_modify, if_neg (by omega), hcur a (by omega) ha2]
  intro r
  have hr := this (C.indptr.getD (i + 1) 0 - C.indptr.getD i 0) (C.indptr.getD i 0)
    (by have := hC.indptr.mono i hi; omega) (le_refl _) d v rfl hv hcur
  constructor
  · exact congrArg Prod.fst hr
  · exact congrArg Prod.snd hr

/-- The factorisation of a triangle free pattern. -/
theorem factor_eq [Field K] (sqrt : K → K) (C : CSR K) (hC : C.Valid) (hsq : C.numCols = C.numRows)
    (ht : TriangleFree C) (hs : StrictlyBelow C) (diag : List K) (hd : diag.length = C.numRows) :
    let f := factor sqrt C diag
    f.1.length = C.numRows ∧ f.2.length = C.data.length ∧
    (∀ i, i < C.numRows → f.1.getD i 0 = sqrt (diag.getD i 0 - ∑ j ∈ range i,
      at' ((C.row j).map fun e => (e.1, e.2 / f.1.getD j 0 * (e.2 / f.1.getD j 0))) i)) ∧
    ∀ i, i < C.numRows → ∀ a, C.indptr.getD i 0 ≤ a → a < C.indptr.getD (i + 1) 0 →
      f.2.getD a 0 = C.data.getD a 0 / f.1.getD i 0 := by
  intro f
  have hf : f = factor sqrt C diag := rfl
  rw [factor_simple sqrt C hC hsq ht] at hf
  have hcol := col_range sqrt (fun p e => e / p * (e / p)) C.row C.numRows diag hd
    (fun j hj e he => ⟨hs j hj e he, by rw [← hsq]; exact row_cols C hC j e he⟩)
  have key : ∀ m, m ≤ C.numRows →
      let s := forRange 0 m (diag, C.data) fun s i =>
        forRange (C.indptr.getD i 0) (C.indptr.getD (i + 1) 0) (s.1.modify i sqrt, s.2) fun s jj =>
          (s.1.modify (C.indices.getD jj 0) (· - (s.2.modify jj (· / s.1.getD i 0)).getD jj 0 *
            (s.2.modify jj (· / s.1.getD i 0)).getD jj 0), s.2.modify jj (· / s.1.getD i 0))
      s.1 = forRange 0 m diag (colStep' sqrt (fun p e => e / p * (e / p)) C.row) ∧ s.2.length = C.data.length ∧
      (∀ i, i < m → ∀ a, C.indptr.getD i 0 ≤ a → a < C.indptr.getD (i + 1) 0 →
        s.2.getD a 0 = C.data.getD a 0 / s.1.getD i 0) ∧
      ∀ a, C.indptr.getD m 0 ≤ a → s.2.getD a 0 = C.data.getD a 0 := by
    intro m
    induction m with
    | zero => intro _; exact ⟨rfl, rfl, fun i hi => absurd hi (by omega), fun _ _ => rfl⟩
    | succ m ih =>
      intro hm
      obtain ⟨h1, h2, h3, h4⟩ := ih (by omega)
      intro s'
      have hs' := forRange_succ m (diag, C.data) fun s i =>
        forRange (C.indptr.getD i 0) (C.indptr.getD (i + 1) 0) (s.1.modify i sqrt, s.2) fun s jj =>
          (s.1.modify (C.indices.getD jj 0) (· - (s.2.modify jj (· / s.1.getD i 0)).getD jj 0 *
            (s.2.modify jj (· / s.1.getD i 0)).getD jj 0), s.2.modify jj (· / s.1.getD i 0))
      change s' = _ at hs'
      clear_value s'
      generalize (forRange 0 m (diag, C.data) fun s i => _) = s at *
      obtain ⟨d, v⟩ := s
      simp only [] at h1 h2 h3 h4 hs'
      have hdl : d.length = C.numRows := by rw [h1]; exact (hcol m (by omega)).1
      obtain ⟨c1, c2⟩ := column_step C hC m (by omega) hsq hs (d.modify m sqrt) (by rw [List.length_modify, hdl]) v h2
        (fun a ha _ => h4 a ha)
      rw [← hs'] at c1 c2
      have hle := ValidIndptr.le_nnz hC.indptr (m + 1) (by omega)
      have hdat := hC.data
      obtain ⟨m1, m2⟩ := Galerkin.modify_range (C.indptr.getD m 0) (C.indptr.getD (m + 1) 0)
        (fun _ x => x / (d.modify m sqrt).getD m 0) v (by omega)
      have hs1 : s'.1 = forRange 0 (m + 1) diag (colStep' sqrt (fun p e => e / p * (e / p)) C.row) := by
        rw [forRange_succ, ← h1, c1]; rfl
      have hmono := hC.indptr.mono m (by omega)
      have hstab := (hcol (m + 1) hm).2.1
      refine ⟨hs1, by rw [c2, m1, h2], fun i hi a ha1 ha2 => ?_, fun a ha => ?_⟩
      · rw [c2, m2 a]
        by_cases him : i = m
        · subst him
          rw [if_pos ⟨ha1, ha2⟩, h4 a ha1]
          congr 1
          rw [c1]
          have hcc : ∀ e ∈ C.row i, e.1 ≠ i ∧ e.1 < (d.modify i sqrt).length := by
            intro e he
            have := hs i (by omega) e he
            have := row_cols C hC i e he
            rw [List.length_modify]; omega
          have := (scatter_list' (fun p e => e / p * (e / p)) i (C.row i) (d.modify i sqrt) hcc).2 i
          rw [this, at'_zero _ _ (by
            intro e he
            obtain ⟨x, hx, rfl⟩ := List.mem_map.1 he
            exact (hcc x hx).1), sub_zero]
        · have hle2 := mono_le _ _ _ hC.indptr (i + 1) m (by omega) (by omega)
          rw [if_neg (by omega), h3 i (by omega) a ha1 ha2]
          congr 1
          rw [hs1, h1]
          exact hstab m i (by omega) (by omega)
      · rw [c2, m2 a, if_neg (by omega), h4 a (by omega)]
  obtain ⟨k1, k2, k3, _⟩ := key C.numRows (le_refl _)
  rw [← hf] at k1 k2 k3
  obtain ⟨c1, _, c3⟩ := hcol C.numRows (le_refl _)
  rw [← k1] at c1 c3
  refine ⟨c1, k2, fun i hi => ?_, k3⟩
  have := c3 i hi
  rw [if_pos hi] at this
  exact this

/-- Mapping values over distinct keys. -/
theorem at'_map [AddCommMonoid K] (l : List (Nat × K)) (g : K → K) (hg : g 0 = 0) (i : Nat)
    (hnd : (l.map Prod.fst).Nodup) : at' (l.map fun e => (e.1, g e.2)) i = g (at' l i) := by
  induction l with
  | nil => rw [List.map_nil, at'_nil, hg]
  | cons a t ih =>
    rw [List.map_cons, List.nodup_cons] at hnd
    rw [List.map_cons, at'_cons, at'_cons]
    by_cases h : a.1 = i
    · rw [if_pos h, if_pos h, at'_zero t i, at'_zero _ i, add_zero, add_zero]
      · intro e he
        obtain ⟨x, hx, rfl⟩ := List.mem_map.1 he
        intro hxi
        exact hnd.1 (List.mem_map.2 ⟨x, hx, by rw [h]; exact hxi⟩)
      · intro e he hei
        exact hnd.1 (List.mem_map.2 ⟨e, he, by rw [h]; exact hei⟩)
    · rw [if_neg h, if_neg h, zero_add, zero_add]
      exact ih hnd.2

end PyNucleus.IChol
