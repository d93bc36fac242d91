import Verif.Model.Galerkin
import Verif.Spec.Triple
import Verif.Proof.SSS
import Verif.Proof.Entries
import Mathlib.Algebra.BigOperators.Intervals
import Mathlib.Algebra.BigOperators.Group.Finset.Sigma
import Mathlib.Tactic.Ring
import Mathlib.Tactic.NormNum

/-! # Lemmas for the triple products -/

namespace PyNucleus.Galerkin

open PyNucleus.Loops PyNucleus.Spec PyNucleus.CSR Finset

variable {K : Type}

theorem merge_eq [AddCommMonoid K] (c1 c2 : List Nat) (f : Nat → Nat → K) (e1 e2 mm1 mm2 : Nat) (sum : K)
    (h1 : ∀ k m, mm1 ≤ k → k < m → m < e1 → c1.getD k 0 < c1.getD m 0)
    (h2 : ∀ k m, mm2 ≤ k → k < m → m < e2 → c2.getD k 0 < c2.getD m 0) :
    merge c1 c2 f e1 e2 mm1 mm2 sum = sum + ∑ a ∈ Ico mm1 e1, ∑ b ∈ Ico mm2 e2,
      if c1.getD a 0 = c2.getD b 0 then f a b else 0 := by
  fun_induction merge c1 c2 f e1 e2 mm1 mm2 sum with
  | case1 mm1 mm2 sum h hlt ih =>
    rw [ih (fun k m hk => h1 k m (by omega)) h2, sum_eq_sum_Ico_succ_bot h.1]
    have e : ∑ b ∈ Ico mm2 e2, (if c1.getD mm1 0 = c2.getD b 0 then f mm1 b else 0) = 0 := by
      apply sum_eq_zero
      intro b hb
      rw [mem_Ico] at hb
      rw [if_neg]
      by_cases hbe : b = mm2
      · rw [hbe]; omega
      · have := h2 mm2 b (Nat.le_refl _) (by omega) hb.2; omega
    rw [e, zero_add]
  | case2 mm1 mm2 sum h hlt hgt ih =>
    rw [ih h1 (fun k m hk => h2 k m (by omega))]
    congr 1
    apply sum_congr rfl
    intro a ha
    rw [mem_Ico] at ha
    rw [sum_eq_sum_Ico_succ_bot h.2, if_neg, zero_add]
    by_cases hae : a = mm1
    · rw [hae]; omega
    · have := h1 mm1 a (Nat.le_refl _) (by omega) ha.2; omega
  | case3 mm1 mm2 sum h hlt hgt ih =>
    have heq : c1.getD mm1 0 = c2.getD mm2 0 := by omega
    rw [ih (fun k m hk => h1 k m (by omega)) (fun k m hk => h2 k m (by omega)),
      sum_eq_sum_Ico_succ_bot h.1, sum_eq_sum_Ico_succ_bot h.2, if_pos heq]
    have e : ∑ b ∈ Ico (mm2 + 1) e2, (if c1.getD mm1 0 = c2.getD b 0 then f mm1 b else 0) = 0 := by
      apply sum_eq_zero
      intro b hb
      rw [mem_Ico] at hb
      rw [if_neg]
      have := h2 mm2 b (Nat.le_refl _) (by omega) hb.2; omega
    have e' : ∑ a ∈ Ico (mm1 + 1) e1, ∑ b ∈ Ico mm2 e2, (if c1.getD a 0 = c2.getD b 0 then f a b else 0) =
        ∑ a ∈ Ico (mm1 + 1) e1, ∑ b ∈ Ico (mm2 + 1) e2, (if c1.getD a 0 = c2.getD b 0 then f a b else 0) := by
      apply sum_congr rfl
      intro a ha
      rw [mem_Ico] at ha
      rw [sum_eq_sum_Ico_succ_bot h.2, if_neg, zero_add]
      have := h1 mm1 a (Nat.le_refl _) (by omega) ha.2; omega
    rw [e, e', add_zero, add_assoc]
  | case4 mm1 mm2 sum h =>
    have : ∑ a ∈ Ico mm1 e1, ∑ b ∈ Ico mm2 e2, (if c1.getD a 0 = c2.getD b 0 then f a b else 0) = 0 := by
      apply sum_eq_zero
      intro a ha
      rw [mem_Ico] at ha
      rw [Ico_eq_empty (by omega), sum_empty]
    rw [this, add_zero]

theorem seekAdd_eq [AddCommMonoid K] (c : List Nat) (j e mm : Nat) (g : Nat → K) (sum : K)
    (h1 : ∀ k m, mm ≤ k → k < m → m < e → c.getD k 0 < c.getD m 0) :
    seekAdd c j e mm g sum = sum + ∑ a ∈ Ico mm e, if c.getD a 0 = j then g a else 0 := by
  unfold seekAdd
  simp only
  fun_induction seek c j e mm with
  | case1 mm h ih =>
    rw [ih fun k m hk => h1 k m (by omega), sum_eq_sum_Ico_succ_bot h.1, if_neg (by omega), zero_add]
  | case2 mm h =>
    by_cases hm : mm < e
    · rw [sum_eq_sum_Ico_succ_bot hm]
      have e0 : ∑ a ∈ Ico (mm + 1) e, (if c.getD a 0 = j then g a else 0) = 0 := by
        apply sum_eq_zero
        intro a ha
        rw [mem_Ico] at ha
        have := h1 mm a (Nat.le_refl _) (by omega) ha.2
        rw [if_neg (by omega)]
      rw [e0, add_zero]
      by_cases hj : c.getD mm 0 = j
      · rw [if_pos ⟨hm, hj⟩, if_pos hj]
      · rw [if_neg (fun h => hj h.2), if_neg hj, add_zero]
    · rw [if_neg (fun h => hm h.1), Ico_eq_empty (by omega), sum_empty, add_zero]

theorem forRange_add [AddCommMonoid K] (lo hi : Nat) (f : Nat → K) : ∀ s : K,
    forRange lo hi s (fun s k => s + f k) = s + ∑ k ∈ Ico lo hi, f k := by
  unfold forRange
  have : ∀ n lo s, (List.range' lo n).foldl (fun s k => s + f k) s = s + ∑ k ∈ Ico lo (lo + n), f k := by
    intro n
    induction n with
    | zero => intro lo s; simp
    | succ n ih =>
      intro lo s
      rw [List.range'_succ, List.foldl_cons, ih,
        sum_eq_sum_Ico_succ_bot (show lo < lo + (n + 1) by omega), add_assoc,
        show lo + 1 + n = lo + (n + 1) by omega]
  intro s
  rw [this]
  by_cases h : lo ≤ hi
  · rw [show lo + (hi - lo) = hi by omega]
  · rw [show lo + (hi - lo) = lo by omega, Ico_self, Ico_eq_empty (by omega)]

/-- A sum over the storage positions of a row as a sum over the columns. -/
theorem pos_sum [CommSemiring K] (A : CSR K) (hA : A.Valid) (i : Nat) (hi : i < A.numRows) (g : Nat → K) :
    ∑ a ∈ Ico (A.indptr.getD i 0) (A.indptr.getD (i + 1) 0), A.data.getD a 0 * g (A.indices.getD a 0) =
      ∑ m ∈ range A.numCols, A.entry i m * g m := by
  have h := forRow_eq A hA i hi (0 : K) fun s j d => s + d * g j
  rw [foldl_add, zero_add, sum_row_eq _ _ (row_cols A hA i) g] at h
  unfold CSR.entry
  rw [← h]
  unfold forRow
  rw [forRange_add, zero_add]

theorem pos_col [CommSemiring K] (A : CSR K) (hA : A.Valid) (i : Nat) (hi : i < A.numRows) (c : Nat)
    (hc : c < A.numCols) :
    ∑ a ∈ Ico (A.indptr.getD i 0) (A.indptr.getD (i + 1) 0),
      (if A.indices.getD a 0 = c then A.data.getD a 0 else 0) = A.entry i c := by
  have h := pos_sum A hA i hi fun m => if m = c then 1 else 0
  rw [show A.entry i c = ∑ m ∈ range A.numCols, A.entry i m * (if m = c then 1 else 0) by
    simp [hc], ← h]
  apply sum_congr rfl
  intro a _
  simp

theorem idx_lt (A : CSR K) (hA : A.Valid) (i : Nat) (hi : i < A.numRows) (a : Nat)
    (ha : a ∈ Ico (A.indptr.getD i 0) (A.indptr.getD (i + 1) 0)) :
    a < A.indices.length ∧ A.indices.getD a 0 < A.numCols := by
  have hle := ValidIndptr.le_nnz hA.indptr (i + 1) (by omega)
  rw [mem_Ico] at ha
  have hlt : a < A.indices.length := by omega
  refine ⟨hlt, ?_⟩
  rw [List.getD_eq_getElem?_getD, List.getElem?_eq_getElem hlt]
  exact hA.cols _ (List.getElem_mem hlt)

theorem merge_rows [CommSemiring K] (A R : CSR K) (hA : A.Valid) (hAs : A.Sorted) (hR : R.Valid)
    (hRs : R.Sorted) (hc : A.numCols = R.numCols) (k j : Nat) (hk : k < A.numRows) (hj : j < R.numRows)
    (w : Nat → K) (s : K) (f : Nat → Nat → K)
    (hf : ∀ a b, a < A.indices.length → b < R.indices.length →
      f a b = A.data.getD a 0 * (w (A.indices.getD a 0) * R.data.getD b 0)) :
    merge A.indices R.indices f (A.indptr.getD (k + 1) 0) (R.indptr.getD (j + 1) 0)
      (A.indptr.getD k 0) (R.indptr.getD j 0) s =
    s + ∑ m ∈ range A.numCols, A.entry k m * (w m * R.entry j m) := by
  rw [merge_eq _ _ _ _ _ _ _ _ (fun a b => sorted_getD A hA hAs k hk a b)
    (fun a b => sorted_getD R hR hRs j hj a b)]
  congr 1
  rw [← pos_sum A hA k hk fun m => w m * R.entry j m]
  apply sum_congr rfl
  intro a ha
  obtain ⟨ha1, ha2⟩ := idx_lt A hA k hk a ha
  rw [← pos_col R hR j hj _ (hc ▸ ha2), mul_sum, mul_sum]
  apply sum_congr rfl
  intro b hb
  obtain ⟨hb1, hb2⟩ := idx_lt R hR j hj b hb
  by_cases h : A.indices.getD a 0 = R.indices.getD b 0
  · rw [if_pos h, if_pos h.symm, hf a b ha1 hb1]
  · rw [if_neg h, if_neg (fun e => h e.symm), mul_zero, mul_zero]

theorem getEntry_eq [CommSemiring K] (R A : CSR K) (hA : A.Valid) (hAs : A.Sorted) (hR : R.Valid)
    (hRs : R.Sorted) (hr : A.numRows = R.numCols) (hc : A.numCols = R.numCols) (i j : Nat)
    (hi : i < R.numRows) (hj : j < R.numRows) :
    getEntry i j R A = triple R.numCols R.entry A.entry i j := by
  unfold getEntry triple
  simp only
  rw [forRange_add, zero_add]
  have h := pos_sum R hR i hi fun k => ∑ m ∈ range R.numCols, A.entry k m * R.entry j m
  have e : ∀ k ∈ range R.numCols, ∑ m ∈ range R.numCols, R.entry i k * A.entry k m * R.entry j m =
      R.entry i k * ∑ m ∈ range R.numCols, A.entry k m * R.entry j m := by
    intro k _
    rw [mul_sum]
    exact sum_congr rfl fun m _ => mul_assoc _ _ _
  rw [sum_congr rfl e, ← h]
  apply sum_congr rfl
  intro a ha
  obtain ⟨ha1, ha2⟩ := idx_lt R hR i hi a ha
  rw [merge_rows A R hA hAs hR hRs hc _ j (by omega) hj (fun _ => 1) 0 _
    (fun a b _ _ => by rw [one_mul]), zero_add, hc]
  simp only [one_mul]

theorem getEntryFromD_eq [CommSemiring K] (R : CSR K) (hR : R.Valid) (hRs : R.Sorted) (d : List K)
    (i j : Nat) (hi : i < R.numRows) (hj : j < R.numRows) :
    getEntryFromD i j R d =
      triple R.numCols R.entry (fun k m => if k = m then d.getD k 0 else 0) i j := by
  unfold getEntryFromD triple
  rw [merge_rows R R hR hRs hR hRs rfl i j hi hj (fun m => d.getD m 0) 0 _
    (fun a b _ _ => mul_assoc _ _ _), zero_add]
  apply sum_congr rfl
  intro k hk
  have : ∀ m ∈ range R.numCols, R.entry i k * (if k = m then d.getD k 0 else 0) * R.entry j m =
      if k = m then R.entry i k * (d.getD k 0 * R.entry j k) else 0 := by
    intro m _
    by_cases h : k = m
    · subst h; rw [if_pos rfl, if_pos rfl, mul_assoc]
    · rw [if_neg h, if_neg h, mul_zero, zero_mul]
  rw [sum_congr rfl this, sum_ite_eq, if_pos hk]

/-! ### updates of all stored entries -/

/-- A matrix with the stored values changed position by position. -/
theorem data_map [Zero K] (A : CSR K) (hA : A.Valid) (d : List K) (h : Nat → Nat → K → K)
    (hl : d.length = A.data.length)
    (hd : ∀ i, i < A.numRows → ∀ a, A.indptr.getD i 0 ≤ a → a < A.indptr.getD (i + 1) 0 →
      d.getD a 0 = h i (A.indices.getD a 0) (A.data.getD a 0)) :
    let B : CSR K := { A with data := d }
    B.Valid ∧ ∀ i, i < A.numRows → B.row i = (A.row i).map fun e => (e.1, h i e.1 e.2) := by
  intro B
  have hB : B.Valid := ⟨hA.indptr, hl.trans hA.data, hA.cols⟩
  refine ⟨hB, fun i hi => ?_⟩
  apply List.ext_getElem?
  intro m
  have hlen : ∀ (X : CSR K), X.Valid → X.numRows = A.numRows → X.indptr = A.indptr →
      (X.row i).length = A.indptr.getD (i + 1) 0 - A.indptr.getD i 0 := by
    intro X hX hn hp
    rw [← hp]
    exact (split_row X.indptr X.numRows (X.indices.zip X.data)
      (by rw [zip_length X hX]; exact hX.indptr) i (by omega)).2.2
  rw [List.getElem?_map]
  by_cases hm : m < A.indptr.getD (i + 1) 0 - A.indptr.getD i 0
  · have h1 := row_getElem? A hA i hi (A.indptr.getD i 0 + m) (by omega) (by omega)
    have h2 := row_getElem? B hB i hi (A.indptr.getD i 0 + m) (by show A.indptr.getD i 0 ≤ _; omega)
      (by show _ < A.indptr.getD (i + 1) 0; omega)
    rw [Nat.add_sub_cancel_left] at h1
    rw [show A.indptr.getD i 0 + m - B.indptr.getD i 0 = m from Nat.add_sub_cancel_left _ _] at h2
    rw [h1, h2]
    simp only [Option.map_some]
    rw [show B.data = d from rfl, hd i hi _ (by omega) (by omega)]
  · rw [List.getElem?_eq_none (by rw [hlen B hB rfl rfl]; omega),
      List.getElem?_eq_none (by rw [hlen A hA rfl rfl]; omega)]
    rfl

theorem modify_range [Zero K] (lo hi : Nat) (g : Nat → K → K) (d : List K) (hhi : hi ≤ d.length) :
    (forRange lo hi d fun d jj => d.modify jj (g jj)).length = d.length ∧
    ∀ a, (forRange lo hi d fun d jj => d.modify jj (g jj)).getD a 0 =
      if lo ≤ a ∧ a < hi then g a (d.getD a 0) else d.getD a 0 := by
  unfold forRange
  have : ∀ n lo (d : List K), lo + n ≤ d.length →
      ((List.range' lo n).foldl (fun d jj => d.modify jj (g jj)) d).length = d.length ∧
      ∀ a, ((List.range' lo n).foldl (fun d jj => d.modify jj (g jj)) d).getD a 0 =
        if lo ≤ a ∧ a < lo + n then g a (d.getD a 0) else d.getD a 0 := by
    intro n
    induction n with
    | zero => intro lo d _; exact ⟨rfl, fun a => by rw [if_neg (by omega)]; rfl⟩
    | succ n ih =>
      intro lo d h
      obtain ⟨h1, h2⟩ := ih (lo + 1) (d.modify lo (g lo)) (by rw [List.length_modify]; omega)
      rw [List.range'_succ, List.foldl_cons]
      refine ⟨by rw [h1, List.length_modify], fun a => ?_⟩
      rw [h2, getD_modify]
      by_cases ha : a = lo
      · subst ha
        rw [if_neg (by omega), if_pos ⟨rfl, by omega⟩, if_pos (by omega)]
      · rw [if_neg (show ¬ (lo = a ∧ a < d.length) by omega)]
        by_cases hb : lo ≤ a ∧ a < lo + (n + 1)
        · rw [if_pos hb, if_pos (by omega)]
        · rw [if_neg hb, if_neg (by omega)]
  by_cases h : lo ≤ hi
  · have := this (hi - lo) lo d (by omega)
    rw [show lo + (hi - lo) = hi by omega] at this
    exact this
  · rw [show hi - lo = 0 by omega]
    exact ⟨rfl, fun a => by rw [if_neg (by omega)]; rfl⟩

/-- Row by row update of all stored values. -/
theorem modify_rows [Zero K] (A : CSR K) (hA : A.Valid) (g : Nat → Nat → K → K) (d : List K)
    (hd : d.length = A.indices.length) : ∀ n, n ≤ A.numRows →
    (forRange 0 n d fun d i => forRange (A.indptr.getD i 0) (A.indptr.getD (i + 1) 0) d
      fun d jj => d.modify jj (g i (A.indices.getD jj 0))).length = d.length ∧
    (∀ i, i < n → ∀ a, A.indptr.getD i 0 ≤ a → a < A.indptr.getD (i + 1) 0 →
      (forRange 0 n d fun d i => forRange (A.indptr.getD i 0) (A.indptr.getD (i + 1) 0) d
        fun d jj => d.modify jj (g i (A.indices.getD jj 0))).getD a 0 =
        g i (A.indices.getD a 0) (d.getD a 0)) ∧
    ∀ a, A.indptr.getD n 0 ≤ a →
      (forRange 0 n d fun d i => forRange (A.indptr.getD i 0) (A.indptr.getD (i + 1) 0) d
        fun d jj => d.modify jj (g i (A.indices.getD jj 0))).getD a 0 = d.getD a 0 := by
  intro n
  induction n with
  | zero => intro _; exact ⟨rfl, fun i hi => by omega, fun a _ => rfl⟩
  | succ n ih =>
    intro hn
    obtain ⟨h1, h2, h3⟩ := ih (by omega)
    rw [forRange_succ]
    generalize (forRange 0 n d fun d i => forRange (A.indptr.getD i 0) (A.indptr.getD (i + 1) 0) d
      fun d jj => d.modify jj (g i (A.indices.getD jj 0))) = s at h1 h2 h3 ⊢
    have hle := ValidIndptr.le_nnz hA.indptr (n + 1) (by omega)
    obtain ⟨m1, m2⟩ := modify_range (A.indptr.getD n 0) (A.indptr.getD (n + 1) 0)
      (fun jj => g n (A.indices.getD jj 0)) s (by omega)
    have hmono := hA.indptr.mono n (by omega)
    refine ⟨m1.trans h1, fun i hi a ha1 ha2 => ?_, fun a ha => ?_⟩
    · rw [m2]
      by_cases hin : i = n
      · subst hin
        rw [if_pos ⟨ha1, ha2⟩, h3 a ha1]
      · have := mono_le _ _ _ hA.indptr (i + 1) n (by omega) (by omega)
        rw [if_neg (by omega), h2 i (by omega) a ha1 ha2]
    · rw [m2, if_neg (by omega), h3 a (by omega)]

theorem addEntries_eq [AddCommMonoid K] (A : CSR K) (hA : A.Valid) (g : Nat → Nat → K) (d : List K)
    (hd : d.length = A.indices.length) :
    (addEntries A.indptr A.indices g d).length = d.length ∧
    ∀ i, i < A.numRows → ∀ a, A.indptr.getD i 0 ≤ a → a < A.indptr.getD (i + 1) 0 →
      (addEntries A.indptr A.indices g d).getD a 0 = d.getD a 0 + g i (A.indices.getD a 0) := by
  have h := modify_rows A hA (fun i j v => v + g i j) d hd A.numRows (Nat.le_refl _)
  unfold addEntries
  rw [show A.indptr.length - 1 = A.numRows by rw [hA.indptr.length]; rfl]
  exact ⟨h.1, h.2.1⟩

/-- Entries after adding `g i j` to every stored value of a matrix without repeated columns. -/
theorem entry_add [AddCommMonoid K] (A B : CSR K) (i j : Nat) (g : Nat → K)
    (hnd : ((A.row i).map Prod.fst).Nodup)
    (hrow : B.row i = (A.row i).map fun e => (e.1, e.2 + g e.1)) :
    B.entry i j = A.entry i j + if j ∈ (A.row i).map Prod.fst then g j else 0 := by
  unfold CSR.entry
  rw [hrow]
  generalize A.row i = l at hnd
  induction l with
  | nil => simp
  | cons e t ih =>
    obtain ⟨c, v⟩ := e
    rw [List.map_cons, List.nodup_cons] at hnd
    have ih := ih hnd.2
    rw [List.map_cons]
    by_cases hc : c = j
    · subst hc
      rw [List.filter_cons_of_pos (by simp), List.filter_cons_of_pos (by simp), List.map_cons,
        List.map_cons, List.sum_cons, List.sum_cons, ih, if_neg hnd.1, if_pos (by simp), add_zero]
      simp only
      rw [add_right_comm]
    · rw [List.filter_cons_of_neg (by simpa using hc), List.filter_cons_of_neg (by simpa using hc), ih]
      congr 1
      have : j ∈ List.map Prod.fst ((c, v) :: t) ↔ j ∈ List.map Prod.fst t := by
        rw [List.map_cons, List.mem_cons]
        exact ⟨fun h => h.resolve_left (fun e => hc e.symm), Or.inr⟩
      simp only [this]

theorem sorted_nodup (A : CSR K) (hs : A.Sorted) (i : Nat) (hi : i < A.numRows) :
    ((A.row i).map Prod.fst).Nodup :=
  List.nodup_iff_pairwise_ne.2 ((hs i hi).imp fun h => by omega)

/-! ### restriction operators -/

/-- The graph part of a restriction operator as a matrix. -/
def halfMat [Field K] (G : Graph) : CSR K :=
  ⟨G.indptr, G.indices, List.replicate G.indices.length (1 / 2), G.numRows, G.numCols⟩

structure GraphValid (G : Graph) : Prop where
  indptr : ValidIndptr G.indptr G.numRows G.indices.length
  cols : ∀ j ∈ G.indices, j < G.numCols
  sorted : ∀ i, i < G.numRows → (csrRow G.indptr G.indices i).Pairwise (· < ·)

theorem halfMat_valid [Field K] (G : Graph) (hG : GraphValid G) :
    (halfMat G : CSR K).Valid ∧ (halfMat G : CSR K).Sorted := by
  have hV : (halfMat G : CSR K).Valid := ⟨hG.indptr, by simp [halfMat], hG.cols⟩
  refine ⟨hV, fun i hi => ?_⟩
  rw [row_fst _ hV]
  exact hG.sorted i hi

theorem halfMat_data [Field K] (G : Graph) (a : Nat) (ha : a < G.indices.length) :
    (halfMat G : CSR K).data.getD a 0 = 1 / 2 := by
  unfold halfMat
  simp only
  rw [List.getD_eq_getElem?_getD, List.getElem?_eq_getElem (by rw [List.length_replicate]; exact ha),
    List.getElem_replicate]
  rfl

theorem halfMat_entry [Field K] (G : Graph) (i j : Nat) :
    (halfMat G : CSR K).entry i j = ((csrRow G.indptr G.indices i).count j : K) * (1 / 2) := by
  unfold CSR.entry CSR.row halfMat csrRow
  simp only
  generalize G.indptr.getD i 0 = a
  generalize G.indptr.getD (i + 1) 0 - a = b
  have h : (G.indices.zip (List.replicate G.indices.length ((1 : K) / 2))) =
      G.indices.map fun c => (c, (1 : K) / 2) := by
    generalize G.indices = l
    induction l with
    | nil => rfl
    | cons c t ih => rw [List.length_cons, List.replicate_succ, List.zip_cons_cons, ih]; rfl
  rw [h, ← List.map_drop, ← List.map_take]
  generalize (G.indices.drop a).take b = l
  induction l with
  | nil => simp
  | cons c t ih =>
    rw [List.map_cons, List.count_cons]
    by_cases hc : c = j
    · rw [List.filter_cons_of_pos (by simpa using hc), List.map_cons, List.sum_cons, ih, if_pos (by simpa using hc)]
      push_cast
      ring
    · rw [List.filter_cons_of_neg (by simpa using hc), ih, if_neg (by simpa using hc), Nat.add_zero]

theorem restriction_eq [Field K] (G : Graph) (i j : Nat) :
    (restriction G i j : K) = (if i = j then 1 else 0) + (halfMat G : CSR K).entry i j := by
  rw [halfMat_entry, restriction]

/-- Expansion of `(I+J) A (I+J)^T`. -/
theorem triple_expand [CommSemiring K] (n : Nat) (J A : Nat → Nat → K) (i j : Nat) (hi : i < n)
    (hj : j < n) :
    triple n (fun i j => (if i = j then 1 else 0) + J i j) A i j =
      (∑ k ∈ range n, J i k * ((∑ m ∈ range n, A k m * J j m) + A k j)) +
        (∑ m ∈ range n, A i m * J j m) + A i j := by
  unfold triple
  have inner : ∀ k, ∑ m ∈ range n, A k m * ((if j = m then 1 else 0) + J j m) =
      (∑ m ∈ range n, A k m * J j m) + A k j := by
    intro k
    have e : ∀ m ∈ range n, A k m * ((if j = m then 1 else 0) + J j m) =
        A k m * J j m + if j = m then A k j else 0 := by
      intro m _
      by_cases h : j = m
      · subst h; simp; ring
      · simp [h]
    rw [sum_congr rfl e, sum_add_distrib, sum_ite_eq, if_pos (mem_range.2 hj)]
  have e : ∀ k ∈ range n, ∑ m ∈ range n, ((if i = k then 1 else 0) + J i k) * A k m *
      ((if j = m then 1 else 0) + J j m) =
      J i k * ((∑ m ∈ range n, A k m * J j m) + A k j) +
        if i = k then (∑ m ∈ range n, A i m * J j m) + A i j else 0 := by
    intro k _
    rw [← inner k, ← inner i]
    rw [show ∑ m ∈ range n, ((if i = k then 1 else 0) + J i k) * A k m * ((if j = m then 1 else 0) + J j m)
      = ((if i = k then 1 else 0) + J i k) * ∑ m ∈ range n, A k m * ((if j = m then 1 else 0) + J j m) by
        rw [mul_sum]; exact sum_congr rfl fun m _ => mul_assoc _ _ _]
    by_cases h : i = k
    · subst h; rw [if_pos rfl, if_pos rfl]; ring
    · rw [if_neg h, if_neg h]; ring
  rw [sum_congr rfl e, sum_add_distrib, sum_ite_eq, if_pos (mem_range.2 hi), add_assoc]

theorem getEntryRestr_eq [Field K] (G : Graph) (hG : GraphValid G) (A : CSR K) (hA : A.Valid)
    (hAs : A.Sorted) (hr : A.numRows = G.numCols) (hc : A.numCols = G.numCols)
    (hle : G.numRows ≤ G.numCols) (i j : Nat) (hi : i < G.numRows) (hj : j < G.numRows) :
    getEntryRestr i j G A = triple G.numCols (restriction G) A.entry i j := by
  obtain ⟨hV, hS⟩ := halfMat_valid (K := K) G hG
  have hm : ∀ (k : Nat) (s : K), k < A.numRows →
      merge A.indices G.indices (fun mm1 _ => A.data.getD mm1 0 * (1 / 2)) (A.indptr.getD (k + 1) 0)
        (G.indptr.getD (j + 1) 0) (A.indptr.getD k 0) (G.indptr.getD j 0) s =
      s + ∑ m ∈ range G.numCols, A.entry k m * (halfMat G : CSR K).entry j m := by
    intro k s hk
    have := merge_rows A (halfMat G) hA hAs hV hS hc k j hk hj (fun _ => 1) s
      (fun mm1 _ => A.data.getD mm1 0 * (1 / 2)) (fun a b _ hb => by rw [halfMat_data G b hb, one_mul])
    rw [hc] at this
    simp only [one_mul] at this
    exact this
  have hsk : ∀ (k : Nat) (s : K), k < A.numRows →
      seekAdd A.indices j (A.indptr.getD (k + 1) 0) (A.indptr.getD k 0) (fun mm1 => A.data.getD mm1 0) s =
      s + A.entry k j := by
    intro k s hk
    rw [seekAdd_eq _ _ _ _ _ _ (fun a b => sorted_getD A hA hAs k hk a b), pos_col A hA k hk j (by omega)]
  unfold getEntryRestr
  simp only
  rw [hsk i _ (by omega), hm i _ (by omega), forRange_add, zero_add]
  have hfun : (restriction G : Nat → Nat → K) = fun i j => (if i = j then 1 else 0) + (halfMat G : CSR K).entry i j := by
    funext a b; exact restriction_eq G a b
  rw [hfun, triple_expand _ _ _ _ _ (by omega) (by omega)]
  congr 2
  have h := pos_sum (halfMat G : CSR K) hV i hi fun k =>
    (∑ m ∈ range G.numCols, A.entry k m * (halfMat G : CSR K).entry j m) + A.entry k j
  rw [show (halfMat G : CSR K).numCols = G.numCols from rfl] at h
  rw [← h]
  apply sum_congr rfl
  intro a ha
  obtain ⟨ha1, ha2⟩ := idx_lt (halfMat G : CSR K) hV i hi a ha
  have ha2 : G.indices.getD a 0 < G.numCols := ha2
  rw [halfMat_data G a ha1, hsk _ _ (by omega), hm _ _ (by omega), zero_add]
  rfl

theorem quarter [Field K] : (1 / 4 : K) = 1 / 2 * (1 / 2) := by
  rw [one_div_mul_one_div]; norm_num

theorem getEntryFromDRestr_eq [Field K] (G : Graph) (hG : GraphValid G) (d : List K)
    (hle : G.numRows ≤ G.numCols) (i j : Nat) (hi : i < G.numRows) (hj : j < G.numRows) :
    (if i = j then d.getD i 0 else 0) + getEntryFromDRestr i j G d =
      triple G.numCols (restriction G) (fun k m => if k = m then d.getD k 0 else 0) i j := by
  obtain ⟨hV, hS⟩ := halfMat_valid (K := K) G hG
  have hfun : (restriction G : Nat → Nat → K) = fun i j => (if i = j then 1 else 0) + (halfMat G : CSR K).entry i j := by
    funext a b; exact restriction_eq G a b
  rw [hfun, triple_expand _ _ _ _ _ (by omega) (by omega)]
  have hm := merge_rows (halfMat G : CSR K) (halfMat G) hV hS hV hS rfl i j hi hj (fun m => d.getD m 0) 0
    (fun mm1 _ => 1 / 4 * d.getD (G.indices.getD mm1 0) 0)
    (fun a b ha hb => by
      rw [halfMat_data G a ha, halfMat_data G b hb, quarter]
      show _ = 1 / 2 * (d.getD (G.indices.getD a 0) 0 * (1 / 2))
      ring)
  have hsk : ∀ (i j : Nat) (s : K), i < G.numRows → j < G.numCols →
      seekAdd G.indices j (G.indptr.getD (i + 1) 0) (G.indptr.getD i 0) (fun _ => 1 / 2 * d.getD j 0) s =
      s + (halfMat G : CSR K).entry i j * d.getD j 0 := by
    intro i j s hi hj
    rw [seekAdd_eq G.indices j (G.indptr.getD (i + 1) 0) (G.indptr.getD i 0) _ _
      (fun a b => sorted_getD (halfMat G : CSR K) hV hS i hi a b),
      ← pos_col (halfMat G : CSR K) hV i hi j hj, sum_mul]
    congr 1
    apply sum_congr rfl
    intro a ha
    rw [halfMat_data G a (idx_lt (halfMat G : CSR K) hV i hi a ha).1, ite_mul, zero_mul]
    rfl
  unfold getEntryFromDRestr
  simp only
  have hm' : merge G.indices G.indices (fun mm1 _ => 1 / 4 * d.getD (G.indices.getD mm1 0) 0)
      (G.indptr.getD (i + 1) 0) (G.indptr.getD (j + 1) 0) (G.indptr.getD i 0) (G.indptr.getD j 0) 0 =
      0 + ∑ m ∈ range G.numCols, (halfMat G : CSR K).entry i m * (d.getD m 0 * (halfMat G : CSR K).entry j m) := hm
  rw [hm', hsk i j _ hi (by omega), hsk j i _ hj (by omega), zero_add]
  have dsum : ∀ k, k < G.numCols → ∑ m ∈ range G.numCols, (if k = m then d.getD k 0 else 0) *
      (halfMat G : CSR K).entry j m = d.getD k 0 * (halfMat G : CSR K).entry j k := by
    intro k hk
    have : ∀ m ∈ range G.numCols, (if k = m then d.getD k 0 else 0) * (halfMat G : CSR K).entry j m =
        if k = m then d.getD k 0 * (halfMat G : CSR K).entry j k else 0 := by
      intro m _
      by_cases h : k = m
      · subst h; simp
      · simp [h]
    rw [sum_congr rfl this, sum_ite_eq, if_pos (mem_range.2 hk)]
  rw [dsum i (by omega)]
  have e : ∀ k ∈ range G.numCols, (halfMat G : CSR K).entry i k *
      ((∑ m ∈ range G.numCols, (if k = m then d.getD k 0 else 0) * (halfMat G : CSR K).entry j m) +
        if k = j then d.getD k 0 else 0) =
      (halfMat G : CSR K).entry i k * (d.getD k 0 * (halfMat G : CSR K).entry j k) +
        if k = j then (halfMat G : CSR K).entry i j * d.getD j 0 else 0 := by
    intro k hk
    rw [dsum k (mem_range.1 hk)]
    by_cases h : k = j
    · subst h; rw [if_pos rfl, if_pos rfl]; ring
    · rw [if_neg h, if_neg h]; ring
  rw [sum_congr rfl e, sum_add_distrib, sum_ite_eq', if_pos (mem_range.2 (by omega))]
  ring

/-! ### symmetric storage -/

theorem diagLoop_eq [CommSemiring K] (Ac : SSS K) (hAc : Ac.Valid) (first second : Nat → K)
    (g : Nat → Nat → K) (data diagonal : List K) (hd : diagonal.length = Ac.n) :
    (diagLoop Ac first second g data diagonal).1 = addEntries Ac.indptr Ac.indices g data ∧
    (diagLoop Ac first second g data diagonal).2.length = Ac.n ∧
    ∀ i, i < Ac.n → (diagLoop Ac first second g data diagonal).2.getD i 0 =
      diagonal.getD i 0 + first i + second i := by
  unfold diagLoop addEntries
  refine ⟨forRange_map Prod.fst _ _ _ _ (fun s k => rfl) _, ?_⟩
  have hp : (forRange 0 (Ac.indptr.length - 1) (data, diagonal) fun s i =>
      let diagonal := s.2.modify i (· + first i)
      let data := forRange (Ac.indptr.getD i 0) (Ac.indptr.getD (i + 1) 0) s.1 fun data jj =>
        data.modify jj (· + g i (Ac.indices.getD jj 0))
      (data, diagonal.modify i (· + second i))).2 =
      forRange 0 (Ac.indptr.length - 1) diagonal fun s i =>
        (s.modify i (· + first i)).modify i (· + second i) :=
    forRange_map Prod.snd _ _ _ _ (fun s k => rfl) _
  rw [hp, show Ac.indptr.length - 1 = Ac.n by rw [hAc.indptr.length]; rfl]
  have : ∀ n, n ≤ Ac.n →
      (forRange 0 n diagonal fun s i => (s.modify i (· + first i)).modify i (· + second i)).length = Ac.n ∧
      ∀ i, (forRange 0 n diagonal fun s i => (s.modify i (· + first i)).modify i (· + second i)).getD i 0 =
        if i < n then diagonal.getD i 0 + first i + second i else diagonal.getD i 0 := by
    intro n
    induction n with
    | zero => intro _; exact ⟨hd, fun i => by rw [if_neg (by omega)]; rfl⟩
    | succ n ih =>
      intro hn
      obtain ⟨h1, h2⟩ := ih (by omega)
      rw [forRange_succ]
      generalize (forRange 0 n diagonal fun s i => (s.modify i (· + first i)).modify i (· + second i)) = s at h1 h2 ⊢
      refine ⟨by simp [h1], fun i => ?_⟩
      rw [getD_modify, getD_modify, List.length_modify, h2 i, h1]
      by_cases hin : n = i
      · subst hin
        rw [if_pos ⟨rfl, hn⟩, if_pos ⟨rfl, hn⟩, if_neg (by omega), if_pos (by omega)]
      · rw [if_neg (by omega), if_neg (by omega)]
        by_cases hlt : i < n
        · rw [if_pos hlt, if_pos (by omega)]
        · rw [if_neg hlt, if_neg (by omega)]
  obtain ⟨h1, h2⟩ := this Ac.n (Nat.le_refl _)
  exact ⟨h1, fun i hi => by rw [h2, if_pos hi]⟩

theorem entry_diag [AddCommMonoid K] (S : SSS K) (i : Nat) : S.entry i i = S.diagonal.getD i 0 :=
  if_pos rfl

theorem entry_lower [AddCommMonoid K] (S : SSS K) (i j : Nat) (h : j < i) :
    S.entry i j = S.lower.entry i j := by
  unfold Spec.SSS.entry; rw [if_neg (by omega), if_pos h]

theorem entry_upper [AddCommMonoid K] (S : SSS K) (i j : Nat) (h : i < j) :
    S.entry i j = S.lower.entry j i := by
  unfold Spec.SSS.entry; rw [if_neg (by omega), if_neg (by omega)]

/-- Result of adding a symmetric `T` to all stored entries of symmetric storage. -/
theorem sss_add [AddCommMonoid K] (Ac B : SSS K) (hAc : Ac.Valid) (hs : Ac.lower.Sorted)
    (hp : B.indptr = Ac.indptr) (hi : B.indices = Ac.indices) (hn : B.n = Ac.n)
    (hdl : B.diagonal.length = Ac.n) (T : Nat → Nat → K)
    (hT : ∀ i j, i < Ac.n → j < Ac.n → T i j = T j i)
    (hd : ∀ i, i < Ac.n → B.diagonal.getD i 0 = Ac.diagonal.getD i 0 + T i i)
    (hl : B.data.length = Ac.data.length)
    (hdata : ∀ i, i < Ac.n → ∀ a, Ac.indptr.getD i 0 ≤ a → a < Ac.indptr.getD (i + 1) 0 →
      B.data.getD a 0 = Ac.data.getD a 0 + T i (Ac.indices.getD a 0)) :
    B.Valid ∧ (∀ i j, B.HasEntry i j ↔ Ac.HasEntry i j) ∧
    ∀ i j, i < Ac.n → j < Ac.n →
      (Ac.HasEntry i j → B.entry i j = Ac.entry i j + T i j) ∧
      (¬ Ac.HasEntry i j → B.entry i j = Ac.entry i j) := by
  have hV := PyNucleus.SSS.lower_valid Ac hAc
  obtain ⟨hB1, hB2⟩ := data_map Ac.lower hV B.data (fun i j v => v + T i j) hl hdata
  have hBl : B.lower = { Ac.lower with data := B.data } := by
    unfold Spec.SSS.lower; rw [hp, hi, hn]
  have hrow : ∀ i, i < Ac.n → B.lower.row i = (Ac.lower.row i).map fun e => (e.1, e.2 + T i e.1) := by
    intro i hi; rw [hBl]; exact hB2 i hi
  have hcols : ∀ i, (B.lower.row i).map Prod.fst = (Ac.lower.row i).map Prod.fst := by
    intro i
    rw [hBl, row_fst _ hB1, row_fst _ hV]
  have hent : ∀ i j, i < Ac.n → B.lower.entry i j = Ac.lower.entry i j +
      if j ∈ (Ac.lower.row i).map Prod.fst then T i j else 0 := fun i j hi =>
    entry_add Ac.lower B.lower i j (T i) (sorted_nodup _ hs i hi) (hrow i hi)
  refine ⟨⟨by rw [hp, hn, hi]; exact hAc.indptr, by rw [hl, hi]; exact hAc.data, by rw [hdl, hn], ?_⟩,
    fun i j => ?_, fun i j hi hj => ⟨fun h => ?_, fun h => ?_⟩⟩
  · intro i hi e he
    rw [hn] at hi
    have : e.1 ∈ (Ac.lower.row i).map Prod.fst := by rw [← hcols]; exact List.mem_map_of_mem he
    obtain ⟨e', he', hee⟩ := List.mem_map.1 this
    rw [← hee]; exact hAc.lower i hi e' he'
  · unfold Spec.SSS.HasEntry; rw [hcols, hcols]
  · rcases h with rfl | ⟨h1, h2⟩ | ⟨h1, h2⟩
    · rw [entry_diag, entry_diag, hd i hi]
    · rw [entry_lower B i j h1, entry_lower Ac i j h1, hent i j hi, if_pos h2]
    · rw [entry_upper B i j h1, entry_upper Ac i j h1, hent j i hj, if_pos h2, hT i j hi hj]
  · unfold Spec.SSS.HasEntry at h
    rcases Nat.lt_trichotomy i j with hlt | heq | hgt
    · rw [entry_upper B i j hlt, entry_upper Ac i j hlt, hent j i hj,
        if_neg (fun hm => h (Or.inr (Or.inr ⟨hlt, hm⟩))), add_zero]
    · exact absurd (Or.inl heq) h
    · rw [entry_lower B i j hgt, entry_lower Ac i j hgt, hent i j hi,
        if_neg (fun hm => h (Or.inr (Or.inl ⟨hgt, hm⟩))), add_zero]

theorem triple_add [CommSemiring K] (n : Nat) (R A B : Nat → Nat → K) (i j : Nat) :
    triple n R (fun k m => A k m + B k m) i j = triple n R A i j + triple n R B i j := by
  unfold triple
  rw [← sum_add_distrib]
  apply sum_congr rfl; intro k _
  rw [← sum_add_distrib]
  apply sum_congr rfl; intro m _
  ring

theorem triple_swap [CommSemiring K] (n : Nat) (R A : Nat → Nat → K) (i j : Nat) :
    triple n R A j i = triple n R (fun k m => A m k) i j := by
  unfold triple
  rw [sum_comm]
  apply sum_congr rfl; intro k _
  apply sum_congr rfl; intro m _
  ring

theorem triple_congr [CommSemiring K] (n : Nat) (R A B : Nat → Nat → K) (i j : Nat)
    (h : ∀ k m, k < n → m < n → A k m = B k m) : triple n R A i j = triple n R B i j := by
  unfold triple
  apply sum_congr rfl; intro k hk
  apply sum_congr rfl; intro m hm
  rw [h k m (mem_range.1 hk) (mem_range.1 hm)]

/-- The three parts of a symmetric matrix. -/
theorem triple_sss [CommSemiring K] (S : SSS K) (hS : S.Valid) (R : Nat → Nat → K) (i j : Nat) :
    triple S.n R S.entry i j = triple S.n R S.lower.entry i j + triple S.n R S.lower.entry j i +
      triple S.n R (fun k m => if k = m then S.diagonal.getD k 0 else 0) i j := by
  rw [triple_swap S.n R S.lower.entry i j, ← triple_add, ← triple_add]
  apply triple_congr
  intro k m hk hm
  rw [PyNucleus.SSS.entry_split S hS k m hk hm]
  ring

theorem triple_symm [CommSemiring K] (n : Nat) (R A : Nat → Nat → K) (i j : Nat)
    (h : ∀ k m, k < n → m < n → A k m = A m k) : triple n R A i j = triple n R A j i := by
  rw [triple_swap n R A i j]
  exact triple_congr n R _ _ i j h

end PyNucleus.Galerkin
