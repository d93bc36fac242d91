import Verif.Model.Entries
import Verif.Proof.SortIndices

/-! Helper lemmas on entry access. -/

namespace PyNucleus.CSR

open PyNucleus.Loops PyNucleus.Spec

variable {K : Type}

theorem scanRow_spec (a : List Nat) (J : Nat) : ∀ n i,
    (∃ k, scanRow a J n i = some k ∧ i ≤ k ∧ k < i + n ∧ a.getD k 0 = J ∧
        ∀ m, i ≤ m → m < k → a.getD m 0 ≠ J) ∨
      (scanRow a J n i = none ∧ ∀ k, i ≤ k → k < i + n → a.getD k 0 ≠ J) := by
  intro n
  induction n with
  | zero => intro i; right; exact ⟨rfl, fun k _ _ => by omega⟩
  | succ n ih =>
    intro i
    rw [scanRow]
    by_cases h : a.getD i 0 = J
    · left; rw [if_pos h]; exact ⟨i, rfl, Nat.le_refl _, by omega, h, fun m _ _ => by omega⟩
    · rw [if_neg h]
      rcases ih (i + 1) with ⟨k, h1, h2, h3, h4, h5⟩ | ⟨h1, h2⟩
      · left
        refine ⟨k, h1, by omega, by omega, h4, fun m hm1 hm2 => ?_⟩
        by_cases hm : m = i
        · subst hm; exact h
        · exact h5 m (by omega) hm2
      · right
        refine ⟨h1, fun k hk1 hk2 => ?_⟩
        by_cases hk : k = i
        · subst hk; exact h
        · exact h2 k (by omega) (by omega)

theorem bisectRow_spec (a : List Nat) (J lo hi low high : Nat)
    (hs : ∀ k m, lo ≤ k → k < m → m < hi → a.getD k 0 < a.getD m 0)
    (h0 : lo ≤ low) (h1 : low < high) (h2 : high ≤ hi)
    (h3 : low = lo ∨ a.getD low 0 ≤ J) (h4 : ∀ k, high ≤ k → k < hi → J < a.getD k 0) :
    (∃ k, bisectRow a J low high = some k ∧ lo ≤ k ∧ k < hi ∧ a.getD k 0 = J) ∨
      (bisectRow a J low high = none ∧ ∀ k, lo ≤ k → k < hi → a.getD k 0 ≠ J) := by
  fun_induction bisectRow a J low high with
  | case1 low high h => left; exact ⟨low, rfl, h0, by omega, h⟩
  | case2 low high hne hle =>
    right
    refine ⟨rfl, fun k hk1 hk2 he => ?_⟩
    by_cases hkh : high ≤ k
    · have := h4 k hkh hk2; omega
    · by_cases hkl : k = low
      · subst hkl; exact hne he
      · have := hs k low hk1 (by omega) (by omega)
        rcases h3 with h | h
        · omega
        · omega
  | case3 low high hne hle hmid ih =>
    exact ih (by omega) (by omega) h2 (Or.inr hmid) h4
  | case4 low high hne hle hmid ih =>
    refine ih h0 (by omega) (by omega) h3 fun k hk1 hk2 => ?_
    by_cases hk : k = (low + high) / 2
    · subst hk; omega
    · have := hs ((low + high) / 2) k (by omega) (by omega) hk2; omega

/-- Position of column `J` in row `I`, as found by the two-way search. -/
def findEntry (A : CSR K) (I J : Nat) : Option Nat :=
  let low := A.indptr.getD I 0
  let high := A.indptr.getD (I + 1) 0
  if high - low < 20 then scanRow A.indices J (high - low) low
  else bisectRow A.indices J low high

/-- `k` is the position of the stored entry `(I, J)`. -/
def At (A : CSR K) (I J k : Nat) : Prop :=
  A.indptr.getD I 0 ≤ k ∧ k < A.indptr.getD (I + 1) 0 ∧ A.indices.getD k 0 = J

theorem csrRow_getElem? {α : Type} (p : List Nat) (xs : List α) (i m : Nat) :
    (csrRow p xs i)[m]? =
      if m < p.getD (i + 1) 0 - p.getD i 0 then xs[p.getD i 0 + m]? else none := by
  unfold csrRow
  rw [List.getElem?_take]
  split
  · rw [List.getElem?_drop]
  · rfl

theorem sorted_getD (A : CSR K) (hA : A.Valid) (hs : A.Sorted) (I : Nat) (hI : I < A.numRows)
    (k m : Nat) (h1 : A.indptr.getD I 0 ≤ k) (h2 : k < m) (h3 : m < A.indptr.getD (I + 1) 0) :
    A.indices.getD k 0 < A.indices.getD m 0 := by
  have h := hs I hI
  rw [row_fst A hA, List.pairwise_iff_getElem] at h
  have hle := ValidIndptr.le_nnz hA.indptr (I + 1) (by omega)
  have hlen : (csrRow A.indptr A.indices I).length = A.indptr.getD (I + 1) 0 - A.indptr.getD I 0 :=
    (split_row A.indptr A.numRows A.indices hA.indptr I hI).2.2
  have hh := h (k - A.indptr.getD I 0) (m - A.indptr.getD I 0) (by omega) (by omega) (by omega)
  have e : ∀ q, A.indptr.getD I 0 ≤ q → q < A.indptr.getD (I + 1) 0 →
      (csrRow A.indptr A.indices I)[q - A.indptr.getD I 0]? = some (A.indices.getD q 0) := by
    intro q q1 q2
    rw [csrRow_getElem?, if_pos (by omega), show A.indptr.getD I 0 + (q - A.indptr.getD I 0) = q by omega,
      List.getD_eq_getElem?_getD, List.getElem?_eq_getElem (by omega)]
    rfl
  have e1 := e k h1 (by omega)
  have e2 := e m (by omega) h3
  rw [List.getElem?_eq_getElem (by omega)] at e1 e2
  rw [Option.some.injEq] at e1 e2
  rw [← e1, ← e2]; exact hh

theorem findEntry_spec (A : CSR K) (hA : A.Valid) (hs : A.Sorted) (I J : Nat) (hI : I < A.numRows) :
    (∃ k, findEntry A I J = some k ∧ At A I J k) ∨
      (findEntry A I J = none ∧ ∀ k, ¬ At A I J k) := by
  have hm := hA.indptr.mono I hI
  unfold findEntry At
  simp only
  by_cases h : A.indptr.getD (I + 1) 0 - A.indptr.getD I 0 < 20
  · rw [if_pos h]
    rcases scanRow_spec A.indices J (A.indptr.getD (I + 1) 0 - A.indptr.getD I 0) (A.indptr.getD I 0)
      with ⟨k, h1, h2, h3, h4, _⟩ | ⟨h1, h2⟩
    · left; exact ⟨k, h1, h2, by omega, h4⟩
    · right; exact ⟨h1, fun k hk => h2 k hk.1 (by omega) hk.2.2⟩
  · rw [if_neg h]
    rcases bisectRow_spec A.indices J _ _ _ _ (sorted_getD A hA hs I hI) (Nat.le_refl _)
      (show A.indptr.getD I 0 < A.indptr.getD (I + 1) 0 by omega) (Nat.le_refl _) (Or.inl rfl)
      (fun k _ _ => by omega) with ⟨k, h1, h2, h3, h4⟩ | ⟨h1, h2⟩
    · left; exact ⟨k, h1, h2, h3, h4⟩
    · right; exact ⟨h1, fun k hk => h2 k hk.1 hk.2.1 hk.2.2⟩

/-- Sum over the entries with a given key when the key occurs once. -/
theorem sum_filter_nodup [AddCommMonoid K] (J : Nat) : ∀ (l : List (Nat × K)) (m : Nat) (v : K),
    (l.map Prod.fst).Nodup → l[m]? = some (J, v) →
    ((l.filter fun e => e.1 = J).map Prod.snd).sum = v := by
  intro l
  induction l with
  | nil => intro m v _ h; simp at h
  | cons a t ih =>
    intro m v hn h
    rw [List.map_cons, List.nodup_cons] at hn
    cases m with
    | zero =>
      simp at h; subst h
      have : t.filter (fun e => decide (e.1 = J)) = [] := by
        rw [List.filter_eq_nil_iff]
        intro e he hj
        have : e.1 = J := by simpa using hj
        have hmem := List.mem_map_of_mem (f := Prod.fst) he
        rw [this] at hmem
        exact hn.1 hmem
      simp [this]
    | succ m =>
      simp at h
      have hmem : (J, v) ∈ t := List.mem_of_getElem? h
      have hmem' := List.mem_map_of_mem (f := Prod.fst) hmem
      have : ¬ a.1 = J := fun hj => hn.1 (by rw [hj]; exact hmem')
      rw [List.filter_cons, if_neg (by simpa using this)]
      exact ih m v hn.2 h

theorem sum_filter_unique [AddCommMonoid K] (l : List (Nat × K)) (hl : (l.map Prod.fst).Pairwise (· < ·))
    (m : Nat) (j : Nat) (v : K) (h : l[m]? = some (j, v)) :
    ((l.filter fun e => e.1 = j).map Prod.snd).sum = v :=
  sum_filter_nodup j l m v (List.nodup_iff_pairwise_ne.2 (hl.imp fun h => by omega)) h

theorem row_getElem? [Zero K] (A : CSR K) (hA : A.Valid) (I : Nat) (hI : I < A.numRows) (k : Nat)
    (h1 : A.indptr.getD I 0 ≤ k) (h2 : k < A.indptr.getD (I + 1) 0) :
    (A.row I)[k - A.indptr.getD I 0]? = some (A.indices.getD k 0, A.data.getD k 0) := by
  have hle := ValidIndptr.le_nnz hA.indptr (I + 1) (by omega)
  unfold CSR.row
  rw [csrRow_getElem?, if_pos (by omega), show A.indptr.getD I 0 + (k - A.indptr.getD I 0) = k by omega,
    ← zip_getD A.indices A.data hA.data.symm, List.getD_eq_getElem?_getD,
    List.getElem?_eq_getElem (by rw [zip_length A hA]; omega)]
  rfl

theorem entry_at [AddCommMonoid K] (A : CSR K) (hA : A.Valid) (hs : A.Sorted) (I J k : Nat)
    (hI : I < A.numRows) (h : At A I J k) : A.entry I J = A.data.getD k 0 := by
  have := row_getElem? A hA I hI k h.1 h.2.1
  rw [h.2.2] at this
  exact sum_filter_unique _ (hs I hI) _ _ _ this

theorem mem_row_at [Zero K] (A : CSR K) (hA : A.Valid) (I : Nat) (hI : I < A.numRows) (e : Nat × K)
    (he : e ∈ A.row I) : ∃ k, At A I e.1 k ∧ A.data.getD k 0 = e.2 := by
  obtain ⟨m, hm⟩ := List.getElem?_of_mem he
  have hm' := hm
  unfold CSR.row at hm'
  rw [csrRow_getElem?] at hm'
  split at hm'
  · rename_i hlt
    have := row_getElem? A hA I hI (A.indptr.getD I 0 + m) (by omega) (by omega)
    rw [Nat.add_sub_cancel_left, hm, Option.some.injEq] at this
    exact ⟨A.indptr.getD I 0 + m, ⟨by omega, by omega, by rw [this]⟩, by rw [this]⟩
  · simp at hm'

theorem entry_absent [AddCommMonoid K] (A : CSR K) (hA : A.Valid) (I J : Nat) (hI : I < A.numRows)
    (h : ∀ k, ¬ At A I J k) : A.entry I J = 0 := by
  unfold CSR.entry
  have : (A.row I).filter (fun e => decide (e.1 = J)) = [] := by
    rw [List.filter_eq_nil_iff]
    intro e he hj
    obtain ⟨k, hk, _⟩ := mem_row_at A hA I hI e he
    have : e.1 = J := by simpa using hj
    rw [this] at hk
    exact h k hk
  rw [this]; rfl

/-- `(I, J)` is a stored position. -/
def Stored (A : CSR K) (I J : Nat) : Prop := J ∈ (A.row I).map Prod.fst

theorem stored_iff [Zero K] (A : CSR K) (hA : A.Valid) (I J : Nat) (hI : I < A.numRows) :
    Stored A I J ↔ ∃ k, At A I J k := by
  unfold Stored
  constructor
  · intro h
    obtain ⟨e, he, rfl⟩ := List.mem_map.1 h
    obtain ⟨k, hk, _⟩ := mem_row_at A hA I hI e he
    exact ⟨k, hk⟩
  · rintro ⟨k, hk⟩
    have := List.mem_of_getElem? (row_getElem? A hA I hI k hk.1 hk.2.1)
    rw [hk.2.2] at this
    exact List.mem_map_of_mem (f := Prod.fst) this

/-- Two rows do not share a position. -/
theorem At.row_unique (A : CSR K) (hA : A.Valid) {I J I' J' k : Nat} (hI : I < A.numRows)
    (hI' : I' < A.numRows) (h : At A I J k) (h' : At A I' J' k) : I = I' ∧ J = J' := by
  refine ⟨?_, by rw [← h.2.2, ← h'.2.2]⟩
  rcases Nat.lt_trichotomy I I' with hlt | he | hgt
  · have := mono_le _ _ _ hA.indptr (I + 1) I' (by omega) (by omega)
    have := h.2.1; have := h'.1; omega
  · exact he
  · have := mono_le _ _ _ hA.indptr (I' + 1) I (by omega) (by omega)
    have := h'.2.1; have := h.1; omega

/-- Changing one value changes one entry. -/
theorem entry_update [AddCommMonoid K] (A : CSR K) (hA : A.Valid) (hs : A.Sorted) (I J k : Nat)
    (hI : I < A.numRows) (h : At A I J k) (d : List K) (v : K) (hlen : d.length = A.data.length)
    (hd : ∀ m, d.getD m 0 = if m = k then v else A.data.getD m 0) :
    ({ A with data := d } : CSR K).Valid ∧ ({ A with data := d } : CSR K).Sorted ∧
    ∀ I' J', I' < A.numRows → ({ A with data := d } : CSR K).entry I' J' =
      if I' = I ∧ J' = J then v else A.entry I' J' := by
  have hv : ({ A with data := d } : CSR K).Valid := ⟨hA.indptr, by rw [hlen]; exact hA.data, hA.cols⟩
  have hso : ({ A with data := d } : CSR K).Sorted := by
    intro i hi
    have := hs i hi
    rw [row_fst A hA] at this
    rw [row_fst _ hv]; exact this
  refine ⟨hv, hso, fun I' J' hI' => ?_⟩
  by_cases hex : ∃ m, At A I' J' m
  · obtain ⟨m, hm⟩ := hex
    rw [entry_at _ hv hso I' J' m hI' hm, entry_at A hA hs I' J' m hI' hm]
    show d.getD m 0 = _
    rw [hd m]
    by_cases hmk : m = k
    · subst hmk
      obtain ⟨h1, h2⟩ := At.row_unique A hA hI' hI hm h
      rw [if_pos rfl, if_pos ⟨h1, h2⟩]
    · rw [if_neg hmk, if_neg]
      rintro ⟨rfl, rfl⟩
      apply hmk
      -- a sorted row stores a column once
      rcases Nat.lt_trichotomy m k with hlt | he | hgt
      · have := sorted_getD A hA hs I' hI' m k hm.1 hlt h.2.1
        have := h.2.2; have := hm.2.2; omega
      · exact he
      · have := sorted_getD A hA hs I' hI' k m h.1 hgt hm.2.1
        have := h.2.2; have := hm.2.2; omega
  · rw [entry_absent _ hv I' J' hI' (fun m hm => hex ⟨m, hm⟩),
      entry_absent A hA I' J' hI' (fun m hm => hex ⟨m, hm⟩), if_neg]
    rintro ⟨rfl, rfl⟩
    exact hex ⟨k, h⟩

theorem at_lt (A : CSR K) (hA : A.Valid) {I J k : Nat} (hI : I < A.numRows) (h : At A I J k) :
    k < A.data.length := by
  have := ValidIndptr.le_nnz hA.indptr (I + 1) (by omega)
  have := h.2.1
  rw [hA.data]; omega

theorem getEntry_eq [Zero K] (A : CSR K) (I J : Nat) :
    getEntry A I J = match findEntry A I J with | some i => A.data.getD i 0 | none => 0 := by
  unfold getEntry findEntry
  simp only
  by_cases h : A.indptr.getD (I + 1) 0 - A.indptr.getD I 0 < 20
  · rw [if_pos h, if_pos h]; rfl
  · rw [if_neg h, if_neg h]; rfl

theorem addToEntry_eq [Add K] (A : CSR K) (I J : Nat) (val : K) :
    addToEntry A I J val = match findEntry A I J with
      | some i => { A with data := A.data.modify i (· + val) } | none => A := by
  unfold addToEntry findEntry
  simp only
  by_cases h : A.indptr.getD (I + 1) 0 - A.indptr.getD I 0 < 20
  · rw [if_pos h, if_pos h]; rfl
  · rw [if_neg h, if_neg h]; rfl

theorem setEntry_eq (A : CSR K) (I J : Nat) (val : K) :
    setEntry A I J val = match findEntry A I J with
      | some i => some { A with data := A.data.set i val }
      | none => if A.indptr.getD (I + 1) 0 - A.indptr.getD I 0 < 20 then some A else none := by
  unfold setEntry findEntry
  simp only
  by_cases h : A.indptr.getD (I + 1) 0 - A.indptr.getD I 0 < 20
  · rw [if_pos h, if_pos h, if_pos h]; rfl
  · rw [if_neg h, if_neg h, if_neg h]; rfl

end PyNucleus.CSR
