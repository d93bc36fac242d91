import Verif.Model.Drop
import Verif.Proof.SortIndices

/-! # Compaction loops -/

namespace PyNucleus.Drop

open PyNucleus.Loops PyNucleus.Spec PyNucleus.CSR

variable {K α τ : Type}

/-- Arrays laid out row after row. -/
theorem layout (rows : List (List α)) (p : List Nat) (hp : p.length = rows.length + 1)
    (h : ∀ i, i ≤ rows.length → p.getD i 0 = (rows.take i).flatten.length) :
    ValidIndptr p rows.length rows.flatten.length ∧
      ∀ i, i < rows.length → csrRow p rows.flatten i = rows.getD i [] := by
  have hs : ∀ i, i < rows.length → p.getD (i + 1) 0 = p.getD i 0 + (rows.getD i []).length := by
    intro i hi
    rw [h (i + 1) (by omega), h i (by omega), List.take_succ_eq_append_getElem hi, List.flatten_append,
      List.length_append, List.getD_eq_getElem?_getD, List.getElem?_eq_getElem hi]
    simp
  refine ⟨⟨hp, ?_, ?_, fun i hi => by rw [hs i hi]; omega⟩, fun i hi => ?_⟩
  · have := h 0 (by omega)
    rw [List.getD_eq_getElem?_getD, List.getElem?_eq_getElem (by omega)] at this
    rw [List.getElem?_eq_getElem (by omega)]
    simpa using this
  · have := h rows.length (by omega)
    rw [List.getD_eq_getElem?_getD, List.getElem?_eq_getElem (by omega)] at this
    rw [List.getElem?_eq_getElem (by omega)]
    simpa using this
  · unfold csrRow
    rw [hs i hi, Nat.add_sub_cancel_left, h i (by omega)]
    have e : rows.flatten = (rows.take i).flatten ++ ((rows.getD i []) ++ (rows.drop (i + 1)).flatten) := by
      conv => lhs; rw [← List.take_append_drop i rows, List.flatten_append]
      congr 1
      rw [List.drop_eq_getElem_cons hi, List.flatten_cons, List.getD_eq_getElem?_getD,
        List.getElem?_eq_getElem hi]
      rfl
    rw [e, List.drop_left, List.take_left]

/-- One step of a loop that reads slot `k`, and possibly writes at the write position. -/
def cstep (d : α) (h : τ → α → τ × Option α) (s : τ × Nat × List α) (k : Nat) : τ × Nat × List α :=
  match h s.1 (s.2.2.getD k d) with
  | (t, some e) => (t, s.2.1 + 1, s.2.2.set s.2.1 e)
  | (t, none) => (t, s.2)

/-- What the loop emits. -/
def emitted (h : τ → α → τ × Option α) : τ → List α → List α
  | _, [] => []
  | t, a :: l =>
    match h t a with
    | (t', some e) => e :: emitted h t' l
    | (t', none) => emitted h t' l

theorem emitted_length (h : τ → α → τ × Option α) : ∀ (l : List α) (t : τ),
    (emitted h t l).length ≤ l.length := by
  intro l
  induction l with
  | nil => intro t; simp [emitted]
  | cons a l ih =>
    intro t
    unfold emitted
    split
    · rw [List.length_cons, List.length_cons]; have := ih ‹τ›; omega
    · rw [List.length_cons]; have := ih ‹τ›; omega

theorem compact (d : α) (h : τ → α → τ × Option α) : ∀ (n lo : Nat) (s : τ × Nat × List α),
    s.2.1 ≤ lo → lo + n ≤ s.2.2.length →
    let r := (List.range' lo n).foldl (cstep d h) s
    let out := emitted h s.1 ((s.2.2.drop lo).take n)
    r.2.1 = s.2.1 + out.length ∧ r.2.2.take r.2.1 = s.2.2.take s.2.1 ++ out ∧
      r.2.2.drop (lo + n) = s.2.2.drop (lo + n) ∧ r.2.2.length = s.2.2.length := by
  intro n
  induction n with
  | zero =>
    intro lo s _ _
    simp [emitted]
  | succ n ih =>
    intro lo s h1 h2
    simp only
    rw [List.range'_succ, List.foldl_cons]
    have hlo : lo < s.2.2.length := by omega
    have e : (s.2.2.drop lo).take (n + 1) = s.2.2.getD lo d :: (s.2.2.drop (lo + 1)).take n := by
      rw [take_succ_getD d _ n (by rw [List.length_drop]; omega), List.drop_drop]
      congr 1
      rw [List.getD_eq_getElem?_getD, List.getD_eq_getElem?_getD, List.getElem?_drop, Nat.add_zero]
    rw [e]
    unfold emitted
    rcases heq : h s.1 (s.2.2.getD lo d) with ⟨t', o⟩
    cases o with
    | some e' =>
      have hc : cstep d h s lo = (t', s.2.1 + 1, s.2.2.set s.2.1 e') := by unfold cstep; rw [heq]
      rw [hc]
      have hd : ∀ m, lo + 1 ≤ m → (s.2.2.set s.2.1 e').drop m = s.2.2.drop m := by
        intro m hm
        rw [List.drop_set, if_pos (by omega)]
      have := ih (lo + 1) (t', s.2.1 + 1, s.2.2.set s.2.1 e') (by simp only; omega)
        (by simp only [List.length_set]; omega)
      simp only [List.length_set] at this
      rw [hd (lo + 1) (by omega), hd (lo + 1 + n) (by omega)] at this
      obtain ⟨g1, g2, g3, g4⟩ := this
      simp only
      refine ⟨by rw [g1, List.length_cons]; omega, ?_, ?_, g4⟩
      · rw [g2]
        rw [List.take_succ_eq_append_getElem (by rw [List.length_set]; omega), List.getElem_set_self,
          List.take_set_of_le (by omega), List.append_assoc]
        rfl
      · rw [show lo + (n + 1) = lo + 1 + n by omega]; exact g3
    | none =>
      have hc : cstep d h s lo = (t', s.2) := by unfold cstep; rw [heq]
      rw [hc]
      have := ih (lo + 1) (t', s.2) (by simp only; omega) (by simp only; omega)
      simp only at this
      obtain ⟨g1, g2, g3, g4⟩ := this
      simp only
      refine ⟨g1, g2, ?_, g4⟩
      rw [show lo + (n + 1) = lo + 1 + n by omega]; exact g3

/-- The buffer with its two arrays zipped. -/
def zipS (s : τ × Buf K) : τ × Nat × List (Nat × K) := (s.1, s.2.1, s.2.2.1.zip s.2.2.2)

/-- A loop over one row, in terms of the zipped arrays. -/
theorem row_loop [Zero K] (f : τ × Buf K → Nat → τ × Buf K) (h : τ → Nat × K → τ × Option (Nat × K))
    (hf : ∀ s k, s.2.2.1.length = s.2.2.2.length →
      zipS (f s k) = cstep (0, 0) h (zipS s) k ∧ (f s k).2.2.1.length = (f s k).2.2.2.length)
    (s : τ × Buf K) (lo hi : Nat) (hlen : s.2.2.1.length = s.2.2.2.length) (h1 : s.2.1 ≤ lo)
    (hlh : lo ≤ hi) (h2 : hi ≤ s.2.2.1.length) :
    let r := forRange lo hi s f
    let out := emitted h s.1 (((s.2.2.1.zip s.2.2.2).drop lo).take (hi - lo))
    r.2.1 = s.2.1 + out.length ∧
      (r.2.2.1.zip r.2.2.2).take r.2.1 = (s.2.2.1.zip s.2.2.2).take s.2.1 ++ out ∧
      (r.2.2.1.zip r.2.2.2).drop hi = (s.2.2.1.zip s.2.2.2).drop hi ∧
      r.2.2.1.length = s.2.2.1.length ∧ r.2.2.1.length = r.2.2.2.length := by
  obtain ⟨v1, v2⟩ := forRange_view zipS (fun s : τ × Buf K => s.2.2.1.length = s.2.2.2.length) lo hi f
    (cstep (0, 0) h) hf s hlen
  have hz : ∀ s : τ × Buf K, s.2.2.1.length = s.2.2.2.length →
      (s.2.2.1.zip s.2.2.2).length = s.2.2.1.length := by
    intro s hs; rw [List.length_zip]; omega
  have := compact (0, 0) h (hi - lo) lo (zipS s) h1 (by
    show lo + (hi - lo) ≤ (s.2.2.1.zip s.2.2.2).length
    rw [hz s hlen]; omega)
  unfold forRange at v1
  simp only at this ⊢
  rw [← v1, show lo + (hi - lo) = hi by omega] at this
  obtain ⟨g1, g2, g3, g4⟩ := this
  refine ⟨g1, g2, g3, ?_, v2⟩
  have e : ∀ s : τ × Buf K, (zipS s).2.2 = s.2.2.1.zip s.2.2.2 := fun _ => rfl
  rw [e, e, hz s hlen] at g4
  rw [← g4]
  exact (hz _ v2).symm

theorem emitted_all (l : List α) : emitted (fun (_ : Unit) e => ((), some e)) () l = l := by
  induction l with
  | nil => rfl
  | cons a l ih => simp [emitted, ih]

/-- The copy loop of `dropRowsInPlace`. -/
theorem copy_loop [Zero K] (b : Buf K) (lo hi : Nat) (hlen : b.2.1.length = b.2.2.length)
    (h1 : b.1 ≤ lo) (hlh : lo ≤ hi) (h2 : hi ≤ b.2.1.length) :
    let r := forRange lo hi b fun b k => emit b (b.2.1.getD k 0, b.2.2.getD k 0)
    let out := ((b.2.1.zip b.2.2).drop lo).take (hi - lo)
    r.1 = b.1 + out.length ∧ (r.2.1.zip r.2.2).take r.1 = (b.2.1.zip b.2.2).take b.1 ++ out ∧
      (r.2.1.zip r.2.2).drop hi = (b.2.1.zip b.2.2).drop hi ∧
      r.2.1.length = b.2.1.length ∧ r.2.1.length = r.2.2.length := by
  have := row_loop (fun (s : Unit × Buf K) k => ((), emit s.2 (s.2.2.1.getD k 0, s.2.2.2.getD k 0)))
    (fun _ e => ((), some e)) (by
      intro s k hs
      constructor
      · simp only [zipS, cstep, emit, zip_getD _ _ hs, zip_set]
      · simp [emit, hs]) ((), b) lo hi hlen h1 hlh h2
  simp only [emitted_all] at this
  have e : forRange lo hi b (fun b k => emit b (b.2.1.getD k 0, b.2.2.getD k 0)) =
      (forRange lo hi ((), b) (fun (s : Unit × Buf K) k =>
        ((), emit s.2 (s.2.2.1.getD k 0, s.2.2.2.getD k 0)))).2 :=
    (forRange_map (fun s : Unit × Buf K => s.2) lo hi _ _ (fun _ _ => rfl) ((), b)).symm
  simp only
  rw [e]
  exact this

/-! ### dropping rows -/

/-- The rows that stay, among the first `i`. -/
def kept (R : List Nat) (i : Nat) : List Nat := (List.range i).filter fun r => r ∉ R

structure RowsInv (A : CSR K) (R : List Nat) (i : Nat) (s : RowState K) : Prop where
  count : s.l + s.m = i
  l : s.l = (kept R i).length
  iplen : s.indptr.length = A.numRows + 1
  ipdone : ∀ j, j ≤ s.l → s.indptr.getD j 0 = (((kept R i).map A.row).take j).flatten.length
  iprest : ∀ j, i ≤ j → j ≤ A.numRows → s.indptr.getD j 0 = A.indptr.getD j 0
  lens : s.buf.2.1.length = s.buf.2.2.length
  ilen : s.buf.2.1.length = A.indices.length
  pos : s.buf.1 ≤ A.indptr.getD i 0
  posl : s.buf.1 = ((kept R i).map A.row).flatten.length
  full : s.l = i → s.buf.1 = A.indptr.getD i 0
  done : (s.buf.2.1.zip s.buf.2.2).take s.buf.1 = ((kept R i).map A.row).flatten
  rest : (s.buf.2.1.zip s.buf.2.2).drop (A.indptr.getD i 0) =
    (A.indices.zip A.data).drop (A.indptr.getD i 0)
  mle : s.m ≤ R.length
  below : ∀ k, k < s.m → R.getD k 0 < i
  above : ∀ k, s.m ≤ k → k < R.length → i ≤ R.getD k 0
  ri : s.ri = R.getD (min s.m (R.length - 1)) 0

theorem mem_iff_getD (R : List Nat) (i : Nat) : i ∈ R ↔ ∃ k, k < R.length ∧ R.getD k 0 = i := by
  rw [List.mem_iff_getElem]
  constructor
  · rintro ⟨k, hk, e⟩
    exact ⟨k, hk, by rw [List.getD_eq_getElem?_getD, List.getElem?_eq_getElem hk]; exact e⟩
  · rintro ⟨k, hk, e⟩
    rw [List.getD_eq_getElem?_getD, List.getElem?_eq_getElem hk] at e
    exact ⟨k, hk, e⟩

theorem pairwise_getD (R : List Nat) (h : R.Pairwise (· < ·)) (a b : Nat) (hab : a < b)
    (hb : b < R.length) : R.getD a 0 < R.getD b 0 := by
  rw [List.getD_eq_getElem?_getD, List.getElem?_eq_getElem (by omega), List.getD_eq_getElem?_getD,
    List.getElem?_eq_getElem hb]
  exact List.pairwise_iff_getElem.1 h a b (by omega) hb hab

theorem rows_step [Zero K] (A : CSR K) (hA : A.Valid) (R : List Nat) (hR : R.Pairwise (· < ·))
    (hne : 0 < R.length) (i : Nat) (hi : i < A.numRows) (s : RowState K) (h : RowsInv A R i s) :
    RowsInv A R (i + 1) (dropRowsStep R s i) := by
  have hmono := hA.indptr.mono i hi
  have hle := ValidIndptr.le_nnz hA.indptr (i + 1) (by omega)
  have hmem : i = s.ri ↔ i ∈ R := by
    rw [h.ri, mem_iff_getD]
    constructor
    · intro e; exact ⟨_, by omega, e.symm⟩
    · rintro ⟨k, hk, e⟩
      have hkm : s.m ≤ k := by
        by_contra hc
        have := h.below k (by omega); omega
      have hmk : k = s.m := by
        by_contra hc
        have := pairwise_getD R hR s.m k (by omega) hk
        have := h.above s.m (Nat.le_refl _) (by omega)
        omega
      rw [show min s.m (R.length - 1) = k by omega]; exact e.symm
  by_cases hir : i ∈ R
  · obtain ⟨k, hk, e⟩ := (mem_iff_getD R i).1 hir
    have hkm : k = s.m := by
      rcases Nat.lt_trichotomy k s.m with hc | hc | hc
      · have := h.below k hc; omega
      · exact hc
      · have := pairwise_getD R hR s.m k hc hk
        have := h.above s.m (Nat.le_refl _) (by omega)
        omega
    subst hkm
    have hkept : kept R (i + 1) = kept R i := by
      unfold kept
      rw [List.range_succ, List.filter_append]
      simp [hir]
    have hstep : dropRowsStep R s i = { s with
        m := s.m + 1, ri := R.getD (min (s.m + 1) (R.length - 1)) 0 } := by
      unfold dropRowsStep
      rw [if_pos (hmem.2 hir)]
      by_cases hm : s.m + 1 < R.length
      · rw [if_pos hm, show min (s.m + 1) (R.length - 1) = s.m + 1 by omega]
      · rw [if_neg hm, show min (s.m + 1) (R.length - 1) = min s.m (R.length - 1) by omega, ← h.ri]
    rw [hstep]
    refine ⟨by simp only; have := h.count; omega, by rw [hkept]; exact h.l, h.iplen,
      by rw [hkept]; exact h.ipdone, fun j hj hj' => h.iprest j (by omega) hj', h.lens, h.ilen,
      Nat.le_trans h.pos hmono, by rw [hkept]; exact h.posl, ?_, by rw [hkept]; exact h.done, ?_,
      by simp only; omega, ?_, ?_, rfl⟩
    · intro hl
      have := h.count
      simp only at hl
      omega
    · have := congrArg (List.drop (A.indptr.getD (i + 1) 0 - A.indptr.getD i 0)) h.rest
      rw [List.drop_drop, List.drop_drop] at this
      rwa [show A.indptr.getD i 0 + (A.indptr.getD (i + 1) 0 - A.indptr.getD i 0) =
        A.indptr.getD (i + 1) 0 by omega] at this
    · intro k hk
      simp only at hk
      rcases Nat.lt_or_ge k s.m with hc | hc
      · have := h.below k hc; omega
      · rw [show k = s.m by omega]; omega
    · intro k hk hk'
      simp only at hk
      have := pairwise_getD R hR s.m k (by omega) hk'
      omega
  · have hkept : kept R (i + 1) = kept R i ++ [i] := by
      unfold kept
      rw [List.range_succ, List.filter_append]
      simp [hir]
    have hz : ∀ (u : List Nat) (v : List K), u.length = v.length → (u.zip v).length = u.length := by
      intro u v hs; rw [List.length_zip]; omega
    have hip1 : s.indptr.getD i 0 = A.indptr.getD i 0 := h.iprest i (Nat.le_refl _) (by omega)
    have hip2 : s.indptr.getD (i + 1) 0 = A.indptr.getD (i + 1) 0 := h.iprest _ (by omega) (by omega)
    obtain ⟨c1, c2, c3, c4, c5⟩ := copy_loop s.buf (A.indptr.getD i 0) (A.indptr.getD (i + 1) 0) h.lens
      h.pos hmono (by rw [h.ilen]; exact hle)
    have hout : ((s.buf.2.1.zip s.buf.2.2).drop (A.indptr.getD i 0)).take
        (A.indptr.getD (i + 1) 0 - A.indptr.getD i 0) = A.row i := by
      rw [h.rest]; rfl
    have hrl : (A.row i).length = A.indptr.getD (i + 1) 0 - A.indptr.getD i 0 := by
      unfold CSR.row csrRow
      rw [List.length_take, List.length_drop, zip_length A hA]; omega
    rw [hout] at c1 c2
    have hstep : dropRowsStep R s i =
        let buf := forRange (A.indptr.getD i 0) (A.indptr.getD (i + 1) 0) s.buf fun b k =>
          emit b (b.2.1.getD k 0, b.2.2.getD k 0)
        { s with buf := buf, l := s.l + 1, indptr := s.indptr.set (s.l + 1) buf.1 } := by
      unfold dropRowsStep
      rw [if_neg (fun e => hir (hmem.1 e)), hip1, hip2]
    rw [hstep]
    generalize hb : (forRange (A.indptr.getD i 0) (A.indptr.getD (i + 1) 0) s.buf fun b k =>
          emit b (b.2.1.getD k 0, b.2.2.getD k 0)) = b at c1 c2 c3 c4 c5
    simp only
    have hcnt := h.count
    have hml : (kept R i).length = s.l := h.l.symm
    have hflat : (List.map A.row (kept R (i + 1))).flatten =
        (List.map A.row (kept R i)).flatten ++ A.row i := by
      rw [hkept, List.map_append, List.flatten_append]; simp
    refine ⟨by simp only; omega, by rw [hkept]; simp [h.l], by simp [h.iplen], ?_, ?_, c5,
      by rw [c4]; exact h.ilen, ?_, ?_, ?_, ?_, ?_, h.mle, ?_, ?_, h.ri⟩
    · intro j hj
      simp only at hj ⊢
      rw [getD_set, h.iplen]
      by_cases hjl : j = s.l + 1
      · rw [if_pos ⟨hjl.symm, by omega⟩, List.take_of_length_le (by simp [hkept]; omega), c1, h.posl,
          hflat, List.length_append]
      · rw [if_neg (by omega), h.ipdone j (by omega), hkept, List.map_append,
          List.take_append_of_le_length (by simp; omega)]
    · intro j hj hj'
      simp only
      rw [getD_set, h.iplen]
      by_cases hjl : s.l + 1 = j
      · rw [if_pos ⟨hjl, by omega⟩, c1, h.full (by omega), hrl, show j = i + 1 by omega]; omega
      · rw [if_neg (by omega), h.iprest j (by omega) hj']
    · simp only
      have := h.pos
      omega
    · simp only; rw [hflat, List.length_append, c1, h.posl]
    · intro hl
      simp only at hl ⊢
      have := h.full (by omega)
      omega
    · simp only; rw [c2, h.done, hflat]
    · simp only
      rw [c3]
      have := congrArg (List.drop (A.indptr.getD (i + 1) 0 - A.indptr.getD i 0)) h.rest
      rw [List.drop_drop, List.drop_drop] at this
      rwa [show A.indptr.getD i 0 + (A.indptr.getD (i + 1) 0 - A.indptr.getD i 0) =
        A.indptr.getD (i + 1) 0 by omega] at this
    · intro k hk; have := h.below k hk; omega
    · intro k hk hk'
      have := h.above k hk hk'
      have : i ≠ R.getD k 0 := fun e => hir ((mem_iff_getD R i).2 ⟨k, hk', e.symm⟩)
      omega

theorem getD_zero_first {p : List Nat} {n nnz : Nat} (h : ValidIndptr p n nnz) : p.getD 0 0 = 0 := by
  rw [List.getD_eq_getElem?_getD, h.first]; rfl

theorem rows_all [Zero K] (A : CSR K) (hA : A.Valid) (R : List Nat) (hR : R.Pairwise (· < ·))
    (hne : 0 < R.length) : ∀ i, i ≤ A.numRows →
    RowsInv A R i (forRange 0 i (⟨A.indptr, (0, A.indices, A.data), 0, 0, R.getD 0 0⟩ : RowState K)
      (dropRowsStep R)) := by
  intro i
  induction i with
  | zero =>
    intro _
    have h0 := getD_zero_first hA.indptr
    refine ⟨rfl, rfl, hA.indptr.length, ?_, fun _ _ _ => rfl, hA.data.symm, rfl, Nat.zero_le _, rfl,
      fun _ => h0.symm, rfl, rfl, Nat.zero_le _, by intro k hk; exact absurd hk (Nat.not_lt_zero _),
      fun _ _ _ => Nat.zero_le _, ?_⟩
    · intro j hj
      have : j = 0 := Nat.le_zero.1 hj
      subst this
      exact h0
    · show R.getD 0 0 = R.getD (min 0 (R.length - 1)) 0
      rw [Nat.zero_min]
  | succ i ih =>
    intro hi
    rw [forRange_succ]
    exact rows_step A hA R hR hne i (by omega) _ (ih (by omega))

theorem flatten_split (u : List Nat) (v : List K) (h : u.length = v.length) (n : Nat)
    (rows : List (List (Nat × K))) (hd : (u.zip v).take n = rows.flatten) :
    (u.take n).zip (v.take n) = rows.flatten ∧ (u.take n).length = rows.flatten.length ∧
      (v.take n).length = rows.flatten.length := by
  have e : (u.take n).zip (v.take n) = rows.flatten := by rw [← hd]; exact List.take_zipWith.symm
  refine ⟨e, ?_, ?_⟩
  · rw [← e, List.length_zip, List.length_take, List.length_take]; omega
  · rw [← e, List.length_zip, List.length_take, List.length_take]; omega

theorem dropRows_spec [Zero K] (A : CSR K) (hA : A.Valid) (R : List Nat) (hR : R.Pairwise (· < ·))
    (hlt : ∀ r ∈ R, r < A.numRows) :
    (dropRows A R).Valid ∧ (dropRows A R).numRows = (kept R A.numRows).length ∧
      (dropRows A R).numCols = A.numCols ∧
      ∀ r, r < (kept R A.numRows).length → (dropRows A R).row r = A.row ((kept R A.numRows).getD r 0) := by
  by_cases h0 : R.length = 0
  · have hk : kept R A.numRows = List.range A.numRows := by
      have : R = [] := List.eq_nil_of_length_eq_zero h0
      unfold kept; simp [this]
    unfold dropRows
    rw [if_pos h0, hk]
    refine ⟨hA, by simp, rfl, fun r hr => ?_⟩
    rw [List.length_range] at hr
    rw [List.getD_eq_getElem?_getD, List.getElem?_range hr]; rfl
  · have h := rows_all A hA R hR (by omega) A.numRows (Nat.le_refl _)
    unfold dropRows
    rw [if_neg h0]
    generalize (forRange 0 A.numRows
      (⟨A.indptr, (0, A.indices, A.data), 0, 0, R.getD 0 0⟩ : RowState K) (dropRowsStep R)) = s at h
    simp only
    have hm : s.m = R.length := by
      have := h.mle
      rcases Nat.lt_or_ge s.m R.length with hc | hc
      · have h1 := h.above s.m (Nat.le_refl _) hc
        have h2 := hlt (R.getD s.m 0) ((mem_iff_getD _ _).2 ⟨_, hc, rfl⟩)
        omega
      · omega
    have hl := h.l
    have hc := h.count
    obtain ⟨f1, f2, f3⟩ := flatten_split _ _ h.lens _ _ h.done
    obtain ⟨l1, l2⟩ := layout ((kept R A.numRows).map A.row) (s.indptr.take (s.l + 1))
      (by rw [List.length_take, h.iplen, List.length_map]; omega) (by
        intro j hj
        rw [List.length_map] at hj
        rw [List.getD_eq_getElem?_getD, List.getElem?_take, if_pos (by omega),
          ← List.getD_eq_getElem?_getD]
        exact h.ipdone j (by omega))
    have hn : A.numRows - R.length = (kept R A.numRows).length := by omega
    rw [List.length_map] at l1 l2
    refine ⟨⟨?_, ?_, ?_⟩, hn, trivial, fun r hr => ?_⟩
    · simp only; rw [hn, f2]; exact l1
    · simp only; rw [f2, f3]
    · intro c hcm
      simp only at hcm
      have : c ∈ ((s.buf.2.1.take s.buf.1).zip (s.buf.2.2.take s.buf.1)).map Prod.fst := by
        rw [List.map_fst_zip (by rw [f2, f3])]; exact hcm
      rw [f1] at this
      obtain ⟨e, he, rfl⟩ := List.mem_map.1 this
      obtain ⟨row, hrow, her⟩ := List.mem_flatten.1 he
      obtain ⟨r, _, rfl⟩ := List.mem_map.1 hrow
      exact row_cols A hA r e her
    · unfold CSR.row
      simp only
      rw [f1, l2 r hr, List.getD_eq_getElem?_getD, List.getElem?_map, List.getD_eq_getElem?_getD,
        List.getElem?_eq_getElem hr]
      rfl

/-! ### dropping columns -/

theorem getD_lt_iff (cols : List Nat) (h : cols.Pairwise (· < ·)) (c : Nat) : ∀ k, k < cols.length →
    (cols.getD k 0 < c ↔ k < below cols c) := by
  unfold below
  induction cols with
  | nil => intro k hk; simp at hk
  | cons a t ih =>
    intro k hk
    rw [List.pairwise_cons] at h
    rw [List.countP_cons]
    cases k with
    | zero =>
      by_cases hac : a < c
      · simp [hac]
      · have : t.countP (fun k => decide (k < c)) = 0 := by
          rw [List.countP_eq_zero]
          intro b hb
          have := h.1 b hb
          simp; omega
        rw [this]
        simp [hac]
    | succ k =>
      have hk' : k < t.length := by simpa using hk
      have := ih h.2 k hk'
      rw [List.getD_cons_succ, this]
      by_cases hac : a < c
      · simp [hac]
      · have h0 : t.countP (fun k => decide (k < c)) = 0 := by
          rw [List.countP_eq_zero]
          intro b hb
          have := h.1 b hb
          simp; omega
        rw [h0]
        simp [hac]

theorem below_le (cols : List Nat) (c : Nat) : below cols c ≤ cols.length := List.countP_le_length

theorem advance_eq (cols : List Nat) (h : cols.Pairwise (· < ·)) (hne : 0 < cols.length) (c k : Nat)
    (hk : k ≤ min (cols.length - 1) (below cols c)) :
    advance cols c k = min (cols.length - 1) (below cols c) := by
  fun_induction advance cols c k with
  | case1 k hc ih =>
    have := (getD_lt_iff cols h c k (by omega)).1 hc.1
    exact ih (by omega)
  | case2 k hc =>
    rcases Nat.lt_or_ge k (cols.length - 1) with h1 | h1
    · have := getD_lt_iff cols h c k (by omega)
      have : ¬ cols.getD k 0 < c := fun h2 => hc ⟨h2, h1⟩
      omega
    · omega

/-- The number of kept columns in front of `c`. -/
theorem kept_length (cols : List Nat) (h : cols.Pairwise (· < ·)) (c : Nat) :
    (kept cols c).length + below cols c = c := by
  induction c with
  | zero => simp [kept, below_zero]
  | succ c ih =>
    have hn : cols.Nodup := h.imp (fun h => Nat.ne_of_lt h)
    rw [below_succ]
    unfold kept at ih ⊢
    rw [List.range_succ, List.filter_append, List.length_append]
    by_cases hc : c ∈ cols
    · rw [List.count_eq_one_of_mem hn hc]; simp [hc]; simp at ih; omega
    · rw [List.count_eq_zero_of_not_mem hc]; simp [hc]; simp at ih; omega

/-- What happens to one stored entry. -/
def colKeep (cols : List Nat) (e : Nat × K) : Option (Nat × K) :=
  if e.1 ∈ cols then none else some ((kept cols e.1).length, e.2)

def colStep (cols : List Nat) (k : Nat) (e : Nat × K) : Nat × Option (Nat × K) :=
  if cols.getD (advance cols e.1 k) 0 < e.1 then
    (advance cols e.1 k, some (e.1 - advance cols e.1 k - 1, e.2))
  else if e.1 < cols.getD (advance cols e.1 k) 0 then
    (advance cols e.1 k, some (e.1 - advance cols e.1 k, e.2))
  else (advance cols e.1 k, none)

theorem colStep_eq (cols : List Nat) (h : cols.Pairwise (· < ·)) (hne : 0 < cols.length)
    (k : Nat) (e : Nat × K) (hk : k ≤ min (cols.length - 1) (below cols e.1)) :
    colStep cols k e = (min (cols.length - 1) (below cols e.1), colKeep cols e) := by
  unfold colStep colKeep
  rw [advance_eq cols h hne e.1 k hk]
  have hb := below_le cols e.1
  have hkl := kept_length cols h e.1
  have hlt := getD_lt_iff cols h e.1
  by_cases h1 : cols.getD (min (cols.length - 1) (below cols e.1)) 0 < e.1
  · have h2 := (hlt _ (by omega)).1 h1
    have hnm : e.1 ∉ cols := by
      intro hm
      obtain ⟨j, hj, ej⟩ := (mem_iff_getD _ _).1 hm
      have := hlt j hj
      omega
    rw [if_pos h1, if_neg hnm]
    congr 3
    omega
  · have h2 : ¬ _ := fun x => h1 ((hlt _ (by omega)).2 x)
    rw [if_neg h1]
    by_cases h3 : e.1 < cols.getD (min (cols.length - 1) (below cols e.1)) 0
    · have hnm : e.1 ∉ cols := by
        intro hm
        obtain ⟨j, hj, ej⟩ := (mem_iff_getD _ _).1 hm
        have := hlt j hj
        rcases Nat.lt_trichotomy j (min (cols.length - 1) (below cols e.1)) with hc | hc | hc
        · omega
        · rw [hc] at ej; omega
        · have := pairwise_getD cols h _ j hc hj; omega
      rw [if_pos h3, if_neg hnm]
      congr 3
      omega
    · have hm : e.1 ∈ cols := (mem_iff_getD _ _).2 ⟨_, by omega, show cols.getD
        (min (cols.length - 1) (below cols e.1)) 0 = e.1 by omega⟩
      rw [if_neg h3, if_pos hm]

theorem emitted_cols (cols : List Nat) (h : cols.Pairwise (· < ·)) (hne : 0 < cols.length) :
    ∀ (l : List (Nat × K)) (k : Nat), (l.map Prod.fst).Pairwise (· ≤ ·) →
      (∀ e ∈ l, k ≤ min (cols.length - 1) (below cols e.1)) →
      emitted (colStep cols) k l = l.filterMap (colKeep cols) := by
  intro l
  induction l with
  | nil => intro k _ _; rfl
  | cons a l ih =>
    intro k hs hk
    rw [List.map_cons, List.pairwise_cons] at hs
    have ha := hk a (by simp)
    have hrec := ih (min (cols.length - 1) (below cols a.1)) hs.2 (by
      intro e he
      have := below_mono cols (hs.1 e.1 (List.mem_map_of_mem he))
      omega)
    unfold emitted
    rw [colStep_eq cols h hne k a ha, List.filterMap_cons]
    cases colKeep cols a with
    | none => exact hrec
    | some e => simp only; rw [hrec]

structure ColsInv (A : CSR K) (cols : List Nat) (i : Nat) (s : List Nat × Buf K) : Prop where
  iplen : s.1.length = A.numRows + 1
  ipdone : ∀ j, j < i → s.1.getD j 0 =
    ((List.range (j + 1)).map fun r => (A.row r).filterMap (colKeep cols)).flatten.length
  iprest : ∀ j, i ≤ j → s.1.getD j 0 = A.indptr.getD j 0
  lens : s.2.2.1.length = s.2.2.2.length
  ilen : s.2.2.1.length = A.indices.length
  pos : s.2.1 ≤ A.indptr.getD i 0
  posl : s.2.1 = ((List.range i).map fun r => (A.row r).filterMap (colKeep cols)).flatten.length
  done : (s.2.2.1.zip s.2.2.2).take s.2.1 =
    ((List.range i).map fun r => (A.row r).filterMap (colKeep cols)).flatten
  rest : (s.2.2.1.zip s.2.2.2).drop (A.indptr.getD i 0) =
    (A.indices.zip A.data).drop (A.indptr.getD i 0)

theorem cols_all [Zero K] (A : CSR K) (hA : A.Valid) (cols : List Nat) (hc : cols.Pairwise (· < ·))
    (hne : 0 < cols.length) (hs : ∀ i, i < A.numRows → ((A.row i).map Prod.fst).Pairwise (· ≤ ·)) :
    ∀ i, i ≤ A.numRows → ColsInv A cols i
      (forRange 0 i (A.indptr, ((0, A.indices, A.data) : Buf K)) fun s i =>
        let r := forRange (s.1.getD i 0) (s.1.getD (i + 1) 0) (0, s.2) (dropColsStep cols)
        (s.1.set i r.2.1, r.2)) := by
  intro i
  induction i with
  | zero =>
    intro _
    exact ⟨hA.indptr.length, by intro j hj; exact absurd hj (Nat.not_lt_zero _), fun _ _ => rfl,
      hA.data.symm, rfl, Nat.zero_le _, rfl, rfl, rfl⟩
  | succ i ih =>
    intro hi
    rw [forRange_succ]
    have h := ih (by omega)
    generalize (forRange 0 i (A.indptr, ((0, A.indices, A.data) : Buf K)) fun s i =>
        let r := forRange (s.1.getD i 0) (s.1.getD (i + 1) 0) (0, s.2) (dropColsStep cols)
        (s.1.set i r.2.1, r.2)) = s at h
    simp only
    have hmono := hA.indptr.mono i (by omega)
    have hle := ValidIndptr.le_nnz hA.indptr (i + 1) (by omega)
    rw [h.iprest i (Nat.le_refl _), h.iprest (i + 1) (by omega)]
    obtain ⟨c1, c2, c3, c4, c5⟩ := row_loop (dropColsStep cols) (colStep cols) (by
      intro s k hl
      unfold dropColsStep zipS cstep colStep
      simp only [zip_getD _ _ hl]
      split
      · exact ⟨by simp only [emit, zip_set], by simp [emit, hl]⟩
      · split
        · exact ⟨by simp only [emit, zip_set], by simp [emit, hl]⟩
        · exact ⟨rfl, hl⟩) (0, s.2) (A.indptr.getD i 0) (A.indptr.getD (i + 1) 0) h.lens h.pos hmono
      (by simp only; rw [h.ilen]; exact hle)
    have hout : ((s.2.2.1.zip s.2.2.2).drop (A.indptr.getD i 0)).take
        (A.indptr.getD (i + 1) 0 - A.indptr.getD i 0) = A.row i := by
      rw [h.rest]; rfl
    have hrl : (A.row i).length = A.indptr.getD (i + 1) 0 - A.indptr.getD i 0 := by
      unfold CSR.row csrRow
      rw [List.length_take, List.length_drop, zip_length A hA]; omega
    simp only at c1 c2 c3 c4 c5
    rw [hout, emitted_cols cols hc hne _ 0 (hs i (by omega)) (fun _ _ => Nat.zero_le _)] at c1 c2
    generalize (forRange (A.indptr.getD i 0) (A.indptr.getD (i + 1) 0) (0, s.2) (dropColsStep cols)) = r
      at c1 c2 c3 c4 c5
    have hflat : ((List.range (i + 1)).map fun r => (A.row r).filterMap (colKeep cols)).flatten =
        ((List.range i).map fun r => (A.row r).filterMap (colKeep cols)).flatten ++
          (A.row i).filterMap (colKeep cols) := by
      rw [List.range_succ, List.map_append, List.flatten_append]; simp
    have hposl : r.2.1 =
        ((List.range (i + 1)).map fun r => (A.row r).filterMap (colKeep cols)).flatten.length := by
      rw [c1, h.posl, hflat, List.length_append]
    refine ⟨by simp [h.iplen], ?_, ?_, c5, by rw [c4]; exact h.ilen, ?_, hposl, ?_, ?_⟩
    · intro j hj
      simp only
      rw [getD_set, h.iplen]
      by_cases hij : i = j
      · subst hij; rw [if_pos ⟨rfl, by omega⟩, hposl]
      · rw [if_neg (by omega), h.ipdone j (by omega)]
    · intro j hj
      simp only
      rw [getD_set, if_neg (by omega), h.iprest j (by omega)]
    · simp only
      have := h.pos
      have := List.length_filterMap_le (colKeep cols) (A.row i)
      omega
    · simp only; rw [c2, h.done, hflat]
    · simp only
      rw [c3]
      have := congrArg (List.drop (A.indptr.getD (i + 1) 0 - A.indptr.getD i 0)) h.rest
      rw [List.drop_drop, List.drop_drop] at this
      rwa [show A.indptr.getD i 0 + (A.indptr.getD (i + 1) 0 - A.indptr.getD i 0) =
        A.indptr.getD (i + 1) 0 by omega] at this

theorem kept_lt (cols : List Nat) (c n : Nat) (h : c < n) (hc : c ∉ cols) :
    (kept cols c).length < (kept cols n).length := by
  have : ∀ n, c + 1 ≤ n → (kept cols (c + 1)).length ≤ (kept cols n).length := by
    intro n hn
    induction n with
    | zero => omega
    | succ n ih =>
      by_cases hh : c + 1 = n + 1
      · rw [hh]
      · have := ih (by omega)
        unfold kept at this ⊢
        rw [List.range_succ (n := n), List.filter_append, List.length_append]
        omega
  have h1 := this n h
  have h2 : (kept cols (c + 1)).length = (kept cols c).length + 1 := by
    unfold kept
    rw [List.range_succ, List.filter_append, List.length_append]
    simp [hc]
  omega

theorem dropCols_spec [Zero K] (A : CSR K) (hA : A.Valid) (cols : List Nat)
    (hc : cols.Pairwise (· < ·)) (hne : 0 < cols.length) (hlt : ∀ c ∈ cols, c < A.numCols)
    (hs : ∀ i, i < A.numRows → ((A.row i).map Prod.fst).Pairwise (· ≤ ·)) :
    (dropCols A cols).Valid ∧ (dropCols A cols).numRows = A.numRows ∧
      (dropCols A cols).numCols = (kept cols A.numCols).length ∧
      ∀ i, i < A.numRows → (dropCols A cols).row i = (A.row i).filterMap (colKeep cols) := by
  have hl : A.indptr.length - 1 = A.numRows := by rw [hA.indptr.length]; rfl
  have h := cols_all A hA cols hc hne hs A.numRows (Nat.le_refl _)
  unfold dropCols
  rw [hl]
  generalize (forRange 0 A.numRows (A.indptr, ((0, A.indices, A.data) : Buf K)) fun s i =>
        let r := forRange (s.1.getD i 0) (s.1.getD (i + 1) 0) (0, s.2) (dropColsStep cols)
        (s.1.set i r.2.1, r.2)) = s at h
  simp only
  obtain ⟨f1, f2, f3⟩ := flatten_split _ _ h.lens _ _ h.done
  obtain ⟨s1, s2, s3⟩ := shiftBack_getD A.numRows s.1 h.iplen
  obtain ⟨l1, l2⟩ := layout ((List.range A.numRows).map fun r => (A.row r).filterMap (colKeep cols))
    (shiftBack A.numRows s.1) (by simp [s1]) (by
      intro j hj
      rw [List.length_map, List.length_range] at hj
      cases j with
      | zero => rw [s2]; simp
      | succ j =>
        rw [s3 j (by omega), h.ipdone j (by omega), ← List.map_take, List.take_range,
          show min (j + 1) A.numRows = j + 1 by omega])
  rw [List.length_map, List.length_range] at l1 l2
  have hkl := kept_length cols hc A.numCols
  have hb := below_all cols A.numCols hlt
  refine ⟨⟨by simp only; rw [f2]; exact l1, by simp only; rw [f2, f3], ?_⟩, trivial, by omega,
    fun i hi => ?_⟩
  · intro c hcm
    simp only at hcm ⊢
    have : c ∈ ((s.2.2.1.take s.2.1).zip (s.2.2.2.take s.2.1)).map Prod.fst := by
      rw [List.map_fst_zip (by rw [f2, f3])]; exact hcm
    rw [f1] at this
    obtain ⟨e, he, rfl⟩ := List.mem_map.1 this
    obtain ⟨row, hrow, her⟩ := List.mem_flatten.1 he
    obtain ⟨r, _, rfl⟩ := List.mem_map.1 hrow
    obtain ⟨e0, he0, hk⟩ := List.mem_filterMap.1 her
    unfold colKeep at hk
    split at hk
    · simp at hk
    · rename_i hnm
      simp only [Option.some.injEq] at hk
      rw [← hk]
      have := kept_lt cols e0.1 A.numCols (row_cols A hA r e0 he0) hnm
      simp only
      omega
  · unfold CSR.row
    simp only
    rw [f1, l2 i hi, List.getD_eq_getElem?_getD, List.getElem?_map, List.getElem?_range hi]
    rfl

/-! ### eliminate_zeros -/

theorem emit_all (l : List (Nat × K)) : ∀ (k : Nat) (u : List Nat) (v : List K),
    u.length = k + l.length → v.length = k + l.length →
    l.foldl emit (k, u, v) = (k + l.length, u.take k ++ l.map Prod.fst, v.take k ++ l.map Prod.snd) := by
  induction l with
  | nil => intro k u v hu hv; simp at hu hv; rw [List.foldl_nil, List.take_of_length_le (by omega), List.take_of_length_le (by omega)]; simp
  | cons a l ih =>
    intro k u v hu hv
    rw [List.length_cons] at hu hv
    rw [List.foldl_cons, emit]
    simp only
    rw [ih _ _ _ (by rw [List.length_set]; omega) (by rw [List.length_set]; omega)]
    rw [List.take_succ_eq_append_getElem (by rw [List.length_set]; omega), List.getElem_set_self,
      List.take_set_of_le (by omega), List.take_succ_eq_append_getElem (by rw [List.length_set]; omega),
      List.getElem_set_self, List.take_set_of_le (by omega)]
    simp
    omega

theorem foldl_ite_filter {σ : Type} (l : List α) (q : α → Bool) (f : σ → α → σ) (s : σ) :
    l.foldl (fun s a => if q a then f s a else s) s = (l.filter q).foldl f s := by
  induction l generalizing s with
  | nil => rfl
  | cons a l ih =>
    rw [List.foldl_cons, ih]
    by_cases h : q a <;> simp [h]

theorem count_loop (l : List α) (i : Nat) : ∀ p : List Nat, i < p.length →
    l.foldl (fun p _ => p.modify i (· + 1)) p = p.set i (p.getD i 0 + l.length) := by
  induction l with
  | nil =>
    intro p hp
    rw [List.foldl_nil, List.length_nil, Nat.add_zero, List.getD_eq_getElem?_getD,
      List.getElem?_eq_getElem hp]
    simp
  | cons a l ih =>
    intro p hp
    rw [List.foldl_cons, ih _ (by rw [List.length_modify]; exact hp), getD_modify, if_pos ⟨rfl, hp⟩]
    apply List.ext_getElem?
    intro j
    rw [List.getElem?_set, List.getElem?_set, List.length_modify, List.getElem?_modify]
    by_cases hj : i = j
    · subst hj; simp [hp]; omega
    · simp [hj]

/-- The stored entries of a row with non-zero value. -/
def nzRow [Zero K] [DecidableEq K] (A : CSR K) (i : Nat) : List (Nat × K) :=
  (A.row i).filter fun e => e.2 ≠ 0

theorem nz_indptr [Zero K] [DecidableEq K] (A : CSR K) (hA : A.Valid) : ∀ i, i ≤ A.numRows →
    let p := forRange 0 i (List.replicate (A.numRows + 1) 0) fun p i =>
      forRow A i (p.set (i + 1) (p.getD i 0)) fun p _ d =>
        if d ≠ 0 then p.modify (i + 1) (· + 1) else p
    p.length = A.numRows + 1 ∧
      ∀ j, j ≤ i → p.getD j 0 = ((List.range j).map (nzRow A)).flatten.length := by
  intro i
  induction i with
  | zero =>
    intro _
    refine ⟨by simp [forRange], fun j hj => ?_⟩
    rw [Nat.le_zero.1 hj]
    simp [forRange]
  | succ i ih =>
    intro hi
    simp only
    rw [forRange_succ]
    obtain ⟨h1, h2⟩ := ih (by omega)
    generalize (forRange 0 i (List.replicate (A.numRows + 1) 0) fun p i =>
      forRow A i (p.set (i + 1) (p.getD i 0)) fun p _ d =>
        if d ≠ 0 then p.modify (i + 1) (· + 1) else p) = p at h1 h2
    have e : (forRow A i (p.set (i + 1) (p.getD i 0)) fun p _ d =>
        if d ≠ 0 then p.modify (i + 1) (· + 1) else p) =
        (nzRow A i).foldl (fun p _ => p.modify (i + 1) (· + 1)) (p.set (i + 1) (p.getD i 0)) := by
      rw [forRow_eq A hA i (by omega), nzRow, ← foldl_ite_filter]
      simp
    rw [e, count_loop _ _ _ (by rw [List.length_set]; omega)]
    refine ⟨by simp [h1], fun j hj => ?_⟩
    rw [getD_set, getD_set, getD_set, List.length_set]
    by_cases hj' : i + 1 = j
    · subst hj'
      rw [if_pos ⟨rfl, by omega⟩, if_pos ⟨rfl, by omega⟩, h2 i (Nat.le_refl _), List.range_succ,
        List.map_append, List.flatten_append, List.length_append]
      simp
    · rw [if_neg (by omega), if_neg (by omega), h2 j (by omega)]

theorem numNonzeros_eq [Zero K] [DecidableEq K] (A : CSR K) (hA : A.Valid) :
    numNonzeros A = ((List.range A.numRows).map (nzRow A)).flatten.length :=
  (nz_indptr A hA A.numRows (Nat.le_refl _)).2 _ (Nat.le_refl _)

theorem eliminateZeros_spec [Zero K] [DecidableEq K] (A : CSR K) (hA : A.Valid) (u : List Nat)
    (v : List K) (hu : u.length = numNonzeros A) (hv : v.length = numNonzeros A) :
    (eliminateZeros A u v).Valid ∧ (eliminateZeros A u v).numRows = A.numRows ∧
      (eliminateZeros A u v).numCols = A.numCols ∧
      ∀ i, i < A.numRows → (eliminateZeros A u v).row i = nzRow A i := by
  rw [numNonzeros_eq A hA] at hu hv
  obtain ⟨p1, p2⟩ := nz_indptr A hA A.numRows (Nat.le_refl _)
  have e : (forRange 0 A.numRows ((0, u, v) : Buf K) fun s i =>
      forRow A i s fun s j d => if d ≠ 0 then emit s (j, d) else s) =
      (((List.range A.numRows).map (nzRow A)).flatten).foldl emit (0, u, v) := by
    rw [forRange_zero, List.foldl_flatten, List.foldl_map]
    apply foldl_congr_mem
    intro s i hi
    rw [forRow_eq A hA i (List.mem_range.1 hi), nzRow, ← foldl_ite_filter]
    simp
  rw [emit_all _ 0 u v (by omega) (by omega)] at e
  unfold eliminateZeros
  simp only
  rw [e]
  obtain ⟨l1, l2⟩ := layout ((List.range A.numRows).map (nzRow A)) _
    (p1.trans (by rw [List.length_map, List.length_range])) (by
    intro j hj
    rw [List.length_map, List.length_range] at hj
    rw [p2 j hj, ← List.map_take, List.take_range, show min j A.numRows = j by omega])
  rw [List.length_map, List.length_range] at l1 l2
  have hz : ∀ l : List (Nat × K), (l.map Prod.fst).zip (l.map Prod.snd) = l := by
    intro l
    induction l with
    | nil => rfl
    | cons a l ih => simp [ih]
  refine ⟨⟨?_, ?_, ?_⟩, trivial, trivial, fun i hi => ?_⟩
  · simp only [List.take_zero, List.nil_append, List.length_map]; exact l1
  · simp only [List.take_zero, List.nil_append, List.length_map]
  · intro c hc
    simp only [List.take_zero, List.nil_append] at hc
    obtain ⟨e, he, rfl⟩ := List.mem_map.1 hc
    obtain ⟨row, hrow, her⟩ := List.mem_flatten.1 he
    obtain ⟨r, _, rfl⟩ := List.mem_map.1 hrow
    exact row_cols A hA r e (List.mem_filter.1 her).1
  · unfold CSR.row
    simp only [List.take_zero, List.nil_append]
    rw [hz, l2 i hi, List.getD_eq_getElem?_getD, List.getElem?_map, List.getElem?_range hi]
    rfl

end PyNucleus.Drop
