import Verif.Proof.Galerkin2
import Mathlib.Algebra.Field.Rat

/-!
# C16 Galerkin triple product

`triple n R A i j` is `(R A R^T)_ij` (Spec.Triple).  The products are added to the coarse matrix
`Ac` at its stored positions; positions outside its pattern are left alone.

Full property: `restrictMatrix` adds `R A R^T` for every `R`.  This is false for square `R`
(`restrictMatrix_square`): the code then also adds `R^T A R`.
-/

namespace PyNucleus.Props.C16

open PyNucleus.Loops PyNucleus.Spec PyNucleus.CSR PyNucleus.SSS PyNucleus.Galerkin

variable {K : Type}

/-- `B` is `Ac` with `T` added at the stored positions. -/
def AddsCSR [Add K] [Zero K] (Ac B : CSR K) (T : Nat → Nat → K) : Prop :=
  B.Valid ∧ B.Sorted ∧ B.numRows = Ac.numRows ∧ B.numCols = Ac.numCols ∧
  (∀ i, (B.row i).map Prod.fst = (Ac.row i).map Prod.fst) ∧
  ∀ i j, i < Ac.numRows → j < Ac.numCols →
    (j ∈ (Ac.row i).map Prod.fst → B.entry i j = Ac.entry i j + T i j) ∧
    (j ∉ (Ac.row i).map Prod.fst → B.entry i j = Ac.entry i j)

/-- The same for symmetric storage. -/
def AddsSSS [Add K] [Zero K] (Ac B : SSS K) (T : Nat → Nat → K) : Prop :=
  B.Valid ∧ B.n = Ac.n ∧ (∀ i j, B.HasEntry i j ↔ Ac.HasEntry i j) ∧
  ∀ i j, i < Ac.n → j < Ac.n →
    (Ac.HasEntry i j → B.entry i j = Ac.entry i j + T i j) ∧
    (¬ Ac.HasEntry i j → B.entry i j = Ac.entry i j)

private theorem addEntries_adds [AddCommMonoid K] (Ac : CSR K) (h : Ac.Valid) (hs : Ac.Sorted)
    (g T : Nat → Nat → K) (hg : ∀ i j, i < Ac.numRows → j < Ac.numCols → g i j = T i j) :
    AddsCSR Ac { Ac with data := addEntries Ac.indptr Ac.indices g Ac.data } T := by
  obtain ⟨a1, a2⟩ := addEntries_eq Ac h g Ac.data h.data
  obtain ⟨b1, b2⟩ := data_map Ac h _ (fun i j v => v + g i j) a1 a2
  have hfst : ∀ i, (CSR.row { Ac with data := addEntries Ac.indptr Ac.indices g Ac.data } i).map Prod.fst =
      (Ac.row i).map Prod.fst := fun i => by rw [row_fst _ b1, row_fst _ h]
  refine ⟨b1, fun i hi => by rw [hfst]; exact hs i hi, rfl, rfl, hfst, fun i j hi hj => ?_⟩
  have he := entry_add Ac _ i j (g i) (sorted_nodup Ac hs i hi) (b2 i hi)
  refine ⟨fun hm => ?_, fun hm => ?_⟩
  · rw [he, if_pos hm, hg i j hi hj]
  · rw [he, if_neg hm, add_zero]

/-- `multiply`, CSR format. -/
theorem multiply_correct [CommSemiring K] (R A Ac : CSR K) (hA : A.Valid) (hAs : A.Sorted)
    (hR : R.Valid) (hRs : R.Sorted) (hc : Ac.Valid) (hcs : Ac.Sorted)
    (h1 : A.numRows = R.numCols) (h2 : A.numCols = R.numCols)
    (h3 : Ac.numRows = R.numRows) (h4 : Ac.numCols = R.numRows) :
    AddsCSR Ac (multiply R A Ac) (triple R.numCols R.entry A.entry) :=
  addEntries_adds Ac hc hcs _ _ fun i j hi hj =>
    getEntry_eq R A hA hAs hR hRs h1 h2 i j (by omega) (by omega)

/-- `multiply_restr`, CSR format. -/
theorem multiply_restr_correct [Field K] (G : Graph) (hG : GraphValid G) (A Ac : CSR K) (hA : A.Valid)
    (hAs : A.Sorted) (hc : Ac.Valid) (hcs : Ac.Sorted) (hle : G.numRows ≤ G.numCols)
    (h1 : A.numRows = G.numCols) (h2 : A.numCols = G.numCols)
    (h3 : Ac.numRows = G.numRows) (h4 : Ac.numCols = G.numRows) :
    AddsCSR Ac (multiplyRestr G A Ac) (triple G.numCols (restriction G) A.entry) :=
  addEntries_adds Ac hc hcs _ _ fun i j hi hj =>
    getEntryRestr_eq G hG A hA hAs h1 h2 hle i j (by omega) (by omega)

private theorem idx_lt_lower [AddCommMonoid K] (S : SSS K) (hS : S.Valid) (i a : Nat) (hi : i < S.n)
    (h1 : S.indptr.getD i 0 ≤ a) (h2 : a < S.indptr.getD (i + 1) 0) : S.indices.getD a 0 < i := by
  have h := row_getElem? S.lower (lower_valid S hS) i hi a h1 h2
  exact hS.lower i hi _ (List.mem_of_getElem? h)

private theorem sss_common [CommSemiring K] (Ac : SSS K) (hc : Ac.Valid) (hcs : Ac.lower.Sorted)
    (g1 g2 g3 T : Nat → Nat → K) (f s : Nat → K)
    (hT : ∀ i j, i < Ac.n → j < Ac.n → T i j = T j i)
    (ho : ∀ i j, i < Ac.n → j < i → g1 i j + g2 i j + g3 i j = T i j)
    (hd : ∀ i, i < Ac.n → f i + s i = T i i) :
    let data := addEntries Ac.indptr Ac.indices g1 Ac.data
    let data := addEntries Ac.indptr Ac.indices g2 data
    let r := diagLoop Ac f s g3 data Ac.diagonal
    AddsSSS Ac { Ac with data := r.1, diagonal := r.2 } T := by
  intro data1 data2 r
  obtain ⟨d1, d2, d3⟩ := diagLoop_eq Ac hc f s g3 data2 Ac.diagonal hc.diagonal
  have hV := lower_valid Ac hc
  obtain ⟨a1, a2⟩ := addEntries_eq Ac.lower hV g1 Ac.data hc.data
  obtain ⟨b1, b2⟩ := addEntries_eq Ac.lower hV g2 data1 (a1.trans hc.data)
  obtain ⟨c1, c2⟩ := addEntries_eq Ac.lower hV g3 data2 (b1.trans (a1.trans hc.data))
  have hr1 : r.1 = addEntries Ac.indptr Ac.indices g3 data2 := d1
  obtain ⟨e1, e2, e3⟩ := sss_add Ac { Ac with data := r.1, diagonal := r.2 } hc hcs rfl rfl rfl d2 T hT
    (fun i hi => by rw [← hd i hi, ← add_assoc]; exact d3 i hi)
    (by rw [show ({ Ac with data := r.1, diagonal := r.2 } : SSS K).data = r.1 from rfl, hr1]
        exact c1.trans (b1.trans a1))
    (fun i hi a h1 h2 => by
      rw [show ({ Ac with data := r.1, diagonal := r.2 } : SSS K).data = r.1 from rfl, hr1]
      have x1 := c2 i hi a h1 h2
      have x2 := b2 i hi a h1 h2
      have x3 := a2 i hi a h1 h2
      rw [show addEntries Ac.indptr Ac.indices g3 data2 =
        addEntries Ac.lower.indptr Ac.lower.indices g3 data2 from rfl, x1,
        show data2 = addEntries Ac.lower.indptr Ac.lower.indices g2 data1 from rfl, x2,
        show data1 = addEntries Ac.lower.indptr Ac.lower.indices g1 Ac.data from rfl, x3,
        ← ho i _ hi (idx_lt_lower Ac hc i a hi h1 h2)]
      show _ + g1 i (Ac.indices.getD a 0) + g2 i (Ac.indices.getD a 0) + g3 i (Ac.indices.getD a 0) = _
      rw [add_assoc, add_assoc, add_assoc])
  exact ⟨e1, rfl, e2, e3⟩

/-- `multiply`, symmetric storage. -/
theorem multiply_sss_correct [CommSemiring K] (R : CSR K) (A Ac : SSS K) (hA : A.Valid)
    (hAs : A.lower.Sorted) (hR : R.Valid) (hRs : R.Sorted) (hc : Ac.Valid) (hcs : Ac.lower.Sorted)
    (h1 : A.n = R.numCols) (h3 : Ac.n = R.numRows) :
    AddsSSS Ac (multiplySSS R A Ac) (triple R.numCols R.entry A.entry) := by
  have hV := lower_valid A hA
  have hE : ∀ i j, i < Ac.n → j < Ac.n →
      Galerkin.getEntry i j R A.lower = triple R.numCols R.entry A.lower.entry i j := fun i j hi hj =>
    getEntry_eq R A.lower hV hAs hR hRs h1 h1 i j (by omega) (by omega)
  have hD : ∀ i j, i < Ac.n → j < Ac.n → getEntryFromD i j R A.diagonal =
      triple R.numCols R.entry (fun k m => if k = m then A.diagonal.getD k 0 else 0) i j :=
    fun i j hi hj => getEntryFromD_eq R hR hRs A.diagonal i j (by omega) (by omega)
  have hsum : ∀ i j, triple R.numCols R.entry A.entry i j = _ := fun i j => h1 ▸ triple_sss A hA R.entry i j
  apply sss_common Ac hc hcs
  · intro i j _ _
    exact triple_symm _ _ _ _ _ fun k m _ _ => entry_symm A k m
  · intro i j hi hj
    rw [hE i j hi (by omega), hE j i (by omega) hi, hD i j hi (by omega), hsum i j]
  · intro i hi
    rw [hE i i hi hi, hD i i hi hi, hsum i i, two_mul]

/-- `multiply_restr`, symmetric storage. -/
theorem multiply_restr_sss_correct [Field K] (G : Graph) (hG : GraphValid G) (A Ac : SSS K)
    (hA : A.Valid) (hAs : A.lower.Sorted) (hc : Ac.Valid) (hcs : Ac.lower.Sorted)
    (hle : G.numRows ≤ G.numCols) (h1 : A.n = G.numCols) (h3 : Ac.n = G.numRows) :
    AddsSSS Ac (multiplyRestrSSS G A Ac) (triple G.numCols (restriction G) A.entry) := by
  have hV := lower_valid A hA
  have hE : ∀ i j, i < Ac.n → j < Ac.n →
      getEntryRestr i j G A.lower = triple G.numCols (restriction G) A.lower.entry i j := fun i j hi hj =>
    getEntryRestr_eq G hG A.lower hV hAs h1 h1 hle i j (by omega) (by omega)
  have hD : ∀ i j, i < Ac.n → j < Ac.n →
      (if i = j then A.diagonal.getD i 0 else 0) + getEntryFromDRestr i j G A.diagonal =
      triple G.numCols (restriction G) (fun k m => if k = m then A.diagonal.getD k 0 else 0) i j :=
    fun i j hi hj => getEntryFromDRestr_eq G hG A.diagonal hle i j (by omega) (by omega)
  have hsum : ∀ i j, triple G.numCols (restriction G) A.entry i j = _ :=
    fun i j => h1 ▸ triple_sss A hA (restriction G) i j
  apply sss_common Ac hc hcs
  · intro i j _ _
    exact triple_symm _ _ _ _ _ fun k m _ _ => entry_symm A k m
  · intro i j hi hj
    have := hD i j hi (by omega)
    rw [if_neg (by omega), zero_add] at this
    rw [hE i j hi (by omega), hE j i (by omega) hi, this, hsum i j]
  · intro i hi
    have := hD i i hi hi
    rw [if_pos rfl] at this
    rw [hE i i hi hi, hsum i i, ← this, two_mul]
    ring

private theorem items_bound [CommSemiring K] (P A : CSR K) (hP : P.Valid) :
    ∀ e ∈ items P A, e.1 < P.numCols ∧ e.2.1 < P.numCols := by
  intro e he
  unfold Galerkin.items at he
  obtain ⟨k, _, he⟩ := List.mem_flatMap.1 he
  obtain ⟨la, _, he⟩ := List.mem_flatMap.1 he
  obtain ⟨ip, hip, he⟩ := List.mem_flatMap.1 he
  obtain ⟨jp, hjp, rfl⟩ := List.mem_map.1 he
  exact ⟨row_cols P hP k ip hip, row_cols P hP la.1 jp hjp⟩

/-- `multiply2` with the prolongation `P`, CSR format: adds `P^T A P`. -/
theorem multiply2_correct [CommSemiring K] (P A Ac : CSR K) (hA : A.Valid) (hP : P.Valid)
    (hc : Ac.Valid) (hcs : Ac.Sorted) (h1 : A.numRows = P.numRows) (h2 : A.numCols = P.numRows)
    (h3 : Ac.numRows = P.numCols) :
    AddsCSR Ac (multiply2 P A Ac) (triple P.numRows (fun i k => P.entry k i) A.entry) := by
  unfold multiply2
  rw [mul2Loop_eq P A hA hP h1.symm (by omega)]
  obtain ⟨g1, g2, g3, g4, g5, g6, g7⟩ := csr_adds (items P A) Ac hc hcs
    (fun e he => by rw [h3]; exact (items_bound P A hP e he).1)
  refine ⟨g1, g2, g5, g6, fun i => by rw [row_fst _ g1, row_fst _ hc, g3, g4], fun i j hi _ => ?_⟩
  rw [← h1, ← contrib_items P A hA (by omega)]
  exact g7 i j hi

private theorem contrib_swap [AddCommMonoid K] (l : List (Nat × Nat × K)) (i j : Nat) :
    contrib (l.map fun e => (e.2.1, e.1, e.2.2)) i j = contrib l j i := by
  unfold contrib
  rw [List.map_map]
  congr 1
  apply List.map_congr_left
  intro e _
  simp only [Function.comp]
  by_cases h : e.2.1 = i ∧ e.1 = j
  · rw [if_pos h, if_pos ⟨h.2, h.1⟩]
  · rw [if_neg h, if_neg (fun x => h ⟨x.2, x.1⟩)]

/-- `multiply2`, symmetric storage. -/
theorem multiply2_sss_correct [CommSemiring K] (P : CSR K) (A Ac : SSS K) (hA : A.Valid) (hP : P.Valid)
    (hc : Ac.Valid) (hcs : Ac.lower.Sorted) (h1 : A.n = P.numRows) (h3 : Ac.n = P.numCols) :
    AddsSSS Ac (multiply2SSS P A Ac) (triple P.numRows (fun i k => P.entry k i) A.entry) := by
  have hV := lower_valid A hA
  -- the diagonal part as a product with a diagonal matrix
  let D : CSR K := ⟨List.range (A.n + 1), List.range A.n, A.diagonal, A.n, A.n⟩
  have hgr : ∀ i n, i < n → (List.range n).getD i 0 = i := by
    intro i n h
    rw [List.getD_eq_getElem?_getD, List.getElem?_eq_getElem (by simpa using h)]; simp
  have hD : D.Valid := by
    refine ⟨⟨by simp [D], ?_, ?_, ?_⟩, by simp [D, hA.diagonal], by simp [D]⟩
    · simp [D]
    · simp [D]
    · intro i hi
      have hi : i < A.n := hi
      show (List.range (A.n + 1)).getD i 0 ≤ (List.range (A.n + 1)).getD (i + 1) 0
      rw [hgr i _ (by omega), hgr (i + 1) _ (by omega)]; omega
  have hDrow : ∀ k, k < A.n → D.row k = [(k, A.diagonal.getD k 0)] := by
    intro k hk
    have hlen := (split_row D.indptr D.numRows (D.indices.zip D.data)
      (by rw [zip_length D hD]; exact hD.indptr) k hk).2.2
    have e1 : D.indptr.getD k 0 = k := hgr k _ (by omega)
    have e2 : D.indptr.getD (k + 1) 0 = k + 1 := hgr (k + 1) _ (by omega)
    rw [e1, e2] at hlen
    have h0 := row_getElem? D hD k hk k (by omega) (by omega)
    rw [e1, Nat.sub_self, show D.indices.getD k 0 = k from hgr k _ hk] at h0
    have hl1 : (D.row k).length = 1 := by
      rw [show D.row k = csrRow D.indptr (D.indices.zip D.data) k from rfl, hlen]; omega
    match hr : D.row k, hl1 with
    | [a], _ => rw [hr] at h0; rw [List.getElem?_cons_zero, Option.some.injEq] at h0; rw [h0]
  have hDent : ∀ k m, k < A.n → m < A.n → D.entry k m = if k = m then A.diagonal.getD k 0 else 0 := by
    intro k m hk _
    unfold CSR.entry
    rw [hDrow k hk]
    by_cases h : k = m
    · simp [h]
    · simp [h]
  have hloop : ∀ B : SSS K, (forRange 0 (A.indptr.length - 1) B fun B k =>
      let akl := A.diagonal.getD k 0
      forRow P k B fun B i pki => forRow P k B fun B j plj => SSS.addToEntry B i j (pki * akl * plj)) =
      mul2Loop P D (fun B i j v => SSS.addToEntry B i j v) B := by
    intro B
    unfold mul2Loop
    rw [show D.indptr.length - 1 = A.n by simp [D], show A.indptr.length - 1 = A.n by rw [hA.indptr.length]; rfl]
    apply forRange_congr
    intro s k _ hk
    rw [forRow_eq D hD k hk, hDrow k hk]
    rfl
  unfold multiply2SSS
  simp only
  rw [hloop, mul2Loop_eq P A.lower hV hP h1.symm rfl, mul2Loop_eq P A.lower hV hP h1.symm rfl,
    mul2Loop_eq P D hD hP h1.symm rfl]
  rw [show (items P A.lower).foldl (fun s e => SSS.addToEntry s e.2.1 e.1 e.2.2)
      ((items P A.lower).foldl (fun s e => SSS.addToEntry s e.1 e.2.1 e.2.2) Ac) =
      ((items P A.lower).map fun e => (e.2.1, e.1, e.2.2)).foldl
        (fun s e => SSS.addToEntry s e.1 e.2.1 e.2.2)
      ((items P A.lower).foldl (fun s e => SSS.addToEntry s e.1 e.2.1 e.2.2) Ac) by rw [List.foldl_map],
    ← List.foldl_append, ← List.foldl_append, ← List.append_assoc]
  have hb := items_bound P A.lower hP
  have hb' := items_bound P D hP
  obtain ⟨g1, g2, g3, g4, g5, g6, g7⟩ := sss_adds (items P A.lower ++ (items P A.lower).map (fun e =>
    (e.2.1, e.1, e.2.2)) ++ items P D) Ac hc hcs (fun e he => by
      rw [h3]
      rcases List.mem_append.1 he with he | he
      · rcases List.mem_append.1 he with he | he
        · exact (hb e he).1
        · obtain ⟨e', he', rfl⟩ := List.mem_map.1 he
          exact (hb e' he').2
      · exact (hb' e he).1)
  have hT : ∀ i j, contrib (items P A.lower ++ (items P A.lower).map (fun e =>
      (e.2.1, e.1, e.2.2)) ++ items P D) i j = triple P.numRows (fun i k => P.entry k i) A.entry i j := by
    intro i j
    rw [contrib_append, contrib_append, contrib_swap, contrib_items P A.lower hV rfl,
      contrib_items P A.lower hV rfl, contrib_items P D hD rfl, ← h1, triple_sss A hA]
    congr 1
    exact triple_congr _ _ _ _ _ _ hDent
  generalize (List.foldl (fun s e => SSS.addToEntry s e.1 e.2.1 e.2.2) Ac
    (items P A.lower ++ (items P A.lower).map (fun e => (e.2.1, e.1, e.2.2)) ++ items P D)) = B at *
  have hcol : ∀ i, (B.lower.row i).map Prod.fst = (Ac.lower.row i).map Prod.fst := by
    intro i
    rw [row_fst _ (lower_valid B g1), row_fst _ (lower_valid Ac hc)]
    show csrRow B.indptr B.indices i = csrRow Ac.indptr Ac.indices i
    rw [g3, g4]
  have hTs : ∀ i j, triple P.numRows (fun i k => P.entry k i) A.entry i j =
      triple P.numRows (fun i k => P.entry k i) A.entry j i := fun i j =>
    triple_symm _ _ _ _ _ fun k m _ _ => entry_symm A k m
  refine ⟨g1, g5, fun i j => by unfold Spec.SSS.HasEntry; rw [hcol, hcol], fun i j hi hj => ⟨fun h => ?_, fun h => ?_⟩⟩
  · rcases h with rfl | ⟨h1, h2⟩ | ⟨h1, h2⟩
    · rw [entry_diag, entry_diag, g6 i hi, hT]
    · rw [entry_lower B i j h1, entry_lower Ac i j h1, (g7 i j hi h1).1 h2, hT]
    · rw [entry_upper B i j h1, entry_upper Ac i j h1, (g7 j i hj h1).1 h2, hT, hTs]
  · unfold Spec.SSS.HasEntry at h
    rcases Nat.lt_trichotomy i j with hlt | heq | hgt
    · rw [entry_upper B i j hlt, entry_upper Ac i j hlt,
        (g7 j i hj hlt).2 (fun hm => h (Or.inr (Or.inr ⟨hlt, hm⟩)))]
    · exact absurd (Or.inl heq) h
    · rw [entry_lower B i j hgt, entry_lower Ac i j hgt,
        (g7 i j hi hgt).2 (fun hm => h (Or.inr (Or.inl ⟨hgt, hm⟩)))]

/-- The Galerkin product of a symmetric matrix is symmetric. -/
theorem galerkin_symmetric [CommSemiring K] (n : Nat) (R A : Nat → Nat → K)
    (h : ∀ k m, k < n → m < n → A k m = A m k) (i j : Nat) :
    triple n R A i j = triple n R A j i := triple_symm n R A i j h

/-- `restrictMatrix` with a rectangular `R`: the Galerkin product. -/
theorem restrictMatrix_partial [CommSemiring K] (R A Ac : CSR K) (hA : A.Valid) (hAs : A.Sorted)
    (hR : R.Valid) (hRs : R.Sorted) (hc : Ac.Valid) (hcs : Ac.Sorted)
    (h1 : A.numRows = R.numCols) (h2 : A.numCols = R.numCols)
    (h3 : Ac.numRows = R.numRows) (h4 : Ac.numCols = R.numRows) (hrect : R.numRows ≠ R.numCols) :
    AddsCSR Ac (restrictMatrix R A Ac) (triple R.numCols R.entry A.entry) := by
  have h := multiply_correct R A Ac hA hAs hR hRs hc hcs h1 h2 h3 h4
  unfold restrictMatrix
  simp only
  rw [if_pos h3.symm, if_neg (by rw [h.2.2.1]; omega)]
  exact h

/-- `restrictMatrix` with a square `R` adds both `R A R^T` and `R^T A R`. -/
theorem restrictMatrix_square [CommSemiring K] (R A Ac : CSR K) (hA : A.Valid) (hAs : A.Sorted)
    (hR : R.Valid) (hRs : R.Sorted) (hc : Ac.Valid) (hcs : Ac.Sorted)
    (h1 : A.numRows = R.numCols) (h2 : A.numCols = R.numCols)
    (h3 : Ac.numRows = R.numRows) (h4 : Ac.numCols = R.numRows) (hsq : R.numRows = R.numCols) :
    AddsCSR Ac (restrictMatrix R A Ac) (fun i j => triple R.numCols R.entry A.entry i j +
      triple R.numCols (fun i k => R.entry k i) A.entry i j) := by
  obtain ⟨a1, a2, a3, a4, a5, a6⟩ := multiply_correct R A Ac hA hAs hR hRs hc hcs h1 h2 h3 h4
  have h := multiply2_correct R A (multiply R A Ac) hA hR a1 a2 (by omega) (by omega) (by omega)
  unfold restrictMatrix
  simp only
  rw [if_pos h3.symm, if_pos (by rw [a3]; omega)]
  obtain ⟨b1, b2, b3, b4, b5, b6⟩ := h
  refine ⟨b1, b2, b3.trans a3, b4.trans a4, fun i => (b5 i).trans (a5 i), fun i j hi hj => ⟨fun hm => ?_, fun hm => ?_⟩⟩
  · rw [(b6 i j (by omega) (by omega)).1 (by rw [a5]; exact hm), (a6 i j hi hj).1 hm, add_assoc, hsq]
  · rw [(b6 i j (by omega) (by omega)).2 (by rw [a5]; exact hm), (a6 i j hi hj).2 hm]

/-! ### Concrete cases -/

/-- One coarse and two fine unknowns. -/
def R1 : CSR ℚ := ⟨[0, 2], [0, 1], [1, 3], 1, 2⟩
def A1 : CSR ℚ := ⟨[0, 2, 3], [0, 1, 1], [2, 5, 7], 2, 2⟩
def C1 : CSR ℚ := ⟨[0, 1], [0], [10], 1, 1⟩

/-- `10 + (2 + 3*5 + 9*7)`. -/
example : (multiply R1 A1 C1).data = [90] := by decide +kernel

/-- The property fails for square `R`: with the identity the matrix is doubled. -/
theorem restrictMatrix_square_false : ∃ R A Ac : CSR ℚ, A.Valid ∧ A.Sorted ∧ R.Valid ∧ R.Sorted ∧
    Ac.Valid ∧ Ac.Sorted ∧ A.numRows = R.numCols ∧ A.numCols = R.numCols ∧ Ac.numRows = R.numRows ∧
    Ac.numCols = R.numRows ∧ ¬ AddsCSR Ac (restrictMatrix R A Ac) (triple R.numCols R.entry A.entry) := by
  have hv : ∀ x : ℚ, (⟨[0, 1], [0], [x], 1, 1⟩ : CSR ℚ).Valid := fun x =>
    ⟨⟨by simp, by simp, by simp, by intro i hi; have : i = 0 := by simpa using hi
                                    subst this; simp⟩, by simp, by simp⟩
  have hs : ∀ x : ℚ, (⟨[0, 1], [0], [x], 1, 1⟩ : CSR ℚ).Sorted := by
    intro x i hi
    have : i = 0 := by simpa using hi
    subst this
    simp [CSR.row, csrRow]
  refine ⟨⟨[0, 1], [0], [1], 1, 1⟩, ⟨[0, 1], [0], [1], 1, 1⟩, ⟨[0, 1], [0], [0], 1, 1⟩, hv _, hs _, hv _, hs _,
    hv _, hs _, rfl, rfl, rfl, rfl, fun h => ?_⟩
  have := (h.2.2.2.2.2 0 0 (by simp) (by simp)).1 (by simp [CSR.row, csrRow])
  revert this
  decide +kernel

end PyNucleus.Props.C16
