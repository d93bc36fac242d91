import Verif.Proof.Galerkin
import Verif.Props.C12

/-! # Lemmas for the accumulating triple product `multiply2` -/

namespace PyNucleus.Galerkin

open PyNucleus.Loops PyNucleus.Spec PyNucleus.CSR PyNucleus.SSS Finset

variable {K : Type}

/-- The calls of `addToEntry`. -/
def items [Semiring K] (P A : CSR K) : List (Nat × Nat × K) :=
  (List.range A.numRows).flatMap fun k => (A.row k).flatMap fun la =>
    (P.row k).flatMap fun ip => (P.row la.1).map fun jp => (ip.1, jp.1, ip.2 * la.2 * jp.2)

theorem foldl_flatMap' {α β σ : Type} (l : List α) (g : α → List β) (f : σ → β → σ) : ∀ s,
    (l.flatMap g).foldl f s = l.foldl (fun s a => (g a).foldl f s) s := by
  induction l with
  | nil => intro s; rfl
  | cons a t ih => intro s; rw [List.flatMap_cons, List.foldl_append, ih]; rfl

theorem mul2Loop_eq [CommSemiring K] {σ : Type} (P A : CSR K) (hA : A.Valid) (hP : P.Valid)
    (hr : P.numRows = A.numRows) (hc : A.numCols = A.numRows)
    (add : σ → Nat → Nat → K → σ) (s : σ) :
    mul2Loop P A add s = (items P A).foldl (fun s e => add s e.1 e.2.1 e.2.2) s := by
  unfold mul2Loop items
  rw [foldl_flatMap', show A.indptr.length - 1 = A.numRows by rw [hA.indptr.length]; rfl,
    ← forRange_zero]
  apply forRange_congr
  intro s k _ hk
  rw [forRow_eq A hA k hk, foldl_flatMap']
  apply foldl_congr_mem
  intro s la hla
  have hl := row_cols A hA k la hla
  rw [forRow_eq P hP k (by omega), foldl_flatMap']
  apply foldl_congr_mem
  intro s ip _
  rw [forRow_eq P hP la.1 (by omega), List.foldl_map]

theorem contrib_flatMap' [AddCommMonoid K] {α : Type} (l : List α) (g : α → List (Nat × Nat × K)) (c j : Nat) :
    contrib (l.flatMap g) c j = (l.map fun a => contrib (g a) c j).sum := by
  induction l with
  | nil => rfl
  | cons a t ih => rw [List.flatMap_cons, contrib_append, ih, List.map_cons, List.sum_cons]

theorem contrib_items [CommSemiring K] (P A : CSR K) (hA : A.Valid) (hc : A.numCols = A.numRows)
    (i j : Nat) :
    contrib (items P A) i j = triple A.numRows (fun i k => P.entry k i) A.entry i j := by
  unfold items triple
  rw [contrib_flatMap]
  apply sum_congr rfl
  intro k _
  rw [contrib_flatMap']
  have e : ∀ la : Nat × K, contrib ((P.row k).flatMap fun ip => (P.row la.1).map fun jp =>
      (ip.1, jp.1, ip.2 * la.2 * jp.2)) i j = la.2 * (P.entry k i * P.entry la.1 j) := by
    intro la
    rw [contrib_flatMap']
    have e1 : ∀ ip : Nat × K, contrib ((P.row la.1).map fun jp => (ip.1, jp.1, ip.2 * la.2 * jp.2)) i j =
        ip.2 * ((if ip.1 = i then 1 else 0) * (la.2 * P.entry la.1 j)) := by
      intro ip
      unfold contrib CSR.entry
      rw [List.map_map]
      induction P.row la.1 with
      | nil => simp
      | cons a t ih =>
        rw [List.map_cons, List.sum_cons, ih]
        by_cases h1 : ip.1 = i
        · by_cases h2 : a.1 = j
          · simp [h1, h2]; ring
          · simp [h1, h2]
        · simp [h1]
    simp only [e1]
    have e2 : ∀ l : List (Nat × K), (l.map fun ip => ip.2 * ((if ip.1 = i then 1 else 0) * (la.2 * P.entry la.1 j))).sum =
        la.2 * (((l.filter fun e => e.1 = i).map Prod.snd).sum * P.entry la.1 j) := by
      intro l
      induction l with
      | nil => simp
      | cons a t ih =>
        rw [List.map_cons, List.sum_cons, ih]
        by_cases h : a.1 = i
        · rw [List.filter_cons_of_pos (by simpa using h), List.map_cons, List.sum_cons, if_pos h]; ring
        · rw [List.filter_cons_of_neg (by simpa using h), if_neg h]; ring
    exact e2 _
  simp only [e]
  rw [sum_row_eq (A.row k) A.numCols (row_cols A hA k) fun l => P.entry k i * P.entry l j, hc]
  apply sum_congr rfl
  intro m _
  show A.entry k m * _ = _
  ring

/-- A sequence of `addToEntry` calls on a matrix with sorted rows. -/
theorem csr_adds [AddCommMonoid K] (l : List (Nat × Nat × K)) : ∀ (A : CSR K), A.Valid → A.Sorted →
    (∀ e ∈ l, e.1 < A.numRows) →
    let B := l.foldl (fun B e => CSR.addToEntry B e.1 e.2.1 e.2.2) A
    B.Valid ∧ B.Sorted ∧ B.indptr = A.indptr ∧ B.indices = A.indices ∧ B.numRows = A.numRows ∧
      B.numCols = A.numCols ∧
      ∀ i j, i < A.numRows → (Stored A i j → B.entry i j = A.entry i j + contrib l i j) ∧
        (¬ Stored A i j → B.entry i j = A.entry i j) := by
  induction l with
  | nil =>
    intro A hA hs _
    exact ⟨hA, hs, rfl, rfl, rfl, rfl, fun i j _ => ⟨fun _ => by simp [contrib], fun _ => rfl⟩⟩
  | cons e t ih =>
    intro A hA hs hl
    have hI := hl e (by simp)
    rw [List.foldl_cons]
    have hrowfst : ∀ (X : CSR K), X.Valid → X.indptr = A.indptr → X.indices = A.indices → ∀ i j,
        (Stored X i j ↔ Stored A i j) := by
      intro X hX h1 h2 i j
      unfold Stored
      rw [row_fst X hX, row_fst A hA, h1, h2]
    by_cases hst : Stored A e.1 e.2.1
    · obtain ⟨h1, h2, h3, h4, h5, h6, h7⟩ := Props.C12.addToEntry_correct A hA hs e.1 e.2.1 hI e.2.2 hst
      generalize CSR.addToEntry A e.1 e.2.1 e.2.2 = A' at *
      obtain ⟨g1, g2, g3, g4, g5, g6, g7⟩ := ih A' h1 h2 (fun x hx => by rw [h5]; exact hl x (by simp [hx]))
      refine ⟨g1, g2, g3.trans h3, g4.trans h4, g5.trans h5, g6.trans h6, fun i j hi => ?_⟩
      obtain ⟨k1, k2⟩ := g7 i j (by omega)
      rw [hrowfst A' h1 h3 h4 i j] at k1 k2
      refine ⟨fun hij => ?_, fun hij => ?_⟩
      · rw [k1 hij, h7 i j hi, contrib_cons]
        by_cases heq : i = e.1 ∧ j = e.2.1
        · obtain ⟨rfl, rfl⟩ := heq
          rw [if_pos ⟨rfl, rfl⟩, if_pos ⟨rfl, rfl⟩, add_assoc]
        · rw [if_neg heq, if_neg (fun h => heq ⟨h.1.symm, h.2.symm⟩), zero_add]
      · rw [k2 hij, h7 i j hi, if_neg]
        rintro ⟨rfl, rfl⟩
        exact hij hst
    · rw [Props.C12.addToEntry_absent A hA hs e.1 e.2.1 hI e.2.2 hst]
      obtain ⟨g1, g2, g3, g4, g5, g6, g7⟩ := ih A hA hs (fun x hx => hl x (by simp [hx]))
      refine ⟨g1, g2, g3, g4, g5, g6, fun i j hi => ⟨fun hij => ?_, (g7 i j hi).2⟩⟩
      rw [(g7 i j hi).1 hij, contrib_cons, if_neg, zero_add]
      rintro ⟨rfl, rfl⟩
      exact hst hij

/-- A sequence of `addToEntry` calls on symmetric storage. -/
theorem sss_adds [AddCommMonoid K] (l : List (Nat × Nat × K)) : ∀ (A : SSS K), A.Valid →
    A.lower.Sorted → (∀ e ∈ l, e.1 < A.n) →
    let B := l.foldl (fun B e => SSS.addToEntry B e.1 e.2.1 e.2.2) A
    B.Valid ∧ B.lower.Sorted ∧ B.indptr = A.indptr ∧ B.indices = A.indices ∧ B.n = A.n ∧
      (∀ i, i < A.n → B.diagonal.getD i 0 = A.diagonal.getD i 0 + contrib l i i) ∧
      ∀ i j, i < A.n → j < i → (Stored A.lower i j → B.lower.entry i j = A.lower.entry i j + contrib l i j) ∧
        (¬ Stored A.lower i j → B.lower.entry i j = A.lower.entry i j) := by
  induction l with
  | nil =>
    intro A hA hs _
    exact ⟨hA, hs, rfl, rfl, rfl, fun i _ => by simp [contrib],
      fun i j _ _ => ⟨fun _ => by simp [contrib], fun _ => rfl⟩⟩
  | cons e t ih =>
    intro A hA hs hl
    have hI := hl e (by simp)
    rw [List.foldl_cons]
    obtain ⟨I, J, v⟩ := e
    simp only at hI ⊢
    have hV := lower_valid A hA
    rcases Nat.lt_trichotomy I J with hlt | heq | hgt
    · have e0 : SSS.addToEntry A I J v = A := by
        unfold SSS.addToEntry; rw [if_neg (by omega), if_neg (by omega)]
      rw [e0]
      obtain ⟨g1, g2, g3, g4, g5, g6, g7⟩ := ih A hA hs (fun x hx => hl x (by simp [hx]))
      refine ⟨g1, g2, g3, g4, g5, fun i hi => ?_, fun i j hi hj => ⟨fun hij => ?_, (g7 i j hi hj).2⟩⟩
      · rw [g6 i hi, contrib_cons, if_neg (by simp only; omega), zero_add]
      · rw [(g7 i j hi hj).1 hij, contrib_cons, if_neg (by simp only; omega), zero_add]
    · subst heq
      have e0 : SSS.addToEntry A I I v = { A with diagonal := A.diagonal.modify I (· + v) } := by
        unfold SSS.addToEntry; rw [if_pos rfl]
      rw [e0]
      obtain ⟨g1, g2, g3, g4, g5, g6, g7⟩ := ih { A with diagonal := A.diagonal.modify I (· + v) }
        ⟨hA.indptr, hA.data, by simp [hA.diagonal], hA.lower⟩ hs (fun x hx => hl x (by simp [hx]))
      refine ⟨g1, g2, g3, g4, g5, fun i hi => ?_, fun i j hi hj => ⟨fun hij => ?_, (g7 i j hi hj).2⟩⟩
      · rw [g6 i hi, contrib_cons]
        simp only
        rw [getD_modify, hA.diagonal]
        by_cases h : I = i
        · subst h; rw [if_pos ⟨rfl, hi⟩, if_pos ⟨rfl, rfl⟩, add_assoc]
        · rw [if_neg (by omega), if_neg (by omega), zero_add]
      · rw [(g7 i j hi hj).1 hij, contrib_cons, if_neg (by simp only; omega), zero_add]
        rfl
    · have e0 : SSS.addToEntry A I J v = { A with data := (CSR.addToEntry A.lower I J v).data } := by
        unfold SSS.addToEntry; rw [if_neg (by omega), if_pos hgt]
      rw [e0]
      obtain ⟨c1, c2, c3, c4, c5, c6, c7⟩ := csr_adds [(I, J, v)] A.lower hV hs
        (by intro x hx; rw [List.mem_singleton.1 hx]; exact hI)
      simp only [List.foldl_cons, List.foldl_nil] at c1 c2 c3 c4 c5 c6 c7
      have hX : Spec.SSS.lower { A with data := (CSR.addToEntry A.lower I J v).data } =
          CSR.addToEntry A.lower I J v := by
        unfold Spec.SSS.lower at *
        simp only at *
        generalize CSR.addToEntry _ I J v = X at *
        cases X; simp_all
      obtain ⟨g1, g2, g3, g4, g5, g6, g7⟩ := ih { A with data := (CSR.addToEntry A.lower I J v).data }
        ⟨hA.indptr, c1.data.trans (congrArg List.length c4), hA.diagonal, fun i hi e he => by
          rw [hX] at he
          have : e.1 ∈ (A.lower.row i).map Prod.fst := by
            rw [row_fst _ hV, ← c3, ← c4, ← row_fst _ c1]; exact List.mem_map_of_mem he
          obtain ⟨e', he', hee⟩ := List.mem_map.1 this
          rw [← hee]; exact hA.lower i hi e' he'⟩ (by rw [hX]; exact c2) (fun x hx => hl x (by simp [hx]))
      have hst : ∀ i j, (Stored (CSR.addToEntry A.lower I J v) i j ↔ Stored A.lower i j) := by
        intro i j; unfold Stored; rw [row_fst _ c1, row_fst _ hV, c3, c4]
      refine ⟨g1, g2, g3, g4, g5, fun i hi => ?_, fun i j hi hj => ?_⟩
      · rw [g6 i hi, contrib_cons, if_neg (by simp only; omega), zero_add]
      · obtain ⟨k1, k2⟩ := g7 i j hi hj
        rw [hX, hst] at k1 k2
        refine ⟨fun hij => ?_, fun hij => ?_⟩
        · rw [k1 hij, (c7 i j hi).1 hij, contrib_cons, contrib_cons, add_assoc]
          simp [contrib]
        · rw [k2 hij, (c7 i j hi).2 hij]

end PyNucleus.Galerkin
