import Verif.Model.Cuthill
import Verif.Proof.SortIndices
import Mathlib.Data.List.Nodup

/-! # Lemmas for the Cuthill-McKee ordering -/

namespace PyNucleus.Cuthill

open PyNucleus.Loops PyNucleus.Spec PyNucleus.CSR

/-- Neighbours of `i`. -/
def nbrs (G : Graph) (i : Nat) : List Nat := csrRow G.indptr G.indices i

/-- A square graph with valid arrays. -/
structure Valid (G : Graph) : Prop where
  indptr : ValidIndptr G.indptr G.numRows G.indices.length
  cols : ∀ j ∈ G.indices, j < G.numRows

theorem nbrs_lt (G : Graph) (hG : Valid G) (i : Nat) : ∀ j ∈ nbrs G i, j < G.numRows :=
  fun j hj => hG.cols j (List.mem_of_mem_drop (List.mem_of_mem_take hj))

theorem nbrs_length (G : Graph) (hG : Valid G) (i : Nat) (hi : i < G.numRows) :
    (nbrs G i).length = G.indptr.getD (i + 1) 0 - G.indptr.getD i 0 :=
  (split_row G.indptr G.numRows G.indices hG.indptr i hi).2.2

theorem forNbrs {σ : Type} (G : Graph) (hG : Valid G) (i : Nat) (hi : i < G.numRows) (s : σ) (f : σ → Nat → σ) :
    forRange (G.indptr.getD i 0) (G.indptr.getD (i + 1) 0) s (fun s k => f s (G.indices.getD k 0)) =
      (nbrs G i).foldl f s :=
  forRange_slice G.indices 0 _ _ (ValidIndptr.le_nnz hG.indptr (i + 1) (by omega)) s f

/-! ### degrees -/

theorem degree_flag (i : Nat) (l : List Nat) (d : List Nat) (hi : i < d.length) :
    (l.foldl (fun s j => if s.2 then s else if j = i then (s.1.modify i (· + 1), true) else s) (d, false)).1 =
      if i ∈ l then d.modify i (· + 1) else d := by
  have hT : ∀ (l : List Nat) (x : List Nat), l.foldl (fun s j => if s.2 then s else if j = i then (s.1.modify i (· + 1), true) else s) (x, true) = (x, true) := by
    intro l x
    induction l with
    | nil => rfl
    | cons a t ih => exact ih
  induction l with
  | nil => rfl
  | cons a t ih =>
    rw [List.foldl_cons]
    by_cases h : a = i
    · simp only [Bool.false_eq_true, if_false, if_pos h]
      rw [hT, if_pos (by simp [h])]
    · simp only [Bool.false_eq_true, if_false, if_neg h]
      rw [ih]
      have : i ∈ a :: t ↔ i ∈ t := by
        rw [List.mem_cons]; exact ⟨fun h' => h'.resolve_left (fun e => h e.symm), Or.inr⟩
      simp only [this]

theorem degrees_eq (G : Graph) (hG : Valid G) :
    (degrees G.indices G.indptr G.numRows).length = G.numRows ∧
    ∀ i, i < G.numRows → (degrees G.indices G.indptr G.numRows).getD i 0 =
      (nbrs G i).length + if i ∈ nbrs G i then 1 else 0 := by
  unfold degrees
  have : ∀ m, m ≤ G.numRows →
      let d := forRange 0 m (List.replicate G.numRows 0) fun degree ii =>
        (forRange (G.indptr.getD ii 0) (G.indptr.getD (ii + 1) 0)
          (degree.set ii (G.indptr.getD (ii + 1) 0 - G.indptr.getD ii 0), false) fun s jj =>
            if s.2 then s
            else if G.indices.getD jj 0 = ii then (s.1.modify ii (· + 1), true)
            else s).1
      d.length = G.numRows ∧ ∀ i, i < m → d.getD i 0 = (nbrs G i).length + if i ∈ nbrs G i then 1 else 0 := by
    intro m
    induction m with
    | zero => intro _; exact ⟨by simp [forRange], fun i hi => absurd hi (by omega)⟩
    | succ m ih =>
      intro hm
      obtain ⟨h1, h2⟩ := ih (by omega)
      simp only [forRange_succ]
      generalize (forRange 0 m (List.replicate G.numRows 0) fun degree ii => _) = d at *
      have e := forNbrs G hG m (by omega) (d.set m (G.indptr.getD (m + 1) 0 - G.indptr.getD m 0), false)
        (fun s j => if s.2 then s else if j = m then (s.1.modify m (· + 1), true) else s)
      rw [e, degree_flag m _ _ (by rw [List.length_set]; omega), ← nbrs_length G hG m (by omega)]
      constructor
      · by_cases h : m ∈ nbrs G m
        · rw [if_pos h, List.length_modify, List.length_set, h1]
        · rw [if_neg h, List.length_set, h1]
      · intro i hi
        by_cases h : m ∈ nbrs G m
        · rw [if_pos h, getD_modify, getD_set, List.length_set]
          by_cases him : m = i
          · subst him; rw [if_pos ⟨rfl, by omega⟩, if_pos ⟨rfl, by omega⟩, if_pos h]
          · rw [if_neg (fun x => him x.1), if_neg (fun x => him x.1), h2 i (by omega)]
        · rw [if_neg h, getD_set]
          by_cases him : m = i
          · subst him; rw [if_pos ⟨rfl, by omega⟩, if_neg h, Nat.add_zero]
          · rw [if_neg (fun x => him x.1), h2 i (by omega)]
  exact this _ (Nat.le_refl _)

theorem le_maxDegree (l : List Nat) (i : Nat) (hi : i < l.length) : l.getD i 0 ≤ maxDegree l := by
  unfold maxDegree
  have : ∀ (l : List Nat) (a : Nat), a ≤ l.foldl max a ∧ ∀ x ∈ l, x ≤ l.foldl max a := by
    intro l
    induction l with
    | nil => intro a; exact ⟨Nat.le_refl _, fun x hx => by simp at hx⟩
    | cons b t ih =>
      intro a
      rw [List.foldl_cons]
      obtain ⟨h1, h2⟩ := ih (max a b)
      refine ⟨by omega, fun x hx => ?_⟩
      rcases List.mem_cons.1 hx with rfl | hx
      · omega
      · exact h2 x hx
  rw [List.getD_eq_getElem?_getD, List.getElem?_eq_getElem hi]
  exact (this l 0).2 _ (List.getElem_mem hi)

/-! ### sorting the new nodes -/

theorem sinkDeg_view (deg : Nat → Nat) (off len x : Nat) : ∀ (ll : Nat) (td o : List Nat) (w : Bool), ll < len →
    len ≤ td.length → off + len ≤ o.length → (∀ k, k < len → td.getD k 0 = deg (o.getD (off + k) 0)) →
    let r := sinkDeg off (deg x) x ll (td, o)
    r.2 = (gsink deg 0 off x (off + ll) (o, w)).1 ∧ r.1.length = td.length ∧ r.2.length = o.length ∧
      ∀ k, k < len → r.1.getD k 0 = deg (r.2.getD (off + k) 0) := by
  intro ll
  induction ll with
  | zero =>
    intro td o w h1 h2 h3 h4
    rw [gsink, dif_neg (by omega)]
    refine ⟨rfl, by simp [sinkDeg], by simp [sinkDeg], fun k hk => ?_⟩
    simp only [sinkDeg]
    rw [getD_set, getD_set]
    by_cases h : k = 0
    · rw [if_pos ⟨h.symm, by omega⟩, if_pos ⟨by omega, by omega⟩]
    · rw [if_neg (by omega), if_neg (by omega), h4 k hk]
  | succ ll ih =>
    intro td o w h1 h2 h3 h4
    rw [gsink]
    unfold sinkDeg
    have hll := h4 ll (by omega)
    simp only [show off + (ll + 1) - 1 = off + ll by omega]
    by_cases hc : deg x < td.getD ll 0
    · rw [if_pos hc, dif_pos ⟨by omega, by rw [← hll]; exact hc⟩]
      have hr : ∀ k, k < len → (td.set (ll + 1) (td.getD ll 0)).getD k 0 =
          deg ((o.set (off + ll + 1) (o.getD (off + ll) 0)).getD (off + k) 0) := by
        intro k hk
        rw [getD_set, getD_set]
        by_cases h : k = ll + 1
        · rw [if_pos ⟨h.symm, by omega⟩, if_pos ⟨by omega, by omega⟩, hll]
        · rw [if_neg (by omega), if_neg (by omega), h4 k hk]
      have := ih (td.set (ll + 1) (td.getD ll 0)) (o.set (off + ll + 1) (o.getD (off + ll) 0)) false (by omega)
        (by rw [List.length_set]; exact h2) (by rw [List.length_set]; exact h3) hr
      simp only [List.length_set] at this
      exact this
    · rw [if_neg hc, dif_neg (by rw [← hll]; exact fun h => hc h.2)]
      refine ⟨rfl, by simp, by simp, fun k hk => ?_⟩
      simp only []
      rw [getD_set, getD_set]
      by_cases h : k = ll + 1
      · rw [if_pos ⟨h.symm, by omega⟩, if_pos ⟨by omega, by omega⟩]
      · rw [if_neg (by omega), if_neg (by omega), h4 k hk]

theorem sort_loop (deg : Nat → Nat) (P B rest td : List Nat) (hlen : B.length ≤ td.length)
    (htd : ∀ k, k < B.length → td.getD k 0 = deg ((P ++ B ++ rest).getD (P.length + k) 0)) :
    let r := forRange 1 B.length (td, P ++ B ++ rest) fun r kk =>
      sinkDeg P.length (r.1.getD kk 0) (r.2.getD (P.length + kk) 0) kk r
    r.1.length = td.length ∧ ∃ B', r.2 = P ++ B' ++ rest ∧ B'.Perm B ∧ NonDecr deg B' := by
  obtain ⟨B', g1, g2, g3⟩ := gsort_row deg 0 P B rest true
  have hlo : (P ++ B ++ rest).length = P.length + B.length + rest.length := by simp; omega
  have step : ∀ n lo (td o : List Nat) (w : Bool), lo + n ≤ B.length → B.length ≤ td.length →
      P.length + B.length ≤ o.length →
      (∀ k, k < B.length → td.getD k 0 = deg (o.getD (P.length + k) 0)) →
      let r := (List.range' lo n).foldl (fun r kk =>
        sinkDeg P.length (r.1.getD kk 0) (r.2.getD (P.length + kk) 0) kk r) (td, o)
      r.1.length = td.length ∧
      r.2 = ((List.range' (P.length + lo) n).foldl (fun s jj => gsink deg 0 P.length (s.1.getD jj 0) jj s) (o, w)).1 := by
    intro n
    induction n with
    | zero => intros; exact ⟨rfl, rfl⟩
    | succ n ih =>
      intro lo td o w h1 h2 h3 h4
      obtain ⟨v1, v2, v3, v4⟩ := sinkDeg_view deg P.length B.length (o.getD (P.length + lo) 0) lo td o w (by omega) h2 h3 h4
      rw [List.range'_succ, List.range'_succ, List.foldl_cons, List.foldl_cons]
      simp only []
      rw [h4 lo (by omega)]
      generalize sinkDeg P.length (deg (o.getD (P.length + lo) 0)) (o.getD (P.length + lo) 0) lo (td, o) = r at *
      generalize gsink deg 0 P.length (o.getD (P.length + lo) 0) (P.length + lo) (o, w) = g at *
      obtain ⟨i1, i2⟩ := ih (lo + 1) r.1 r.2 g.2 (by omega) (by omega) (by omega) v4
      refine ⟨i1.trans v2, ?_⟩
      refine i2.trans ?_
      rw [v1]
      rfl
  by_cases hB : B.length = 0
  · have : B = [] := List.length_eq_zero_iff.1 hB
    subst this
    exact ⟨rfl, [], rfl, List.Perm.refl _, List.Pairwise.nil⟩
  · have h0 : gsink deg 0 P.length ((P ++ B ++ rest).getD P.length 0) P.length (P ++ B ++ rest, true) = (P ++ B ++ rest, true) := by
      rw [gsink, dif_neg (by omega)]
      obtain ⟨b, B2, rfl⟩ : ∃ b B2, B = b :: B2 := List.exists_cons_of_ne_nil (by rintro rfl; exact hB rfl)
      rw [List.append_assoc, List.cons_append, getD_append_mid, set_append_mid]
    have hg : (forRange P.length (P.length + B.length) (P ++ B ++ rest, true) (fun s jj =>
        gsink deg 0 P.length (s.1.getD jj 0) jj s)) =
        (List.range' (P.length + 1) (B.length - 1)).foldl (fun s jj => gsink deg 0 P.length (s.1.getD jj 0) jj s)
          (P ++ B ++ rest, true) := by
      unfold forRange
      rw [show P.length + B.length - P.length = (B.length - 1) + 1 by omega, List.range'_succ, List.foldl_cons]
      simp only []
      rw [h0]
    obtain ⟨s1, s2⟩ := step (B.length - 1) 1 td (P ++ B ++ rest) true (by omega) hlen (by omega) htd
    refine ⟨s1, B', ?_, g2, g3⟩
    have : ((List.range' (P.length + 1) (B.length - 1)).foldl (fun s jj => gsink deg 0 P.length (s.1.getD jj 0) jj s)
          (P ++ B ++ rest, true)).1 = P ++ B' ++ rest := by rw [← hg, g1]
    exact s2.trans this

theorem copy_degrees (deg : Nat → Nat) (o : List Nat) (lo : Nat) : ∀ n (td : List Nat), n ≤ td.length →
    let r := forRange lo (lo + n) (td, 0) fun r kk => (r.1.set r.2 (deg (o.getD kk 0)), r.2 + 1)
    r.2 = n ∧ r.1.length = td.length ∧ ∀ k, k < n → r.1.getD k 0 = deg (o.getD (lo + k) 0) := by
  intro n
  induction n with
  | zero =>
    intro td _
    simp [forRange]
  | succ n ih =>
    intro td hn
    obtain ⟨h1, h2, h3⟩ := ih td (by omega)
    have e : forRange lo (lo + (n + 1)) (td, 0) (fun r kk => (r.1.set r.2 (deg (o.getD kk 0)), r.2 + 1)) =
        (fun r kk => (r.1.set r.2 (deg (o.getD kk 0)), r.2 + 1)) (forRange lo (lo + n) (td, 0) fun r kk => (r.1.set r.2 (deg (o.getD kk 0)), r.2 + 1)) (lo + n) := by
      unfold forRange
      rw [show lo + (n + 1) - lo = n + 1 by omega, show lo + n - lo = n by omega, List.range'_1_concat, List.foldl_append]
      rfl
    rw [e]
    generalize (forRange lo (lo + n) (td, 0) fun r kk => (r.1.set r.2 (deg (o.getD kk 0)), r.2 + 1)) = r at *
    refine ⟨by simp only [h1], by simp only [List.length_set, h2], fun k hk => ?_⟩
    simp only [getD_set]
    by_cases h : k = n
    · rw [if_pos ⟨by omega, by omega⟩, h]
    · rw [if_neg (by omega), h3 k (by omega)]

theorem sortNew_eq (degree : List Nat) (P B rest : List Nat) (s : St) (hs : s.order = P ++ B ++ rest)
    (hN : s.N = P.length + B.length) (hlen : B.length ≤ s.td.length) :
    ∃ B' td', sortNew degree P.length s = { s with order := P ++ B' ++ rest, td := td' } ∧
      td'.length = s.td.length ∧ B'.Perm B ∧ NonDecr (fun i => degree.getD i 0) B' := by
  obtain ⟨c1, c2, c3⟩ := copy_degrees (fun i => degree.getD i 0) s.order P.length B.length s.td hlen
  unfold sortNew
  rw [hN]
  simp only [c1]
  generalize (forRange P.length (P.length + B.length) (s.td, 0) fun r kk => _) = r at *
  rw [hs] at c3 ⊢
  obtain ⟨l1, B', l2, l3, l4⟩ := sort_loop (fun i => degree.getD i 0) P B rest r.1 (by omega) c3
  refine ⟨B', _, ?_, l1.trans c2, l3, l4⟩
  rw [l2]

end PyNucleus.Cuthill
