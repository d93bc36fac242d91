import Verif.Proof.Cuthill
import Verif.Spec.Ordering
import Mathlib.Data.List.Perm.Subperm

/-! # Invariant of the search -/

namespace PyNucleus.Cuthill

open PyNucleus.Loops PyNucleus.Spec PyNucleus.CSR

theorem getD_left (P Q : List Nat) (i : Nat) (h : i < P.length) : (P ++ Q).getD i 0 = P.getD i 0 := by
  rw [List.getD_eq_getElem?_getD, List.getD_eq_getElem?_getD, List.getElem?_append_left h]

theorem getD_right (P Q : List Nat) (i : Nat) (h : P.length ≤ i) : (P ++ Q).getD i 0 = Q.getD (i - P.length) 0 := by
  rw [List.getD_eq_getElem?_getD, List.getD_eq_getElem?_getD, List.getElem?_append_right h]

theorem getD_mem' (P : List Nat) (i : Nat) (h : i < P.length) : P.getD i 0 ∈ P := by
  rw [List.getD_eq_getElem?_getD, List.getElem?_eq_getElem h]; exact List.getElem_mem h

theorem take_left' (P Q : List Nat) (i : Nat) (h : i ≤ P.length) : (P ++ Q).take i = P.take i := by
  rw [List.take_append, Nat.sub_eq_zero_of_le h, List.take_zero, List.append_nil]

/-- Nodes found so far `P`, of which the first `k` have been processed. -/
structure Inv (nbr : Nat → List Nat) (deg : Nat → Nat) (n : Nat) (P : List Nat) (k : Nat) : Prop where
  le : k ≤ P.length
  closed : ∀ q, q < k → ∀ j ∈ nbr (P.getD q 0), j ∈ P
  bfs : ∀ p, p < P.length → (∃ q, q < k ∧ q < p ∧ P.getD p 0 ∈ nbr (P.getD q 0)) ∨
    (p ≤ k ∧ ClosedUnder nbr (P.take p) ∧ ∀ i, i < n → i ∉ P.take p → deg (P.getD p 0) ≤ deg i)
  ord : DegreeOrdered nbr deg P

theorem inv_nil (nbr : Nat → List Nat) (deg : Nat → Nat) (n : Nat) : Inv nbr deg n [] 0 :=
  ⟨Nat.le_refl _, fun q hq => absurd hq (by omega), fun p hp => absurd hp (by simp), fun _ _ _ _ _ h => absurd h (by simp)⟩

/-- Processing the next node. -/
theorem inv_step {nbr : Nat → List Nat} {deg : Nat → Nat} {n : Nat} {P : List Nat} {k : Nat} (h : Inv nbr deg n P k)
    (hk : k < P.length) (B : List Nat) (h1 : ∀ b ∈ B, b ∈ nbr (P.getD k 0)) (h2 : ∀ j ∈ nbr (P.getD k 0), j ∈ P ++ B)
    (h3 : ∀ b ∈ B, b ∉ P) (h4 : NonDecr deg B) : Inv nbr deg n (P ++ B) (k + 1) := by
  refine ⟨by rw [List.length_append]; omega, fun q hq j hj => ?_, fun p hp => ?_, fun p p' q hq hpp hp' hadj => ?_⟩
  · rw [getD_left P B q (by omega)] at hj
    by_cases hqk : q = k
    · subst hqk; exact h2 j hj
    · exact List.mem_append_left _ (h.closed q (by omega) j hj)
  · by_cases hpP : p < P.length
    · rw [getD_left P B p hpP, take_left' P B p (by omega)]
      rcases h.bfs p hpP with ⟨q, a, b, c⟩ | ⟨a, b, c⟩
      · exact Or.inl ⟨q, by omega, b, by rw [getD_left P B q (by omega)]; exact c⟩
      · exact Or.inr ⟨by omega, b, c⟩
    · refine Or.inl ⟨k, by omega, by omega, ?_⟩
      rw [getD_left P B k hk, getD_right P B p (by omega)]
      rw [List.length_append] at hp
      exact h1 _ (getD_mem' B _ (by omega))
  · rw [List.length_append] at hp'
    by_cases hp'P : p' < P.length
    · rw [getD_left P B p' hp'P, getD_left P B q (by omega)] at hadj
      obtain ⟨q', a, b, c⟩ := h.ord p p' q hq hpp hp'P hadj
      refine ⟨q', a, ?_, ?_⟩
      · rw [getD_left P B p (by omega), getD_left P B q' (by omega)]; exact b
      · rw [getD_left P B p (by omega), getD_left P B p' hp'P]; exact c
    · rw [getD_right P B p' (by omega)] at hadj ⊢
      have hmem := getD_mem' B (p' - P.length) (by omega)
      have hqk : k ≤ q := by
        by_contra hc
        rw [getD_left P B q (by omega)] at hadj
        exact h3 _ hmem (h.closed q (by omega) _ hadj)
      by_cases hpP : p < P.length
      · rcases h.bfs p hpP with ⟨q', a, b, c⟩ | ⟨a, _⟩
        · refine ⟨q', by omega, ?_, fun e => absurd e (by omega)⟩
          rw [getD_left P B p hpP, getD_left P B q' (by omega)]; exact c
        · omega
      · refine ⟨k, hqk, ?_, fun _ => ?_⟩
        · rw [getD_left P B k hk, getD_right P B p (by omega)]
          exact h1 _ (getD_mem' B _ (by omega))
        · rw [getD_right P B p (by omega), List.getD_eq_getElem?_getD, List.getD_eq_getElem?_getD,
            List.getElem?_eq_getElem (by omega), List.getElem?_eq_getElem (by omega)]
          exact List.pairwise_iff_getElem.1 h4 _ _ (by omega) (by omega) (by omega)

/-- Starting a new component. -/
theorem inv_seed {nbr : Nat → List Nat} {deg : Nat → Nat} {n : Nat} {P : List Nat} (h : Inv nbr deg n P P.length)
    (s : Nat) (hs : s ∉ P) (hmin : ∀ i, i < n → i ∉ P → deg s ≤ deg i) : Inv nbr deg n (P ++ [s]) P.length := by
  have hclosed : ClosedUnder nbr P := by
    intro i hi j hj
    obtain ⟨q, hq, rfl⟩ := List.mem_iff_getElem.1 hi
    apply h.closed q hq j
    rw [List.getD_eq_getElem?_getD, List.getElem?_eq_getElem hq]; exact hj
  refine ⟨by simp, fun q hq j hj => ?_, fun p hp => ?_, fun p p' q hq hpp hp' hadj => ?_⟩
  · rw [getD_left P _ q hq] at hj
    exact List.mem_append_left _ (h.closed q hq j hj)
  · by_cases hpP : p < P.length
    · rw [getD_left P _ p hpP, take_left' P _ p (by omega)]
      rcases h.bfs p hpP with ⟨q, a, b, c⟩ | ⟨a, b, c⟩
      · exact Or.inl ⟨q, a, b, by rw [getD_left P _ q (by omega)]; exact c⟩
      · exact Or.inr ⟨a, b, c⟩
    · rw [List.length_append, List.length_singleton] at hp
      have : p = P.length := by omega
      subst this
      rw [take_left' P _ _ (Nat.le_refl _), List.take_length, getD_right P _ _ (Nat.le_refl _), Nat.sub_self]
      exact Or.inr ⟨Nat.le_refl _, hclosed, hmin⟩
  · rw [List.length_append, List.length_singleton] at hp'
    by_cases hp'P : p' < P.length
    · rw [getD_left P _ p' hp'P, getD_left P _ q (by omega)] at hadj
      obtain ⟨q', a, b, c⟩ := h.ord p p' q hq hpp hp'P hadj
      refine ⟨q', a, ?_, ?_⟩
      · rw [getD_left P _ p (by omega), getD_left P _ q' (by omega)]; exact b
      · rw [getD_left P _ p (by omega), getD_left P _ p' hp'P]; exact c
    · have : p' = P.length := by omega
      subst this
      rw [getD_right P _ _ (Nat.le_refl _), Nat.sub_self, getD_left P _ q (by omega)] at hadj
      exact absurd (h.closed q (by omega) _ hadj) hs

/-- The arrays describe the list `P` of nodes found. -/
structure Rel (G : Graph) (inds0 rev : List Nat) (P : List Nat) (s : St) : Prop where
  N : s.N = P.length
  olen : s.order.length = G.numRows
  order : s.order.take P.length = P
  ilen : s.inds.length = G.numRows
  vis : ∀ j, j < G.numRows → (s.inds.getD (rev.getD j 0) 0 = -1 ↔ j ∈ P)
  val : ∀ z, z < G.numRows → s.inds.getD z 0 = -1 ∨ s.inds.getD z 0 = Int.ofNat (inds0.getD z 0)
  nodup : P.Nodup
  lt : ∀ j ∈ P, j < G.numRows
  tlen : s.td.length = maxDegree (degrees G.indices G.indptr G.numRows)

theorem nodup_le {P : List Nat} {n : Nat} (h : P.Nodup) (hlt : ∀ j ∈ P, j < n) : P.length ≤ n := by
  have := (List.Nodup.subperm h (l₂ := List.range n) fun j hj => List.mem_range.2 (hlt j hj)).length_le
  rwa [List.length_range] at this

/-- `rev` inverts `inds0`. -/
structure Inverse (inds0 rev : List Nat) (n : Nat) : Prop where
  ilen : inds0.length = n
  rlt : ∀ j, j < n → rev.getD j 0 < n
  right : ∀ j, j < n → inds0.getD (rev.getD j 0) 0 = j
  ilt : ∀ z, z < n → inds0.getD z 0 < n
  left : ∀ z, z < n → rev.getD (inds0.getD z 0) 0 = z

/-- Marking and appending one node. -/
theorem rel_push {G : Graph} {inds0 rev : List Nat} (hI : Inverse inds0 rev G.numRows) {P : List Nat} {s : St}
    (h : Rel G inds0 rev P s) (j : Nat) (hj : j < G.numRows) (hn : j ∉ P) :
    Rel G inds0 rev (P ++ [j]) { s with inds := s.inds.set (rev.getD j 0) (-1), order := s.order.set s.N j, N := s.N + 1 } := by
  have hnd : (P ++ [j]).Nodup := by
    rw [List.nodup_append]
    refine ⟨h.nodup, by simp, fun a ha b hb hab => ?_⟩
    rw [List.mem_singleton] at hb
    exact hn (hb ▸ hab ▸ ha)
  have hlt : ∀ k ∈ P ++ [j], k < G.numRows := by
    intro k hk
    rcases List.mem_append.1 hk with hk | hk
    · exact h.lt k hk
    · rw [List.mem_singleton] at hk; omega
  have hle := nodup_le hnd hlt
  rw [List.length_append, List.length_singleton] at hle
  have holen := h.olen
  have hN := h.N
  have hilen := h.ilen
  refine ⟨by simp [hN], by simp [holen], ?_, by simp [hilen], fun k hk => ?_, fun z hz => ?_, hnd, hlt, h.tlen⟩
  · simp only [List.length_append, List.length_singleton]
    rw [List.take_succ_eq_append_getElem (by rw [List.length_set]; omega), List.take_set, hN, h.order]
    congr 1
    · rw [List.set_eq_of_length_le (Nat.le_refl _)]
    · simp
  · simp only []
    rw [getD_set]
    by_cases hkj : k = j
    · rw [if_pos ⟨by rw [hkj], by rw [hilen]; exact hI.rlt k hk⟩]
      simp [hkj]
    · rw [if_neg (fun e => hkj (by
        have h1 := hI.right k hk
        have h2 := hI.right j hj
        rw [e.1] at h2
        omega)), h.vis k hk]
      simp [hkj]
  · simp only []
    rw [getD_set]
    by_cases hz' : rev.getD j 0 = z ∧ z < s.inds.length
    · rw [if_pos hz']; exact Or.inl rfl
    · rw [if_neg hz']; exact h.val z hz

/-- The neighbour loop. -/
theorem visit_eq {G : Graph} (hG : Valid G) {inds0 rev : List Nat} (hI : Inverse inds0 rev G.numRows) {P : List Nat} {s : St}
    (h : Rel G inds0 rev P s) (i : Nat) (hi : i < G.numRows) :
    ∃ B, Rel G inds0 rev (P ++ B) (visit G rev i s) ∧ B.length ≤ (nbrs G i).length ∧
      (∀ b ∈ B, b ∈ nbrs G i) ∧ ∀ j ∈ nbrs G i, j ∈ P ++ B := by
  have e : visit G rev i s = (nbrs G i).foldl (fun s j => if s.inds.getD (rev.getD j 0) 0 ≠ -1 then
      { s with inds := s.inds.set (rev.getD j 0) (-1), order := s.order.set s.N j, N := s.N + 1 } else s) s :=
    forNbrs G hG i hi s fun s j => if s.inds.getD (rev.getD j 0) 0 ≠ -1 then
      { s with inds := s.inds.set (rev.getD j 0) (-1), order := s.order.set s.N j, N := s.N + 1 } else s
  rw [e]
  have hlt := nbrs_lt G hG i
  generalize nbrs G i = l at *
  clear e
  induction l generalizing P s with
  | nil => exact ⟨[], by rw [List.append_nil]; exact h, Nat.le_refl _, fun b hb => by simp at hb, fun j hj => by simp at hj⟩
  | cons j t ih =>
    rw [List.foldl_cons]
    have hj := hlt j (by simp)
    by_cases hv : s.inds.getD (rev.getD j 0) 0 = -1
    · rw [if_neg (fun x => x hv)]
      obtain ⟨B, h1, h2, h3, h4⟩ := ih h (fun k hk => hlt k (by simp [hk]))
      refine ⟨B, h1, by simp; omega, fun b hb => List.mem_cons_of_mem _ (h3 b hb), fun k hk => ?_⟩
      rcases List.mem_cons.1 hk with rfl | hk
      · exact List.mem_append_left _ ((h.vis k hj).1 hv)
      · exact h4 k hk
    · rw [if_pos hv]
      obtain ⟨B, h1, h2, h3, h4⟩ := ih (rel_push hI h j hj (fun hP => hv ((h.vis j hj).2 hP))) (fun k hk => hlt k (by simp [hk]))
      rw [List.append_assoc] at h1 h4
      refine ⟨[j] ++ B, h1, by simp; omega, fun b hb => ?_, fun k hk => ?_⟩
      · rcases List.mem_cons.1 hb with rfl | hb
        · simp
        · exact List.mem_cons_of_mem _ (h3 b hb)
      · rcases List.mem_cons.1 hk with rfl | hk
        · simp
        · exact h4 k hk

/-- Processing one node. -/
theorem node_step {G : Graph} (hG : Valid G) {inds0 rev : List Nat} (hI : Inverse inds0 rev G.numRows) {P : List Nat} {s : St}
    (h : Rel G inds0 rev P s) (k : Nat)
    (hinv : Inv (nbrs G) (fun i => (degrees G.indices G.indptr G.numRows).getD i 0) G.numRows P k) (hk : k < P.length) :
    ∃ B, Rel G inds0 rev (P ++ B) (sortNew (degrees G.indices G.indptr G.numRows) s.N (visit G rev (s.order.getD k 0) s)) ∧
      Inv (nbrs G) (fun i => (degrees G.indices G.indptr G.numRows).getD i 0) G.numRows (P ++ B) (k + 1) := by
  have hle := nodup_le h.nodup h.lt
  have hPk : s.order.getD k 0 = P.getD k 0 := by
    rw [← h.order, List.getD_eq_getElem?_getD, List.getD_eq_getElem?_getD, List.getElem?_take_of_lt hk]
  have hi : P.getD k 0 < G.numRows := h.lt _ (getD_mem' P k hk)
  obtain ⟨B, v1, v2, v3, v4⟩ := visit_eq hG hI h (P.getD k 0) hi
  rw [hPk, h.N]
  generalize visit G rev (P.getD k 0) s = t at *
  have htd : B.length ≤ t.td.length := by
    rw [v1.tlen]
    have d1 := (degrees_eq G hG).1
    have d2 := (degrees_eq G hG).2 _ hi
    have := le_maxDegree (degrees G.indices G.indptr G.numRows) (P.getD k 0) (by omega)
    omega
  have hord : t.order = P ++ B ++ t.order.drop (P ++ B).length := by
    have := List.take_append_drop (P ++ B).length t.order
    rw [v1.order] at this
    exact this.symm
  obtain ⟨B', td', s1, s2, s3, s4⟩ := sortNew_eq (degrees G.indices G.indptr G.numRows) P B _ t hord
    (by rw [v1.N, List.length_append]) htd
  have hlen := s3.length_eq
  have hperm : (P ++ B').Perm (P ++ B) := s3.append_left P
  have htle : (P ++ B).length ≤ t.order.length := by
    rw [v1.olen]; exact nodup_le v1.nodup v1.lt
  refine ⟨B', ?_, inv_step hinv hk B' (fun b hb => v3 b (s3.mem_iff.1 hb)) (fun j hj => hperm.mem_iff.2 (v4 j hj))
    (fun b hb hP => ?_) s4⟩
  · rw [s1]
    refine ⟨by simp only [v1.N, List.length_append, hlen], ?_, ?_, v1.ilen, fun j hj => ?_, v1.val,
      hperm.nodup_iff.2 v1.nodup, fun j hj => v1.lt j (hperm.mem_iff.1 hj), by simp only [s2]; exact v1.tlen⟩
    · have := v1.olen
      simp only [List.length_append, List.length_drop] at htle ⊢
      omega
    · simp only []
      exact List.take_left
    · rw [hperm.mem_iff]; exact v1.vis j hj
  · have := (List.nodup_append.1 v1.nodup).2.2 b hP b (s3.mem_iff.1 hb)
    exact this rfl

/-- One level. -/
theorem level_eq {G : Graph} (hG : Valid G) {inds0 rev : List Nat} (hI : Inverse inds0 rev G.numRows) (P0 : List Nat) (s : St)
    (h : Rel G inds0 rev P0 s) (ls : Nat)
    (hinv : Inv (nbrs G) (fun i => (degrees G.indices G.indptr G.numRows).getD i 0) G.numRows P0 ls) :
    ∃ B, Rel G inds0 rev (P0 ++ B) (level G (degrees G.indices G.indptr G.numRows) rev ls P0.length s) ∧
      Inv (nbrs G) (fun i => (degrees G.indices G.indptr G.numRows).getD i 0) G.numRows (P0 ++ B) P0.length := by
  have : ∀ n lo (P : List Nat) (s : St), lo + n = P0.length → P0.length ≤ P.length → Rel G inds0 rev P s →
      Inv (nbrs G) (fun i => (degrees G.indices G.indptr G.numRows).getD i 0) G.numRows P lo →
      ∃ B, Rel G inds0 rev (P ++ B) ((List.range' lo n).foldl
        (fun s ii => sortNew (degrees G.indices G.indptr G.numRows) s.N (visit G rev (s.order.getD ii 0) s)) s) ∧
        Inv (nbrs G) (fun i => (degrees G.indices G.indptr G.numRows).getD i 0) G.numRows (P ++ B) P0.length := by
    intro n
    induction n with
    | zero =>
      intro lo P s h1 h2 h3 h4
      have : lo = P0.length := by omega
      subst this
      exact ⟨[], by rw [List.append_nil]; exact h3, by rw [List.append_nil]; exact h4⟩
    | succ n ih =>
      intro lo P s h1 h2 h3 h4
      obtain ⟨B1, a1, a2⟩ := node_step hG hI h3 lo h4 (by omega)
      obtain ⟨B2, b1, b2⟩ := ih (lo + 1) (P ++ B1) _ (by omega) (by rw [List.length_append]; omega) a1 a2
      rw [List.append_assoc] at b1 b2
      exact ⟨B1 ++ B2, b1, b2⟩
  have hle := hinv.le
  exact this (P0.length - ls) ls P0 s (by omega) (Nat.le_refl _) h hinv

/-- The loop over the levels ends with all found nodes processed, within the budget. -/
theorem levels_eq {G : Graph} (hG : Valid G) {inds0 rev : List Nat} (hI : Inverse inds0 rev G.numRows) : ∀ (fuel : Nat)
    (P : List Nat) (s : St) (ls : Nat), Rel G inds0 rev P s →
    Inv (nbrs G) (fun i => (degrees G.indices G.indptr G.numRows).getD i 0) G.numRows P ls → G.numRows < fuel + ls →
    let r := levels G (degrees G.indices G.indptr G.numRows) rev fuel ls P.length s
    r.1 = r.2.1 ∧ ∃ B, Rel G inds0 rev (P ++ B) r.2.2 ∧
      Inv (nbrs G) (fun i => (degrees G.indices G.indptr G.numRows).getD i 0) G.numRows (P ++ B) (P ++ B).length := by
  intro fuel
  induction fuel with
  | zero =>
    intro P s ls h hinv hf
    have := nodup_le h.nodup h.lt
    have := hinv.le
    omega
  | succ fuel ih =>
    intro P s ls h hinv hf
    have hle := hinv.le
    unfold levels
    by_cases hls : ls < P.length
    · rw [if_pos hls]
      obtain ⟨B, h1, h2⟩ := level_eq hG hI P s h ls hinv
      simp only []
      rw [h1.N]
      obtain ⟨g1, B2, g2, g3⟩ := ih (P ++ B) _ P.length h1 h2 (by omega)
      rw [List.append_assoc] at g2 g3
      exact ⟨g1, B ++ B2, g2, g3⟩
    · rw [if_neg hls]
      have : ls = P.length := by omega
      exact ⟨this, [], by rw [List.append_nil]; exact h, by rw [List.append_nil, ← this]; exact hinv⟩

end PyNucleus.Cuthill
