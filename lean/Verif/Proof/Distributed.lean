import Verif.Model.Distributed
import Verif.Spec.Distributed
import Verif.Proof.Overlap2
import Verif.Proof.CSR
import Mathlib.Tactic.Ring

/-! # Interleaved product -/

namespace PyNucleus.Distributed

open PyNucleus.Loops PyNucleus.Spec PyNucleus.CSR PyNucleus.Overlap

variable {K : Type}

theorem overlapRows_spec [Zero K] (ix : List Nat) (val : Nat → K) (w : List K) : (overlapRows ix val w).length = w.length ∧
    ∀ i, i < w.length → (overlapRows ix val w).getD i 0 = if i ∈ ix then val i else w.getD i 0 := by
  unfold overlapRows
  rw [forRange_slice ix 0 0 ix.length (Nat.le_refl _) w (fun w i => w.set i (val i)), List.drop_zero, Nat.sub_zero, List.take_length]
  induction ix generalizing w with
  | nil => exact ⟨rfl, fun i _ => by simp⟩
  | cons a ix ih =>
    obtain ⟨h1, h2⟩ := ih (w.set a (val a))
    rw [List.foldl_cons]
    rw [List.length_set] at h1 h2
    refine ⟨h1, fun i hi => ?_⟩
    rw [h2 i hi, getD_set]
    by_cases hm : i ∈ ix
    · rw [if_pos hm, if_pos (List.mem_cons_of_mem _ hm)]
    · rw [if_neg hm]
      by_cases ha : a = i
      · rw [if_pos ⟨ha, hi⟩, if_pos (by rw [ha]; exact List.mem_cons_self), ha]
      · rw [if_neg fun h => ha h.1, if_neg fun h => by rcases List.mem_cons.1 h with e | e; exact ha e.symm; exact hm e]

theorem interiorRows_spec [Zero K] (n : Nat) (ix : List Nat) (val : Nat → K) (w : List K) : (interiorRows n ix val w).length = w.length ∧
    ∀ i, i < n → i < w.length → (interiorRows n ix val w).getD i 0 = val i ∨ (i ∈ ix ∧ (interiorRows n ix val w).getD i 0 = w.getD i 0) := by
  unfold interiorRows
  have : ∀ m, (forRange 0 m (w, 0) fun s i =>
      if s.2 < ix.length ∧ ix.getD s.2 0 = i then (s.1, s.2 + 1) else (s.1.set i (val i), s.2)).1.length = w.length ∧
      ∀ i, i < w.length → ((m ≤ i → (forRange 0 m (w, 0) fun s i =>
      if s.2 < ix.length ∧ ix.getD s.2 0 = i then (s.1, s.2 + 1) else (s.1.set i (val i), s.2)).1.getD i 0 = w.getD i 0) ∧
      (i < m → (forRange 0 m (w, 0) fun s i =>
      if s.2 < ix.length ∧ ix.getD s.2 0 = i then (s.1, s.2 + 1) else (s.1.set i (val i), s.2)).1.getD i 0 = val i ∨
        (i ∈ ix ∧ (forRange 0 m (w, 0) fun s i =>
      if s.2 < ix.length ∧ ix.getD s.2 0 = i then (s.1, s.2 + 1) else (s.1.set i (val i), s.2)).1.getD i 0 = w.getD i 0))) := by
    intro m
    induction m with
    | zero => exact ⟨rfl, fun i _ => ⟨fun _ => rfl, fun h => by omega⟩⟩
    | succ m ih =>
      rw [forRange_succ]
      generalize (forRange 0 m (w, 0) fun s i =>
        if s.2 < ix.length ∧ ix.getD s.2 0 = i then (s.1, s.2 + 1) else (s.1.set i (val i), s.2)) = s at *
      obtain ⟨h1, h2⟩ := ih
      by_cases hc : s.2 < ix.length ∧ ix.getD s.2 0 = m
      · rw [if_pos hc]
        refine ⟨h1, fun i hi => ⟨fun h => (h2 i hi).1 (by omega), fun h => ?_⟩⟩
        by_cases him : i = m
        · right
          refine ⟨?_, (h2 i hi).1 (by omega)⟩
          rw [him, ← hc.2, List.getD_eq_getElem _ _ hc.1]
          exact List.getElem_mem hc.1
        · exact (h2 i hi).2 (by omega)
      · rw [if_neg hc]
        refine ⟨by rw [List.length_set]; exact h1, fun i hi => ⟨fun h => ?_, fun h => ?_⟩⟩
        · dsimp only
          rw [getD_set, if_neg (show ¬ (m = i ∧ i < s.1.length) by omega)]
          exact (h2 i hi).1 (by omega)
        · dsimp only
          rw [getD_set, h1]
          by_cases him : m = i
          · left
            rw [if_pos ⟨him, hi⟩, him]
          · rw [if_neg fun q => him q.1]
            exact (h2 i hi).2 (by omega)
  exact ⟨(this n).1, fun i hi hw => ((this n).2 i hw).2 hi⟩

theorem csrLocal_spec [Zero K] (n : Nat) (ix : List Nat) (val : Nat → K) (w : List K) (hw : w.length = n) :
    (csrLocal n ix val w).2.length = n ∧ (∀ i, i < n → (csrLocal n ix val w).2.getD i 0 = val i) ∧
      ∀ i, i < n → i ∈ ix → (csrLocal n ix val w).1.getD i 0 = val i := by
  obtain ⟨h1, h2⟩ := overlapRows_spec ix val w
  obtain ⟨h3, h4⟩ := interiorRows_spec n ix val (overlapRows ix val w)
  refine ⟨h3.trans (h1.trans hw), fun i hi => ?_, fun i hi hm => ?_⟩
  · rcases h4 i hi (by omega) with h | ⟨hm, h⟩
    · exact h
    · exact h.trans (by rw [h2 i (by omega), if_pos hm])
  · exact (h2 i (by omega)).trans (by rw [if_pos hm])

theorem gather_congr [Zero K] (x y : List K) (sh : List Nat) (h : ∀ i ∈ sh, x.getD i 0 = y.getD i 0) : gather x sh = gather y sh :=
  List.map_congr_left h

/-- Receiving in any order. -/
theorem receive_total [AddCommMonoid K] {P : Nat} {ov : Nat → Manager} {gid : Nat → Nat → Nat} (hc : Consistent P ov gid)
    (sent y : Nat → List K) (hy : ∀ r, r < P → (y r).length = (ov r).n) {r : Nat} (hr : r < P) {order : List Nat}
    (horder : order.Perm (ov r).keys)
    (hsent : ∀ s, s < P → ∀ t, ∀ i ∈ (ov s).shared t, (sent s).getD i 0 = (y s).getD i 0) :
    (receive ov r order sent (y r)).length = (ov r).n ∧
      ∀ i, i < (ov r).n → (receive ov r order sent (y r)).getD i 0 = total P ov gid y (gid r i) := by
  have e : receive ov r order sent (y r) =
      order.foldl (fun v s => process .accumulate ((ov r).shared s) (gather (y s) ((ov s).shared r)) v) (y r) := by
    unfold receive
    have : ∀ (l : List Nat), (∀ s ∈ l, s < P) → ∀ v : List K,
        l.foldl (fun v s => accumulateProcess ((ov r).shared s) (gather (sent s) ((ov s).shared r)) v) v =
        l.foldl (fun v s => process .accumulate ((ov r).shared s) (gather (y s) ((ov s).shared r)) v) v := by
      intro l
      induction l with
      | nil => intro _ _; rfl
      | cons s l ih =>
        intro h v
        rw [List.foldl_cons, List.foldl_cons, ih fun s hs => h s (List.mem_cons_of_mem _ hs),
          gather_congr _ _ _ (hsent s (h s List.mem_cons_self) r)]
        rfl
    exact this order (fun s hs => (hc.keys_lt r hr s (horder.subset hs)).1) _
  obtain ⟨h1, h2⟩ := hc.accumulate y hy r hr
  refine ⟨by rw [e, fold_length, hy r hr], fun i hi => ?_⟩
  have h3 := h2 i hi
  dsimp only at h3
  rw [← h3, e]
  unfold callResult
  rw [fold_accumulate _ _ _ _ _ _ (by rw [hy r hr]; exact hi), fold_accumulate _ _ _ _ _ _ (by rw [hy r hr]; exact hi)]
  congr 1
  exact (horder.map _).sum_eq

/-- Sum of the local products. -/
theorem total_mulVec [CommSemiring K] {P : Nat} {ov : Nat → Manager} {gid : Nat → Nat → Nat} (G : Nat)
    (hG : ∀ s j, s < P → j < (ov s).n → gid s j < G) (a : Nat → Nat → Nat → K) (x y : Nat → List K) (xg : Nat → K)
    (hx : ∀ s j, s < P → j < (ov s).n → (x s).getD j 0 = xg (gid s j))
    (hy : ∀ s i, s < P → i < (ov s).n → (y s).getD i 0 = mulVec (ov s).n (a s) (x s) i) (g : Nat) :
    total P ov gid y g = ∑ g' ∈ Finset.range G, assembled P ov gid a g g' * xg g' := by
  unfold total assembled
  simp only [Finset.sum_mul]
  rw [Finset.sum_comm]
  refine Finset.sum_congr rfl fun s hs => ?_
  have hs := Finset.mem_range.1 hs
  rw [Finset.sum_comm]
  refine Finset.sum_congr rfl fun i hi => ?_
  have hi := Finset.mem_range.1 hi
  rw [Finset.sum_comm, hy s i hs hi]
  by_cases hg : gid s i = g
  · rw [if_pos hg]
    unfold mulVec
    refine Finset.sum_congr rfl fun j hj => ?_
    have hj := Finset.mem_range.1 hj
    rw [Finset.sum_eq_single_of_mem (gid s j) (Finset.mem_range.2 (hG s j hs hj)), if_pos ⟨hg, rfl⟩, hx s j hs hj]
    intro g' _ hne
    rw [if_neg fun h => hne h.2.symm, zero_mul]
  · rw [if_neg hg]
    symm
    refine Finset.sum_eq_zero fun j _ => Finset.sum_eq_zero fun g' _ => ?_
    rw [if_neg fun h => hg h.1, zero_mul]

theorem resRow_eq [CommRing K] (A : CSR K) (hA : A.Valid) (z rhs : List K) (i : Nat) (hi : i < A.numRows) :
    resRow A z rhs i = rhs.getD i 0 - mulVec A.numCols A.entry z i := by
  unfold resRow mulVec CSR.entry
  rw [forRow_eq A hA i hi, foldl_sub]
  rw [sum_row_eq _ _ (row_cols A hA i) fun j => z.getD j 0]

theorem total_sub [AddCommGroup K] {P : Nat} {ov : Nat → Manager} {gid : Nat → Nat → Nat} (u v y : Nat → List K)
    (h : ∀ s i, s < P → i < (ov s).n → (y s).getD i 0 = (u s).getD i 0 - (v s).getD i 0) (g : Nat) :
    total P ov gid y g = total P ov gid u g - total P ov gid v g := by
  unfold total
  rw [← Finset.sum_sub_distrib]
  refine Finset.sum_congr rfl fun s hs => ?_
  rw [← Finset.sum_sub_distrib]
  refine Finset.sum_congr rfl fun i hi => ?_
  rw [h s i (Finset.mem_range.1 hs) (Finset.mem_range.1 hi)]
  split
  · rfl
  · rw [sub_zero]

end PyNucleus.Distributed
