import Verif.Spec.Block
import Verif.Proof.CSR

/-! # Lemmas for block operators -/

namespace PyNucleus.Block

open PyNucleus.Loops PyNucleus.Spec

variable {K : Type}

theorem offset_succ (f : Nat → Nat) (n : Nat) : offset f (n + 1) = offset f n + f n := Finset.sum_range_succ _ _

theorem offset_mono (f : Nat → Nat) {m n : Nat} (h : m ≤ n) : offset f m ≤ offset f n := by
  induction n with
  | zero => rw [Nat.le_zero.1 h]
  | succ n ih =>
    rcases Nat.lt_or_ge m (n + 1) with h1 | h1
    · rw [offset_succ]; exact Nat.le_trans (ih (by omega)) (Nat.le_add_right _ _)
    · rw [Nat.le_antisymm h h1]

/-- Different blocks do not meet. -/
theorem offset_disjoint (f : Nat → Nat) {i j b : Nat} (hij : j ≠ i) (hb : b < f j) :
    ¬ (offset f i ≤ offset f j + b ∧ offset f j + b < offset f (i + 1)) := by
  rintro ⟨h1, h2⟩
  rcases Nat.lt_or_ge j i with h | h
  · have := offset_mono f (show j + 1 ≤ i from h); rw [offset_succ] at this; omega
  · have := offset_mono f (show i + 1 ≤ j by omega); omega

theorem seg_length (v : List K) (lo hi : Nat) (h : hi ≤ v.length) : (seg v lo hi).length = hi - lo := by
  simp [seg]; omega

theorem seg_getD (v : List K) (lo hi : Nat) (d : K) (k : Nat) (hk : k < hi - lo) : (seg v lo hi).getD k d = v.getD (lo + k) d := by
  unfold seg
  rw [List.getD_eq_getElem?_getD, List.getD_eq_getElem?_getD, List.getElem?_take, if_pos hk, List.getElem?_drop]

theorem setSeg_length (v : List K) (lo : Nat) (w : List K) (h : lo + w.length ≤ v.length) : (setSeg v lo w).length = v.length := by
  simp [setSeg]; omega

theorem setSeg_getD (v : List K) (lo : Nat) (w : List K) (d : K) (h : lo + w.length ≤ v.length) (k : Nat) :
    (setSeg v lo w).getD k d = if lo ≤ k ∧ k < lo + w.length then w.getD (k - lo) d else v.getD k d := by
  unfold setSeg
  simp only [List.getD_eq_getElem?_getD]
  have hl : (List.take lo v).length = lo := by simp; omega
  by_cases h1 : k < lo
  · rw [if_neg (by omega), List.getElem?_append_left (by simp; omega), List.getElem?_append_left (by omega),
      List.getElem?_take, if_pos h1]
  · by_cases h2 : k < lo + w.length
    · rw [if_pos ⟨by omega, h2⟩, List.getElem?_append_left (by simp; omega), List.getElem?_append_right (by omega), hl]
    · rw [if_neg (by omega), List.getElem?_append_right (by simp; omega), List.getElem?_drop]
      congr 2
      simp; omega

/-- Pointwise update of a range. -/
theorem forRange_update [Zero K] (y : List K) (lo hi : Nat) (h : hi ≤ y.length) (g : Nat → K → K) :
    (forRange lo hi y fun y k => y.set k (g k (y.getD k 0))).length = y.length ∧
    ∀ k, (forRange lo hi y fun y k => y.set k (g k (y.getD k 0))).getD k 0 =
      if lo ≤ k ∧ k < hi then g k (y.getD k 0) else y.getD k 0 := by
  rcases Nat.lt_or_ge lo hi with hlt | hge
  · obtain ⟨m, rfl⟩ : ∃ m, hi = lo + m := ⟨hi - lo, by omega⟩
    have key : ∀ m, lo + m ≤ y.length →
        (forRange lo (lo + m) y fun y k => y.set k (g k (y.getD k 0))).length = y.length ∧
        ∀ k, (forRange lo (lo + m) y fun y k => y.set k (g k (y.getD k 0))).getD k 0 =
          if lo ≤ k ∧ k < lo + m then g k (y.getD k 0) else y.getD k 0 := by
      intro m
      induction m with
      | zero =>
        intro _
        simp only [Nat.add_zero, forRange, Nat.sub_self, List.range'_zero, List.foldl_nil, true_and]
        intro k; rw [if_neg (by omega)]
      | succ m ih =>
        intro hm
        obtain ⟨i1, i2⟩ := ih (by omega)
        have e : (forRange lo (lo + (m + 1)) y fun y k => y.set k (g k (y.getD k 0))) =
            (fun (y : List K) k => y.set k (g k (y.getD k 0))) (forRange lo (lo + m) y fun y k => y.set k (g k (y.getD k 0))) (lo + m) := by
          unfold forRange
          rw [show lo + (m + 1) - lo = m + 1 by omega, show lo + m - lo = m by omega, List.range'_concat, List.foldl_append]
          simp
        rw [e]
        beta_reduce
        refine ⟨by rw [List.length_set, i1], fun k => ?_⟩
        rw [getD_set, i1, i2, i2, if_neg (show ¬ (lo ≤ lo + m ∧ lo + m < lo + m) by omega)]
        by_cases hk : k = lo + m
        · subst hk
          rw [if_pos ⟨rfl, by omega⟩, if_pos ⟨by omega, by omega⟩]
        · rw [if_neg (fun hh => hk (by omega))]
          by_cases h2 : lo ≤ k ∧ k < lo + m
          · rw [if_pos h2, if_pos ⟨h2.1, by omega⟩]
          · rw [if_neg h2, if_neg (by omega)]
    exact key m h
  · have : (forRange lo hi y fun y k => y.set k (g k (y.getD k 0))) = y := by
      unfold forRange; rw [Nat.sub_eq_zero_of_le hge]; rfl
    rw [this]
    exact ⟨rfl, fun k => by rw [if_neg (by omega)]⟩

/-- Well formed block operator. -/
structure Wf (A : BlockOp K) (nb nc : Nat) (r c : Nat → Nat) : Prop where
  rect : Rect A.blocks nb nc r c
  lo : ∀ i, i ≤ nb → A.lo i = offset r i
  ro : ∀ j, j ≤ nc → A.ro j = offset c j

section
variable [Semiring K] {A : BlockOp K} {nb nc : Nat} {r c : Nat → Nat} {M : Nat → Nat → Nat → Nat → K}

theorem apply_term (w : Wf A nb nc r c) (B : Blk K) (i j : Nat) (hi : i < nb) (hj : j < nc) (hr : B.rows = r i) (hc : B.cols = c j)
    (Mb : Nat → Nat → K) (hB : B.Is Mb) (src dst : List K) (hs : offset c (j + 1) ≤ src.length) (hd : offset r (i + 1) ≤ dst.length) :
    (B.apply (seg src (A.ro j) (A.ro (j + 1))) (seg dst (A.lo i) (A.lo (i + 1)))).length = r i ∧
    ∀ a, a < r i → (B.apply (seg src (A.ro j) (A.ro (j + 1))) (seg dst (A.lo i) (A.lo (i + 1)))).getD a 0 =
      ∑ b ∈ Finset.range (c j), Mb a b * src.getD (offset c j + b) 0 := by
  rw [w.ro j (by omega), w.ro (j + 1) (by omega), w.lo i (by omega), w.lo (i + 1) (by omega)]
  have e := hB (seg src (offset c j) (offset c (j + 1))) (seg dst (offset r i) (offset r (i + 1)))
    (by rw [seg_length _ _ _ hs, offset_succ, hc]; omega) (by rw [seg_length _ _ _ hd, offset_succ, hr]; omega)
  rw [hr] at e
  refine ⟨e.1, fun a ha => ?_⟩
  rw [e.2 a ha, hc]
  refine Finset.sum_congr rfl fun b hb => ?_
  rw [seg_getD _ _ _ _ _ (by have := Finset.mem_range.1 hb; rw [offset_succ]; omega)]

/-- One block is added. -/
theorem addBlock_ok (w : Wf A nb nc r c) (i j : Nat) (hi : i < nb) (hj : j < nc) (hB : (A.blk i j).Is (M i j))
    (src : List K) (s : List K × List K) (hs : offset c (j + 1) ≤ src.length) (h1 : s.1.length = offset r nb)
    (h2 : s.2.length = offset r nb) :
    (addBlock A i j src s).1.length = offset r nb ∧ (addBlock A i j src s).2.length = offset r nb ∧
    ∀ k, (addBlock A i j src s).1.getD k 0 = if offset r i ≤ k ∧ k < offset r (i + 1)
      then s.1.getD k 0 + blockTerm c M src i j (k - offset r i) else s.1.getD k 0 := by
  have hle := offset_mono r (show i + 1 ≤ nb from hi)
  have hsu := offset_succ r i
  have e := apply_term w (A.blk i j) i j hi hj (w.rect.height i j hi hj) (w.rect.width i j hi hj) (M i j) hB src s.2 hs (by omega)
  unfold addBlock
  simp only
  generalize ((A.blk i j).apply (seg src (A.ro j) (A.ro (j + 1))) (seg s.2 (A.lo i) (A.lo (i + 1)))) = v at e ⊢
  rw [w.lo i (by omega), w.lo (i + 1) (by omega)]
  have hv : offset r i + v.length ≤ s.2.length := by rw [e.1, h2]; omega
  have u := forRange_update s.1 (offset r i) (offset r (i + 1)) (by omega) fun k o => o + (setSeg s.2 (offset r i) v).getD k 0
  refine ⟨u.1.trans h1, by rw [setSeg_length _ _ _ hv, h2], fun k => (u.2 k).trans ?_⟩
  by_cases hk : offset r i ≤ k ∧ k < offset r (i + 1)
  · rw [if_pos hk, if_pos hk, setSeg_getD _ _ _ _ hv, if_pos ⟨hk.1, by rw [e.1]; omega⟩, e.2 _ (by omega)]
    rfl
  · rw [if_neg hk, if_neg hk]

/-- Several blocks are added, read from `src s` that does not depend on block row `i` of the output. -/
theorem addBlocks_ok (w : Wf A nb nc r c) (i : Nat) (hi : i < nb) (hB : ∀ j, j < nc → (A.blk i j).Is (M i j))
    (src : List K × List K → List K) (u y : List K) (temp : List K) (hy : y.length = offset r nb) (ht : temp.length = offset r nb)
    (hsrc : ∀ s : List K × List K, s.1.length = offset r nb →
      (∀ k, ¬ (offset r i ≤ k ∧ k < offset r (i + 1)) → s.1.getD k 0 = y.getD k 0) → offset c nc ≤ (src s).length ∧
      ∀ j, j < nc → j ≠ i ∨ (src = fun _ => u) → ∀ b, b < c j → (src s).getD (offset c j + b) 0 = u.getD (offset c j + b) 0)
    (deps : List Nat) (hdeps : ∀ j ∈ deps, j < nc ∧ (j ≠ i ∨ (src = fun _ => u))) :
    ∀ s, s = deps.foldl (fun s j => addBlock A i j (src s) s) (y, temp) →
    s.1.length = offset r nb ∧ s.2.length = offset r nb ∧
    ∀ k, s.1.getD k 0 = if offset r i ≤ k ∧ k < offset r (i + 1)
      then y.getD k 0 + (deps.map fun j => blockTerm c M u i j (k - offset r i)).sum else y.getD k 0 := by
  induction deps using List.reverseRecOn with
  | nil =>
    intro s hs; subst hs
    refine ⟨hy, ht, fun k => ?_⟩
    simp
  | append_singleton ds j ih =>
    intro s hs
    rw [List.foldl_append] at hs
    obtain ⟨i1, i2, i3⟩ := ih (fun j hj => hdeps j (by simp [hj])) _ rfl
    generalize (ds.foldl (fun s j => addBlock A i j (src s) s) (y, temp)) = t at i1 i2 i3 hs
    simp only [List.foldl_cons, List.foldl_nil] at hs
    subst hs
    obtain ⟨hj, hji⟩ := hdeps j (by simp)
    obtain ⟨c1, c2⟩ := hsrc t i1 fun k hk => by rw [i3, if_neg hk]
    have e := addBlock_ok w i j hi hj (hB j hj) (src t) t
      (Nat.le_trans (offset_mono c (show j + 1 ≤ nc from hj)) c1) i1 i2
    refine ⟨e.1, e.2.1, fun k => ?_⟩
    rw [e.2.2 k]
    by_cases hk : offset r i ≤ k ∧ k < offset r (i + 1)
    · rw [if_pos hk, if_pos hk, i3, if_pos hk, List.map_append, List.sum_append]
      simp only [List.map_cons, List.map_nil, List.sum_cons, List.sum_nil, add_zero]
      rw [add_assoc]
      congr 2
      exact Finset.sum_congr rfl fun b hb => by rw [c2 j hj hji b (Finset.mem_range.1 hb)]
    · rw [if_neg hk, if_neg hk, i3, if_neg hk]

theorem sum_range' (f : Nat → K) (s n : Nat) : ((List.range' s n).map f).sum = ∑ k ∈ Finset.range n, f (s + k) := by
  induction n with
  | zero => simp
  | succ n ih => rw [List.range'_concat, List.map_append, List.sum_append, ih, Finset.sum_range_succ]; simp

theorem sum_range (f : Nat → K) (n : Nat) : ((List.range n).map f).sum = ∑ k ∈ Finset.range n, f k := by
  rw [List.range_eq_range', sum_range']; simp

/-- One row of `matvec`. -/
theorem matvec_row (w : Wf A nb nc r c) (i : Nat) (hi : i < nb) (hB : ∀ j, j < nc → (A.blk i j).Is (M i j))
    (x y temp : List K) (hx : x.length = offset c nc) (hy : y.length = offset r nb) (ht : temp.length = offset r nb) :
    ∀ s, s = (List.range' 1 (nc - 1)).foldl (fun s j => addBlock A i j x s)
      (setSeg y (A.lo i) ((A.blk i 0).apply (seg x (A.ro 0) (A.ro 1)) (seg y (A.lo i) (A.lo (i + 1)))), temp) →
    s.1.length = offset r nb ∧ s.2.length = offset r nb ∧
    ∀ k, s.1.getD k 0 = if offset r i ≤ k ∧ k < offset r (i + 1)
      then ∑ j ∈ Finset.range nc, blockTerm c M x i j (k - offset r i) else y.getD k 0 := by
  have hnc := w.rect.posCols
  have hle := offset_mono r (show i + 1 ≤ nb from hi)
  have hsu := offset_succ r i
  have e := apply_term w (A.blk i 0) i 0 hi hnc (w.rect.height i 0 hi hnc) (w.rect.width i 0 hi hnc) (M i 0) (hB 0 hnc) x y
    (by rw [hx]; exact offset_mono c hnc) (by omega)
  generalize ((A.blk i 0).apply (seg x (A.ro 0) (A.ro (0 + 1))) (seg y (A.lo i) (A.lo (i + 1)))) = v at e ⊢
  rw [w.lo i (by omega)]
  have hv : offset r i + v.length ≤ y.length := by rw [e.1, hy]; omega
  intro s hs
  obtain ⟨i1, i2, i3⟩ := addBlocks_ok w i hi hB (fun _ => x) x (setSeg y (offset r i) v) temp
    (by rw [setSeg_length _ _ _ hv, hy]) ht (fun _ _ _ => ⟨by rw [hx], fun _ _ _ _ _ => rfl⟩) (List.range' 1 (nc - 1))
    (fun j hj => ⟨by rw [List.mem_range'_1] at hj; omega, Or.inr rfl⟩) s hs
  refine ⟨i1, i2, fun k => ?_⟩
  rw [i3]
  by_cases hk : offset r i ≤ k ∧ k < offset r (i + 1)
  · rw [if_pos hk, if_pos hk, setSeg_getD _ _ _ _ hv, if_pos ⟨hk.1, by rw [e.1]; omega⟩, e.2 _ (by omega), sum_range']
    obtain ⟨m, rfl⟩ : ∃ m, nc = m + 1 := ⟨nc - 1, by omega⟩
    rw [Finset.sum_range_succ', add_comm]
    congr 1
    exact Finset.sum_congr rfl fun j _ => by rw [Nat.add_comm]
  · rw [if_neg hk, if_neg hk, setSeg_getD _ _ _ _ hv, if_neg (by rw [e.1]; omega)]

theorem matvec_ok (w : Wf A nb nc r c) (hB : ∀ i j, i < nb → j < nc → (A.blk i j).Is (M i j))
    (x y temp : List K) (hx : x.length = offset c nc) (hy : y.length = offset r nb) (ht : temp.length = offset r nb) :
    (matvec A x y temp).1.length = offset r nb ∧ (matvec A x y temp).2.length = offset r nb ∧
    ∀ i a, i < nb → a < r i → (matvec A x y temp).1.getD (offset r i + a) 0 = ∑ j ∈ Finset.range nc, blockTerm c M x i j a := by
  have hfirst : (A.blocks.getD 0 []).length = nc := by
    have : 0 < A.blocks.length := by rw [w.rect.rows]; exact w.rect.posRows
    rw [List.getD_eq_getElem?_getD, List.getElem?_eq_getElem this]
    exact w.rect.cols _ (List.getElem_mem _)
  unfold matvec
  simp only [hfirst, w.rect.rows]
  have hz := forRange_update y 0 y.length (Nat.le_refl _) fun _ _ => (0 : K)
  generalize (forRange 0 y.length y fun y k => y.set k 0) = y0 at hz ⊢
  have hy0 : y0.length = offset r nb := hz.1.trans hy
  have key : ∀ m, m ≤ nb → ∀ s, s = (List.range m).foldl (fun s i =>
      let y := setSeg s.1 (A.lo i) ((A.blk i 0).apply (seg x (A.ro 0) (A.ro 1)) (seg s.1 (A.lo i) (A.lo (i + 1))))
      (List.range' 1 (nc - 1)).foldl (fun s j => addBlock A i j x s) (y, s.2)) (y0, temp) →
      s.1.length = offset r nb ∧ s.2.length = offset r nb ∧
      ∀ i a, i < m → a < r i → s.1.getD (offset r i + a) 0 = ∑ j ∈ Finset.range nc, blockTerm c M x i j a := by
    intro m
    induction m with
    | zero => intro _ s hs; subst hs; exact ⟨hy0, ht, fun i a hi => absurd hi (by omega)⟩
    | succ m ih =>
      intro hm s hs
      rw [List.range_succ, List.foldl_append] at hs
      obtain ⟨i1, i2, i3⟩ := ih (by omega) _ rfl
      generalize (List.foldl _ (y0, temp) (List.range m)) = t at i1 i2 i3 hs
      simp only [List.foldl_cons, List.foldl_nil] at hs
      obtain ⟨j1, j2, j3⟩ := matvec_row w m (by omega) (fun j hj => hB m j (by omega) hj) x t.1 t.2 hx i1 i2 s hs
      refine ⟨j1, j2, fun i a hi ha => ?_⟩
      rw [j3]
      by_cases him : i = m
      · subst him
        rw [if_pos ⟨by omega, by rw [offset_succ]; omega⟩, Nat.add_sub_cancel_left]
      · rw [if_neg (offset_disjoint r him ha), i3 i a (by omega) ha]
  exact key nb (Nat.le_refl _) _ rfl

end

section
variable [Ring K] {A : BlockOp K} {nb : Nat} {r : Nat → Nat} {M : Nat → Nat → Nat → Nat → K}

/-- One row of a triangular solve. -/
theorem solveRow_ok (w : Wf A nb nb r r) (i : Nat) (hi : i < nb) (hB : ∀ j, j < nb → (A.blk i j).Is (M i j))
    (dinv : List (Blk K)) (hr : (dinv.getD i default).rows = r i) (hD : (dinv.getD i default).Solves (M i i))
    (x y temp : List K) (hy : y.length = offset r nb) (ht : temp.length = offset r nb)
    (hy0 : ∀ a, a < r i → y.getD (offset r i + a) 0 = 0)
    (deps : List Nat) (hdeps : ∀ j ∈ deps, j < nb ∧ j ≠ i) :
    (solveRow A dinv x deps i (y, temp)).1.length = offset r nb ∧ (solveRow A dinv x deps i (y, temp)).2.length = offset r nb ∧
    (∀ k, ¬ (offset r i ≤ k ∧ k < offset r (i + 1)) → (solveRow A dinv x deps i (y, temp)).1.getD k 0 = y.getD k 0) ∧
    ∀ a, a < r i → (deps.map fun j => blockTerm r M y i j a).sum +
      blockTerm r M (solveRow A dinv x deps i (y, temp)).1 i i a = x.getD (offset r i + a) 0 := by
  have hle := offset_mono r (show i + 1 ≤ nb from hi)
  have hsu := offset_succ r i
  obtain ⟨i1, i2, i3⟩ := addBlocks_ok w i hi hB (fun s => s.1) y y temp hy ht
    (fun s hs he => ⟨by rw [hs], fun j _ hji b hb => by
      by_cases hj : j = i
      · rcases hji with h | h
        · exact absurd hj h
        · rw [congrFun h s]
      · exact he _ (offset_disjoint r hj hb)⟩) deps
    (fun j hj => ⟨(hdeps j hj).1, Or.inl (hdeps j hj).2⟩) _ rfl
  unfold solveRow
  generalize (deps.foldl (fun s j => addBlock A i j s.1 s) (y, temp)) = t at i1 i2 i3 ⊢
  simp only
  rw [w.lo i (by omega), w.lo (i + 1) (by omega), w.ro i (by omega), w.ro (i + 1) (by omega)]
  have u := forRange_update t.2 (offset r i) (offset r (i + 1)) (by omega) fun k _ => x.getD k 0 - t.1.getD k 0
  generalize (forRange (offset r i) (offset r (i + 1)) t.2 fun t' k => t'.set k (x.getD k 0 - t.1.getD k 0)) = tm at u ⊢
  have htm : tm.length = offset r nb := u.1.trans i2
  have e := hD.2 (seg tm (offset r i) (offset r (i + 1))) (seg t.1 (offset r i) (offset r (i + 1)))
    (by rw [seg_length _ _ _ (by omega), ← hD.1, hr]; omega) (by rw [seg_length _ _ _ (by omega), hr]; omega)
  rw [hr] at e
  generalize ((dinv.getD i default).apply (seg tm (offset r i) (offset r (i + 1))) (seg t.1 (offset r i) (offset r (i + 1)))) = v at e ⊢
  have hv : offset r i + v.length ≤ t.1.length := by rw [e.1, i1]; omega
  refine ⟨by rw [setSeg_length _ _ _ hv, i1], htm, fun k hk => ?_, fun a ha => ?_⟩
  · rw [setSeg_getD _ _ _ _ hv, if_neg (by rw [e.1]; omega), i3, if_neg hk]
  · have hb : blockTerm r M (setSeg t.1 (offset r i) v) i i a = mulVec (r i) (M i i) v a :=
      Finset.sum_congr rfl fun b hb => by
        have := Finset.mem_range.1 hb
        rw [setSeg_getD _ _ _ _ hv, if_pos ⟨by omega, by rw [e.1]; omega⟩, Nat.add_sub_cancel_left]
    rw [hb, e.2 a ha, seg_getD _ _ _ _ _ (by omega)]
    have := u.2 (offset r i + a)
    rw [if_pos ⟨by omega, by omega⟩] at this
    rw [this, i3, if_pos ⟨by omega, by omega⟩, hy0 a ha, Nat.add_sub_cancel_left]
    simp

/-- A triangular solve over any order in which every row only uses earlier ones. -/
theorem solve_ok (w : Wf A nb nb r r) (hB : ∀ i j, i < nb → j < nb → (A.blk i j).Is (M i j)) (dinv : List (Blk K))
    (hr : ∀ i, i < nb → (dinv.getD i default).rows = r i) (hD : ∀ i, i < nb → (dinv.getD i default).Solves (M i i))
    (x y temp : List K) (hy : y.length = offset r nb) (ht : temp.length = offset r nb) (hy0 : ∀ k, y.getD k 0 = 0)
    (deps : Nat → List Nat) (order : List Nat) (hn : order.Nodup) (ho : ∀ i ∈ order, i < nb)
    (hdeps : ∀ l i l', order = l ++ i :: l' → ∀ j ∈ deps i, j ∈ l) :
    ∀ s, s = order.foldl (fun s i => solveRow A dinv x (deps i) i s) (y, temp) →
    s.1.length = offset r nb ∧ s.2.length = offset r nb ∧
    (∀ i, i < nb → i ∉ order → ∀ a, a < r i → s.1.getD (offset r i + a) 0 = 0) ∧
    ∀ i ∈ order, ∀ a, a < r i → ((deps i).map fun j => blockTerm r M s.1 i j a).sum + blockTerm r M s.1 i i a
      = x.getD (offset r i + a) 0 := by
  induction order using List.reverseRecOn with
  | nil =>
    intro s hs; subst hs
    exact ⟨hy, ht, fun i _ _ a _ => hy0 _, fun i hi => absurd hi (by simp)⟩
  | append_singleton l i ih =>
    intro s hs
    rw [List.foldl_append] at hs
    rw [List.nodup_append] at hn
    obtain ⟨hnl, _, hni⟩ := hn
    have hil : i ∉ l := fun h => hni i h i (by simp) rfl
    obtain ⟨i1, i2, i3, i4⟩ := ih hnl (fun j hj => ho j (by simp [hj]))
      (fun a b d hab => hdeps a b (d ++ [i]) (by rw [hab]; simp)) _ rfl
    generalize (l.foldl (fun s i => solveRow A dinv x (deps i) i s) (y, temp)) = t at i1 i2 i3 i4 hs
    simp only [List.foldl_cons, List.foldl_nil] at hs
    have hi : i < nb := ho i (by simp)
    have hdi : ∀ j ∈ deps i, j ∈ l := hdeps l i [] rfl
    have e := solveRow_ok w i hi (fun j hj => hB i j hi hj) dinv (hr i hi) (hD i hi) x t.1 t.2 i1 i2 (i3 i hi hil) (deps i)
      fun j hj => ⟨ho j (by simp [hdi j hj]), fun h => hil (h ▸ hdi j hj)⟩
    rw [show (t.1, t.2) = t from rfl, ← hs] at e
    -- terms of other blocks do not change
    have hsame : ∀ i' j, j ≠ i → ∀ a, blockTerm r M s.1 i' j a = blockTerm r M t.1 i' j a := fun i' j hj a =>
      Finset.sum_congr rfl fun b hb => by rw [e.2.2.1 _ (offset_disjoint r hj (Finset.mem_range.1 hb))]
    have hsum : ∀ i', (∀ j ∈ deps i', j ∈ l) → ∀ a, ((deps i').map fun j => blockTerm r M s.1 i' j a) =
        (deps i').map fun j => blockTerm r M t.1 i' j a := fun i' hd a =>
      List.map_congr_left fun j hj => hsame i' j (fun h => hil (h ▸ hd j hj)) a
    refine ⟨e.1, e.2.1, fun i' hi' hn' a ha => ?_, fun i' hi' a ha => ?_⟩
    · simp only [List.mem_append, List.mem_singleton, not_or] at hn'
      rw [e.2.2.1 _ (offset_disjoint r hn'.2 ha), i3 i' hi' hn'.1 a ha]
    · rcases List.mem_append.1 hi' with h | h
      · have hne : i' ≠ i := fun he => hil (he ▸ h)
        obtain ⟨l1, l2, hl⟩ := List.append_of_mem h
        have hd : ∀ j ∈ deps i', j ∈ l := fun j hj => by
          rw [hl]; exact List.mem_append_left _ (hdeps l1 i' (l2 ++ [i]) (by rw [hl]; simp) j hj)
        rw [hsum i' hd a, hsame i' i' hne a]
        exact i4 i' h a ha
      · rw [List.mem_singleton] at h
        subst h
        rw [hsum i' hdi a]
        exact e.2.2.2 a ha

end

/-! ### The constructor -/

theorem init_row_ok (blocks : List (List (Blk K))) (nb nc : Nat) (r c : Nat → Nat) (h : Rect blocks nb nc r c) (i : Nat) (hi : i < nb)
    (left right : List Nat) (hl : left.length = nb + 1) (hr : right.length = nc + 1) (M : Option Nat) (hM : ∀ m, M = some m → m = offset c nc)
    (hleft : ∀ k, k ≤ i → left.getD k 0 = offset r k) :
    ∃ left' right', initRow blocks nc i (left, right, M) = some (left', right', some (offset c nc)) ∧
      left'.length = nb + 1 ∧ right'.length = nc + 1 ∧ (∀ k, k ≤ i + 1 → left'.getD k 0 = offset r k) ∧
      ∀ j, j ≤ nc → right'.getD j 0 = offset c j := by
  have hrow : (blocks.getD i []).length = nc := by
    have : i < blocks.length := by rw [h.rows]; exact hi
    rw [List.getD_eq_getElem?_getD, List.getElem?_eq_getElem this]
    exact h.cols _ (List.getElem_mem _)
  have key : ∀ m, m ≤ nc → ∀ q, q = (forRange 0 m (right.set 0 0, 0) fun q j =>
        (q.1.set (j + 1) (q.1.getD j 0 + ((blocks.getD i []).getD j default).cols), q.2 + ((blocks.getD i []).getD j default).cols)) →
      q.1.length = nc + 1 ∧ q.2 = offset c m ∧ ∀ j, j ≤ m → q.1.getD j 0 = offset c j := by
    intro m
    induction m with
    | zero =>
      intro _ q hq
      replace hq : q = (right.set 0 0, 0) := hq
      subst hq
      refine ⟨by simp [hr], rfl, fun j hj => ?_⟩
      rw [Nat.le_zero.1 hj, getD_set, if_pos ⟨rfl, by omega⟩]
      rfl
    | succ m ih =>
      intro hm q hq
      rw [forRange_succ] at hq
      obtain ⟨i1, i2, i3⟩ := ih (by omega) _ rfl
      generalize (forRange 0 m (right.set 0 0, 0) fun (q : List Nat × Nat) j =>
        (q.1.set (j + 1) (q.1.getD j 0 + ((blocks.getD i []).getD j default).cols), q.2 + ((blocks.getD i []).getD j default).cols)) = t at i1 i2 i3 hq
      subst hq
      have hw := h.width i m hi (by omega)
      refine ⟨by simp [i1], by simp only [i2, hw, offset_succ], fun j hj => ?_⟩
      rw [getD_set]
      by_cases hjm : j = m + 1
      · rw [if_pos ⟨hjm.symm, by omega⟩, i3 m (Nat.le_refl _), hw, hjm, offset_succ]
      · rw [if_neg (fun hh => hjm hh.1.symm), i3 j (by omega)]
  obtain ⟨k1, k2, k3⟩ := key nc (Nat.le_refl _) _ rfl
  unfold initRow
  simp only [hrow, if_true]
  generalize (forRange 0 nc (right.set 0 0, 0) fun (q : List Nat × Nat) j =>
        (q.1.set (j + 1) (q.1.getD j 0 + ((blocks.getD i []).getD j default).cols), q.2 + ((blocks.getD i []).getD j default).cols)) = q at k1 k2 k3 ⊢
  have hL : ∀ k, k ≤ i + 1 → (left.set (i + 1) (left.getD i 0 + ((blocks.getD i []).getD 0 default).rows)).getD k 0 = offset r k := by
    intro k hk
    rw [getD_set]
    by_cases hki : k = i + 1
    · rw [if_pos ⟨hki.symm, by omega⟩, hleft i (Nat.le_refl _), h.height i 0 hi h.posCols, hki, offset_succ]
    · rw [if_neg (fun hh => hki hh.1.symm), hleft k (by omega)]
  cases M with
  | none => exact ⟨_, _, by rw [k2], by simp [hl], k1, hL, k3⟩
  | some m =>
    have := hM m rfl
    exact ⟨_, _, by simp only [k2, this, if_true], by simp [hl], k1, hL, k3⟩

theorem init_ok (blocks : List (List (Blk K))) (nb nc : Nat) (r c : Nat → Nat) (h : Rect blocks nb nc r c) :
    ∃ A, init blocks = some A ∧ A.blocks = blocks ∧ Wf A nb nc r c := by
  have hfirst : (blocks.getD 0 []).length = nc := by
    have : 0 < blocks.length := by rw [h.rows]; exact h.posRows
    rw [List.getD_eq_getElem?_getD, List.getElem?_eq_getElem this]
    exact h.cols _ (List.getElem_mem _)
  have key : ∀ m, m ≤ nb → ∃ left right M, (List.range m).foldlM (fun s i => initRow blocks nc i s)
      (List.replicate (nb + 1) 0, List.replicate (nc + 1) 0, none) = some (left, right, M) ∧
      left.length = nb + 1 ∧ right.length = nc + 1 ∧ (∀ v, M = some v → v = offset c nc) ∧
      (∀ k, k ≤ m → left.getD k 0 = offset r k) ∧ (0 < m → ∀ j, j ≤ nc → right.getD j 0 = offset c j) := by
    intro m
    induction m with
    | zero =>
      intro _
      refine ⟨_, _, _, rfl, by simp, by simp, fun v hv => by simp at hv, fun k hk => ?_, fun h0 => absurd h0 (by omega)⟩
      rw [Nat.le_zero.1 hk]; rfl
    | succ m ih =>
      intro hm
      obtain ⟨left, right, M, e, e1, e2, e3, e4, _⟩ := ih (by omega)
      obtain ⟨l', r', e', h1, h2, h3, h4⟩ := init_row_ok blocks nb nc r c h m (by omega) left right e1 e2 M e3 e4
      refine ⟨l', r', some (offset c nc), ?_, h1, h2, fun v hv => ?_, h3, fun _ => h4⟩
      · rw [List.range_succ, List.foldlM_append, e]
        simp only [Option.bind_eq_bind, Option.bind_some, List.foldlM_cons, List.foldlM_nil, e']
        rfl
      · simp only [Option.some.injEq] at hv; exact hv.symm
  obtain ⟨left, right, M, e, _, _, _, e4, e5⟩ := key nb (Nat.le_refl _)
  refine ⟨⟨blocks, left, right⟩, ?_, rfl, h, fun i hi => e4 i hi, fun j hj => e5 h.posRows j hj⟩
  unfold init
  simp only [hfirst, h.rows, e, Option.bind_eq_bind, Option.bind_some]

end PyNucleus.Block
