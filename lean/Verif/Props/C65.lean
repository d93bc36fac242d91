import Verif.Proof.SubSimplices3
import Verif.Props.C64
import Mathlib.Analysis.Real.Sqrt
import Mathlib.Tactic.NormNum

/-! C65: the parts into which simplices that are cut by an interaction ball are divided. -/

namespace PyNucleus.Props.C65

open PyNucleus.Interaction

variable {K : Type} [Field K] [LinearOrder K] [IsStrictOrderedRing K]

example : IsSqrt Real.sqrt := fun a ha => ⟨Real.sqrt_nonneg a, Real.sq_sqrt ha⟩

/-- The parts of a list contain the point with barycentric coordinates `w`. -/
def Covers (n : Nat) (l : List (Nat → Nat → K)) (w : Nat → K) : Prop :=
  ∃ M ∈ l, ∃ u, Weights n u ∧ ∀ i, i < n → w i = image n M u i

/-- The parts of the inner loop: coordinates of their vertices. -/
def parts (l : List (Interaction.Sub K)) : List (Nat → Nat → K) := l.map fun e => e.A

/-- The parts of the outer loop: coordinates of their vertices. -/
def partsAff (l : List (SubAff K)) : List (Nat → Nat → K) := l.map fun e i j => e.A i j + e.b i

/-- The values found on an edge are the parameters of its points on the sphere, at most two and in increasing order. -/
theorem intersections (sqrt : K → K) (hs : IsSqrt sqrt) (dim : Nat) (h2 : K) (x : Nat → K) (s : Nat → Nat → K) (a b : Nat)
    (hn : 0 < euclid2 dim (s b) (s a)) :
    (∀ c, c ∈ cross2 sqrt dim h2 x s a b ↔ 0 ≤ c ∧ c ≤ 1 ∧ euclid2 dim x (onSegment s a b c) = h2) ∧
      (cross2 sqrt dim h2 x s a b).length ≤ 2 ∧ (cross2 sqrt dim h2 x s a b).Pairwise (· ≤ ·) :=
  ⟨mem_cross2 sqrt hs dim h2 x s a b hn, cross2_length sqrt hs dim h2 x s a b hn⟩

private theorem crosses (sqrt : K → K) (hs : IsSqrt sqrt) (dim n : Nat) (h2 : K) (x : Nat → K) (s : Nat → Nat → K)
    (hn : ∀ a b, a < n → b < n → a ≠ b → 0 < euclid2 dim (s a) (s b)) : ∀ a b, a < n → b < n →
      isInside .l2 dim h2 x (s a) ≠ isInside .l2 dim h2 x (s b) → cross2 sqrt dim h2 x s a b ≠ [] := by
  intro a b ha hb h
  exact cross2_ne_nil sqrt hs dim h2 x s a b (hn b a hb ha fun e => h (by rw [e])) (inside_ne dim h2 x _ _ h)

private theorem corners (sqrt : K → K) (hs : IsSqrt sqrt) (dim : Nat) (hd : dim = 1 ∨ dim = 2) (h2 : K) (m : K × K) (x : Nat → K) (s : Nat → Nat → K)
    (hn : ∀ a b, a < dim + 1 → b < dim + 1 → a ≠ b → 0 < euclid2 dim (s a) (s b)) :
    ∀ e ∈ subNodes2 sqrt dim h2 m x s, ∀ j, j < dim + 1 →
      Corner (dim + 1) (fun j => isInside .l2 dim h2 x (s j)) (cross2 sqrt dim h2 x s) none (fun k => e.A k j) := by
  have hx := crosses sqrt hs dim (dim + 1) h2 x s hn
  rcases hd with rfl | rfl
  · exact node1_corners m hx
  · exact node2_corners m s hx (by simp)

/-- All points of the parts are points of the simplex and of the ball. -/
theorem inner_inside (sqrt : K → K) (hs : IsSqrt sqrt) (dim : Nat) (hd : dim = 1 ∨ dim = 2) (h2 : K) (m : K × K) (x : Nat → K) (s : Nat → Nat → K)
    (hn : ∀ a b, a < dim + 1 → b < dim + 1 → a ≠ b → 0 < euclid2 dim (s a) (s b)) (w : Nat → K)
    (h : Covers (dim + 1) (parts (subNodes2 sqrt dim h2 m x s)) w) :
    Weights (dim + 1) w ∧ euclid2 dim x (combine (dim + 1) s w) ≤ h2 := by
  obtain ⟨M, hM, u, hu, hw⟩ := h
  obtain ⟨e, he, rfl⟩ := List.mem_map.1 hM
  have hc := corners sqrt hs dim hd h2 m x s hn e he
  have hW := weights_image (dim + 1) e.A u hu fun j hj => corner_weights (fun a b => cross2_01 sqrt hs dim h2 x s a b) (hc j hj)
  have ec : combine (dim + 1) s w = combine (dim + 1) s (image (dim + 1) e.A u) := by
    funext k
    exact Finset.sum_congr rfl fun i hi => by rw [hw i (Finset.mem_range.1 hi)]
  refine ⟨⟨fun i hi => by rw [hw i hi]; exact hW.1 i hi, by
    rw [Finset.sum_congr rfl fun i hi => hw i (Finset.mem_range.1 hi)]; exact hW.2⟩, ?_⟩
  rw [ec, ← dist2_l2, dist2_comm]
  apply dist2_hull .l2 dim (dim + 1) _ _ x h2 (combine_image (dim + 1) s e.A u hu)
  intro i hi
  rw [dist2_comm, dist2_l2]
  exact corner_inside sqrt hs dim (dim + 1) h2 x s hn _ (hc i hi)

/-- The volume of a part relative to the simplex. -/
theorem inner_volume (sqrt : K → K) (hs : IsSqrt sqrt) (dim : Nat) (hd : dim = 1 ∨ dim = 2) (h2 : K) (m : K × K) (x : Nat → K) (s : Nat → Nat → K)
    (hn : ∀ a b, a < dim + 1 → b < dim + 1 → a ≠ b → 0 < euclid2 dim (s a) (s b)) :
    ∀ e ∈ subNodes2 sqrt dim h2 m x s, e.vol = |(Matrix.of fun i j : Fin (dim + 1) => e.A i j).det| := by
  have hx := crosses sqrt hs dim (dim + 1) h2 x s hn
  have h01 := cross2_01 sqrt hs dim h2 x s
  rcases hd with rfl | rfl
  · intro e he
    rw [det_two]
    unfold subNodes2 at he
    dsimp only at he
    unfold node1 at he
    have hr : List.range 2 = [0, 1] := rfl
    have hp := (cross2_length sqrt hs 1 h2 x s 0 1 (hn 1 0 (by omega) (by omega) (by omega))).2
    rcases e0 : isInside .l2 1 h2 x (s 0) with _ | _ <;> rcases e1 : isInside .l2 1 h2 x (s 1) with _ | _ <;>
      simp only [hr, e0, e1, List.filter_cons, List.filter_nil, List.length_nil, List.length_cons, first, List.findIdx_cons, cond_true, cond_false,
        Bool.false_eq_true, if_true, if_false, Nat.zero_add, Nat.reduceAdd, Nat.reduceMod] at he
    · split at he
      · rename_i hl
        simp only [List.mem_singleton] at he
        subst he
        have := store_le m _ hl.ge hp
        rw [show ((⟨_, _⟩ : Interaction.Sub K).vol) = _ from rfl, eq_comm, abs_of_nonneg] <;> simp [entries] <;> linarith
      · simp at he
    · simp only [List.mem_singleton] at he
      subst he
      have := h01 _ _ _ (store_fst m _ (hx 1 0 (by omega) (by omega) (by rw [e0, e1]; simp)))
      simp [entries, abs_of_nonneg this.1]
    · simp only [List.mem_singleton] at he
      subst he
      have := h01 _ _ _ (store_fst m _ (hx 0 1 (by omega) (by omega) (by rw [e0, e1]; simp)))
      simp [entries, abs_of_nonneg this.1]
    · simp only [List.mem_singleton] at he
      subst he
      simp [entries]
  · intro e he
    rw [det_three]
    have hp : ∀ a b, (cross2 sqrt 2 h2 x s a b).Pairwise (· ≤ ·) := fun a b => cross2_sorted sqrt hs 2 h2 x s a b
    have h0 := node2_vol_nonneg m s hx h01 hp e he
    rcases node2_volume m s (by simp) e he with h | h
    · rw [← h, abs_of_nonneg h0]
    · rw [← abs_neg, ← h, abs_of_nonneg h0]

/-- The parts of a triangle do not overlap. -/
theorem inner_disjoint (sqrt : K → K) (hs : IsSqrt sqrt) (h2 : K) (m : K × K) (x : Nat → K) (s : Nat → Nat → K)
    (hn : ∀ a b, a < 3 → b < 3 → a ≠ b → 0 < euclid2 2 (s a) (s b)) :
    (subNodes2 sqrt 2 h2 m x s).Pairwise fun e e' => e.vol ≠ 0 → e'.vol ≠ 0 → Apart 3 e.A e'.A :=
  node2_apart m s (crosses sqrt hs 2 3 h2 x s hn) (cross2_01 sqrt hs 2 h2 x s) (cross2_sorted sqrt hs 2 h2 x s)

/-- If all vertices are in the ball there is one part, the simplex. -/
theorem inner_whole (sqrt : K → K) (dim : Nat) (hd : dim = 1 ∨ dim = 2) (h2 : K) (m : K × K) (x : Nat → K) (s : Nat → Nat → K)
    (h : ∀ i, i < dim + 1 → euclid2 dim x (s i) ≤ h2) :
    ∃ e, subNodes2 sqrt dim h2 m x s = [e] ∧ e.vol = 1 ∧ ∀ i j, i < dim + 1 → j < dim + 1 → e.A i j = if i = j then 1 else 0 := by
  have hi : ∀ i, i < dim + 1 → isInside .l2 dim h2 x (s i) = true := fun i hi => by simp [isInside, dist2_l2, h i hi]
  rcases hd with rfl | rfl
  · refine ⟨⟨entries [(0, 0, 1), (1, 1, 1)], 1⟩, ?_, rfl, ?_⟩
    · have hr : List.range 2 = [0, 1] := rfl
      simp [subNodes2, node1, hr, hi 0, hi 1]
    · intro i j hi hj
      have : (i = 0 ∨ i = 1) ∧ (j = 0 ∨ j = 1) := by omega
      rcases this with ⟨rfl | rfl, rfl | rfl⟩ <;> simp [entries]
  · refine ⟨⟨entries [(0, 0, 1), (1, 1, 1), (2, 2, 1)], 1⟩, ?_, rfl, ?_⟩
    · have hr : List.range 3 = [0, 1, 2] := rfl
      simp [subNodes2, node2, hr, hi 0, hi 1, hi 2]
    · intro i j hi hj
      have : (i = 0 ∨ i = 1 ∨ i = 2) ∧ (j = 0 ∨ j = 1 ∨ j = 2) := by omega
      rcases this with ⟨rfl | rfl | rfl, rfl | rfl | rfl⟩ <;> simp [entries]

private theorem image2 (A : Nat → Nat → K) (u : Nat → K) (i : Nat) : image 2 A u i = A i 0 * u 0 + A i 1 * u 1 := by
  simp [image, Finset.sum_range_succ]

/-- Points of a part of an interval given by the coordinates `l` and `r` of its ends. -/
private theorem covers_interval (M : Nat → Nat → K) (l r : K) (hlr : l ≤ r) (h00 : M 0 0 = 1 - l) (h10 : M 1 0 = l) (h01 : M 0 1 = 1 - r) (h11 : M 1 1 = r)
    (w : Nat → K) (hw : w 0 + w 1 = 1) : (∃ u, Weights 2 u ∧ ∀ i, i < 2 → w i = image 2 M u i) ↔ l ≤ w 1 ∧ w 1 ≤ r := by
  constructor
  · rintro ⟨u, ⟨hu, hsum⟩, he⟩
    have e1 := he 1 (by omega)
    rw [image2, h10, h11] at e1
    have hs : u 0 + u 1 = 1 := by simpa [Finset.sum_range_succ] using hsum
    have g0 := hu 0 (by omega)
    have g1 := hu 1 (by omega)
    have : u 0 = 1 - u 1 := by linarith
    rw [this] at e1 g0
    constructor
    · rw [e1]; nlinarith [mul_nonneg g1 (sub_nonneg.2 hlr)]
    · rw [e1]; nlinarith [mul_nonneg g0 (sub_nonneg.2 hlr)]
  · rintro ⟨hl, hr⟩
    rcases eq_or_lt_of_le hlr with rfl | hlt
    · have e : w 1 = l := le_antisymm hr hl
      refine ⟨fun i => if i = 0 then 1 else 0, ⟨fun i _ => by dsimp only; split <;> simp, by simp [Finset.sum_range_succ]⟩, ?_⟩
      intro i hi
      have : i = 0 ∨ i = 1 := by omega
      rcases this with rfl | rfl
      · rw [image2, h00, h01]; simp; linarith
      · rw [image2, h10, h11]; simp; linarith
    · have hd : 0 < r - l := sub_pos.2 hlt
      refine ⟨fun i => if i = 0 then (r - w 1) / (r - l) else (w 1 - l) / (r - l), ⟨fun i _ => ?_, ?_⟩, ?_⟩
      · dsimp only
        split
        · exact div_nonneg (sub_nonneg.2 hr) hd.le
        · exact div_nonneg (sub_nonneg.2 hl) hd.le
      · simp only [Finset.sum_range_succ, Finset.range_zero, Finset.sum_empty, if_true, one_ne_zero, if_false, zero_add]
        rw [← add_div, show r - w 1 + (w 1 - l) = r - l by ring, div_self hd.ne']
      · intro i hi
        have : i = 0 ∨ i = 1 := by omega
        rcases this with rfl | rfl
        · rw [image2, h00, h01]
          simp only [if_true, one_ne_zero, if_false]
          rw [show w 0 = 1 - w 1 by linarith]
          field_simp
          ring
        · rw [image2, h10, h11]
          simp only [if_true, one_ne_zero, if_false]
          field_simp
          ring

private theorem combine_two (s : Nat → Nat → K) (w : Nat → K) (hw : w 0 + w 1 = 1) : combine 2 s w = onSegment s 0 1 (w 1) := by
  funext k
  simp only [combine, onSegment, Finset.sum_range_succ, Finset.range_zero, Finset.sum_empty, zero_add]
  rw [show w 0 = 1 - w 1 by linarith]
  ring

private theorem onSegment_turn (s : Nat → Nat → K) (c : K) : onSegment s 1 0 (1 - c) = onSegment s 0 1 c := by
  funext k; simp only [onSegment]; ring

/-- On the line the parts are exactly the intersection of the ball with the interval, provided that no end of the interval is on the sphere; without this
condition it is wrong (`inner_line_fails`). -/
theorem inner_line_partial (sqrt : K → K) (hs : IsSqrt sqrt) (h2 : K) (m : K × K) (x : Nat → K) (s : Nat → Nat → K) (hn : s 0 0 ≠ s 1 0)
    (h0 : euclid2 1 x (s 0) ≠ h2) (h1 : euclid2 1 x (s 1) ≠ h2) (w : Nat → K) (hw : Weights 2 w) :
    Covers 2 (parts (subNodes2 sqrt 1 h2 m x s)) w ↔ euclid2 1 x (combine 2 s w) ≤ h2 := by
  have hsum : w 0 + w 1 = 1 := by simpa [Finset.sum_range_succ] using hw.2
  have w0 := hw.1 0 (by omega)
  have w1 := hw.1 1 (by omega)
  have w1' : w 1 ≤ 1 := by linarith
  have n01 : 0 < euclid2 1 (s 1) (s 0) := by
    have := sub_ne_zero.2 hn.symm
    simp only [euclid2, Finset.range_one, Finset.sum_singleton]; positivity
  have n10 : 0 < euclid2 1 (s 0) (s 1) := by rw [euclid2_pos_comm]; exact n01
  have ea : onSegment s 0 1 0 = s 0 := by funext k; simp [onSegment]
  have eb : onSegment s 0 1 1 = s 1 := by funext k; simp [onSegment]
  rw [combine_two s w hsum]
  have hr : List.range 2 = [0, 1] := rfl
  have in0 : isInside .l2 1 h2 x (s 0) = true ↔ euclid2 1 x (s 0) ≤ h2 := by simp [isInside, dist2_l2]
  have in1 : isInside .l2 1 h2 x (s 1) = true ↔ euclid2 1 x (s 1) ≤ h2 := by simp [isInside, dist2_l2]
  have out : ∀ {b : Bool} {p : Prop}, (b = true ↔ p) → b = false → ¬ p := fun h e hp => by rw [h.2 hp] at e; cases e
  rcases e0 : isInside .l2 1 h2 x (s 0) with _ | _ <;> rcases e1 : isInside .l2 1 h2 x (s 1) with _ | _
  · have f0 := not_le.1 (out in0 e0)
    have f1 := not_le.1 (out in1 e1)
    have hm : subNodes2 sqrt 1 h2 m x s = if (cross2 sqrt 1 h2 x s 0 1).length = 2 then [⟨entries [(0, 0, 1 - (store m (cross2 sqrt 1 h2 x s 0 1)).1),
        (1, 0, (store m (cross2 sqrt 1 h2 x s 0 1)).1), (1, 1, (store m (cross2 sqrt 1 h2 x s 0 1)).2), (0, 1, 1 - (store m (cross2 sqrt 1 h2 x s 0 1)).2)],
        (store m (cross2 sqrt 1 h2 x s 0 1)).2 - (store m (cross2 sqrt 1 h2 x s 0 1)).1⟩] else [] := by
      simp [subNodes2, node1, hr, e0, e1]
    rw [hm]
    rcases cross2_eq sqrt hs 1 h2 x s 0 1 n01 with ⟨hc, hf⟩ | ⟨r, t, hrt, hf, hc⟩
    · rw [hc]
      simp [Covers, parts, hf (w 1)]
    · rw [← ea, ← sub_pos, hf 0] at f0
      rw [← eb, ← sub_pos, hf 1] at f1
      have g0 : 0 < (0 - r) * (0 - t) := (mul_pos_iff_of_pos_left n01).1 f0
      have g1 : 0 < (1 - r) * (1 - t) := (mul_pos_iff_of_pos_left n01).1 f1
      have key : euclid2 1 x (onSegment s 0 1 (w 1)) ≤ h2 ↔ (w 1 - r) * (w 1 - t) ≤ 0 := by
        rw [← sub_nonpos, hf (w 1)]
        constructor
        · intro h; by_contra hh; exact absurd h (not_le.2 (mul_pos n01 (not_le.1 hh)))
        · exact fun h => mul_nonpos_of_nonneg_of_nonpos n01.le h
      rw [key]
      by_cases hin : 0 ≤ r ∧ t ≤ 1
      · have r1 : 0 ≤ r ∧ r ≤ 1 := ⟨hin.1, hrt.trans hin.2⟩
        have t1 : 0 ≤ t ∧ t ≤ 1 := ⟨hin.1.trans hrt, hin.2⟩
        have hc' : cross2 sqrt 1 h2 x s 0 1 = [r, t] := by rw [hc, if_pos r1, if_pos t1]; rfl
        rw [hc']
        simp only [List.length_cons, List.length_nil, if_true, Covers, parts, List.map_cons, List.map_nil, List.mem_singleton, exists_eq_left, store]
        rw [covers_interval _ r t hrt (by simp [entries]) (by simp [entries]) (by simp [entries]) (by simp [entries]) w hsum]
        constructor
        · rintro ⟨a, b⟩; exact mul_nonpos_of_nonneg_of_nonpos (sub_nonneg.2 a) (sub_nonpos.2 b)
        · intro h
          constructor
          · by_contra hh; nlinarith [mul_pos (sub_pos.2 (not_le.1 hh)) (sub_pos.2 ((not_le.1 hh).trans_le hrt))]
          · by_contra hh; nlinarith [mul_pos (sub_pos.2 (not_le.1 hh)) (sub_pos.2 (hrt.trans_lt (not_le.1 hh)))]
      · have side : t < 0 ∨ 1 < r := by
          by_contra hcon
          push Not at hcon
          apply hin
          constructor
          · by_contra hh; nlinarith [mul_nonneg hcon.1 (sub_nonneg.2 (not_le.1 hh).le)]
          · by_contra hh; nlinarith [mul_nonneg (sub_nonneg.2 hcon.2) (sub_nonneg.2 (not_le.1 hh).le)]
        have hc' : cross2 sqrt 1 h2 x s 0 1 = [] := by
          rw [hc]
          rcases side with h | h
          · rw [if_neg fun g => absurd g.1 (not_le.2 (hrt.trans_lt h)), if_neg fun g => absurd g.1 (not_le.2 h)]; rfl
          · rw [if_neg fun g => absurd g.2 (not_le.2 h), if_neg fun g => absurd g.2 (not_le.2 (h.trans_le hrt))]; rfl
        rw [hc']
        have : 0 < (w 1 - r) * (w 1 - t) := by
          rcases side with h | h
          · exact mul_pos (by linarith) (by linarith)
          · exact mul_pos_of_neg_of_neg (by linarith) (by linarith)
        simp [Covers, parts, this]
  · have f0 := not_le.1 (out in0 e0)
    have f1 := lt_of_le_of_ne (in1.1 e1) h1
    have hm : subNodes2 sqrt 1 h2 m x s = [⟨entries [(1, 1, 1), (0, 0, (store m (cross2 sqrt 1 h2 x s 1 0)).1),
        (1, 0, 1 - (store m (cross2 sqrt 1 h2 x s 1 0)).1)], (store m (cross2 sqrt 1 h2 x s 1 0)).1⟩] := by
      simp [subNodes2, node1, hr, e0, e1, first, List.findIdx_cons]
    rw [hm]
    rcases cross2_eq sqrt hs 1 h2 x s 1 0 n10 with ⟨hc, hf⟩ | ⟨r, t, hrt, hf, hc⟩
    · have := hf 0
      rw [show onSegment s 1 0 0 = s 1 by funext k; simp [onSegment]] at this
      exact absurd this (not_lt.2 f1.le)
    · have f1' := f1
      rw [← sub_neg, show s 1 = onSegment s 1 0 0 by funext k; simp [onSegment], hf 0] at f1'
      rw [← sub_pos, show s 0 = onSegment s 1 0 1 by funext k; simp [onSegment], hf 1] at f0
      have g0 : (0 - r) * (0 - t) < 0 := by
        by_contra hh; exact absurd f1' (not_lt.2 (mul_nonneg n10.le (not_lt.1 hh)))
      have g1 : 0 < (1 - r) * (1 - t) := (mul_pos_iff_of_pos_left n10).1 f0
      have r0 : r < 0 := by by_contra hh; nlinarith [mul_nonneg (not_lt.1 hh) ((not_lt.1 hh).trans hrt)]
      have t0 : 0 < t := by by_contra hh; nlinarith
      have t1 : t < 1 := by by_contra hh; nlinarith
      have hc' : cross2 sqrt 1 h2 x s 1 0 = [t] := by
        rw [hc, if_neg fun g => absurd g.1 (not_le.2 r0), if_pos ⟨t0.le, t1.le⟩]; rfl
      rw [hc']
      have key : euclid2 1 x (onSegment s 0 1 (w 1)) ≤ h2 ↔ 1 - t ≤ w 1 := by
        rw [← onSegment_turn, ← sub_nonpos, hf]
        constructor
        · intro h; by_contra hh; exact absurd h (not_le.2 (mul_pos n10 (mul_pos (by linarith) (by linarith))))
        · exact fun h => mul_nonpos_of_nonneg_of_nonpos n10.le (mul_nonpos_of_nonneg_of_nonpos (by linarith) (by linarith))
      rw [key]
      simp only [Covers, parts, List.map_cons, List.map_nil, List.mem_singleton, exists_eq_left, store]
      rw [covers_interval _ (1 - t) 1 (by linarith) (by simp [entries]) (by simp [entries]) (by simp [entries]) (by simp [entries]) w hsum]
      exact ⟨fun h => h.1, fun h => ⟨h, w1'⟩⟩
  · have f0 := lt_of_le_of_ne (in0.1 e0) h0
    have f1 := not_le.1 (out in1 e1)
    have hm : subNodes2 sqrt 1 h2 m x s = [⟨entries [(0, 0, 1), (1, 1, (store m (cross2 sqrt 1 h2 x s 0 1)).1),
        (0, 1, 1 - (store m (cross2 sqrt 1 h2 x s 0 1)).1)], (store m (cross2 sqrt 1 h2 x s 0 1)).1⟩] := by
      simp [subNodes2, node1, hr, e0, e1, first, List.findIdx_cons]
    rw [hm]
    rcases cross2_eq sqrt hs 1 h2 x s 0 1 n01 with ⟨hc, hf⟩ | ⟨r, t, hrt, hf, hc⟩
    · have := hf 0
      rw [ea] at this
      exact absurd this (not_lt.2 f0.le)
    · rw [← sub_neg, ← ea, hf 0] at f0
      rw [← sub_pos, ← eb, hf 1] at f1
      have g0 : (0 - r) * (0 - t) < 0 := by
        by_contra hh; exact absurd f0 (not_lt.2 (mul_nonneg n01.le (not_lt.1 hh)))
      have g1 : 0 < (1 - r) * (1 - t) := (mul_pos_iff_of_pos_left n01).1 f1
      have r0 : r < 0 := by by_contra hh; nlinarith [mul_nonneg (not_lt.1 hh) ((not_lt.1 hh).trans hrt)]
      have t0 : 0 < t := by by_contra hh; nlinarith
      have t1 : t < 1 := by by_contra hh; nlinarith
      have hc' : cross2 sqrt 1 h2 x s 0 1 = [t] := by
        rw [hc, if_neg fun g => absurd g.1 (not_le.2 r0), if_pos ⟨t0.le, t1.le⟩]; rfl
      rw [hc']
      have key : euclid2 1 x (onSegment s 0 1 (w 1)) ≤ h2 ↔ w 1 ≤ t := by
        rw [← sub_nonpos, hf]
        constructor
        · intro h; by_contra hh; exact absurd h (not_le.2 (mul_pos n01 (mul_pos (by linarith) (by linarith))))
        · exact fun h => mul_nonpos_of_nonneg_of_nonpos n01.le (mul_nonpos_of_nonneg_of_nonpos (by linarith) (by linarith))
      rw [key]
      simp only [Covers, parts, List.map_cons, List.map_nil, List.mem_singleton, exists_eq_left, store]
      rw [covers_interval _ 0 t t0.le (by simp [entries]) (by simp [entries]) (by simp [entries]) (by simp [entries]) w hsum]
      exact ⟨fun h => h.2, fun h => ⟨w1, h⟩⟩
  · have f0 := in0.1 e0
    have f1 := in1.1 e1
    have hm : subNodes2 sqrt 1 h2 m x s = [⟨entries [(0, 0, 1), (1, 1, 1)], 1⟩] := by
      simp [subNodes2, node1, hr, e0, e1]
    rw [hm]
    simp only [Covers, parts, List.map_cons, List.map_nil, List.mem_singleton, exists_eq_left]
    rw [covers_interval _ 0 1 zero_le_one (by simp [entries]) (by simp [entries]) (by simp [entries]) (by simp [entries]) w hsum]
    refine ⟨fun _ => ?_, fun _ => ⟨w1, w1'⟩⟩
    rw [← dist2_l2, dist2_comm]
    refine dist2_hull .l2 1 2 s _ x h2 ⟨w, hw.1, hw.2, fun k => ?_⟩ fun i hi => ?_
    · rw [← combine_two s w hsum]; rfl
    · have : i = 0 ∨ i = 1 := by omega
      rcases this with rfl | rfl <;> rw [dist2_comm, dist2_l2] <;> assumption

/-- The interval from -1 to 2 and the ball around 0 with radius one: the end on the sphere is taken for the end of the part and the part is a point. -/
theorem inner_line_fails (m : ℝ × ℝ) : ∃ (h2 : ℝ) (x : Nat → ℝ) (s : Nat → Nat → ℝ) (w : Nat → ℝ), s 0 0 < s 1 0 ∧ Weights 2 w ∧
    euclid2 1 x (combine 2 s w) < h2 ∧ ¬ Covers 2 (parts (subNodes2 Real.sqrt 1 h2 m x s)) w ∧ volumeNode (subNodes2 Real.sqrt 1 h2 m x s) = 0 := by
  have hr : List.range 2 = [0, 1] := rfl
  have hsq : Real.sqrt ((1 / 3) ^ 2) = 1 / 3 := Real.sqrt_sq (by norm_num)
  have hc : cross2 Real.sqrt 1 1 (fun _ => 0) (fun i _ => if i = 0 then -1 else 2) 0 1 = [0, 2 / 3] := by
    unfold cross2
    have e1 : List.range 1 = [0] := rfl
    simp only [e1, List.foldl_cons, List.foldl_nil, if_true, one_ne_zero, if_false]
    rw [show (-((0 + (2 - -1) * (-1 - 0) : ℝ) * (2 * (1 / (0 + (2 - -1) ^ 2)))) * (1 / 2)) ^ 2 - (0 + (-1 - 0) ^ 2 - 1) * (1 / (0 + (2 - -1) ^ 2)) = (1 / 3) ^ 2 by norm_num, hsq]
    norm_num
  have hm : subNodes2 Real.sqrt 1 1 m (fun _ => 0) (fun i _ => if i = 0 then (-1 : ℝ) else 2) = [⟨entries [(0, 0, 1), (1, 1, 0), (0, 1, 1 - 0)], 0⟩] := by
    have i0 : isInside .l2 1 (1 : ℝ) (fun _ => 0) (fun _ => -1) = true := by simp [isInside, dist2_l2, euclid2]
    have i1 : isInside .l2 1 (1 : ℝ) (fun _ => 0) (fun _ => 2) = false := by simp [isInside, dist2_l2, euclid2]
    simp [subNodes2, node1, hr, i0, i1, first, List.findIdx_cons, hc, store]
  refine ⟨1, fun _ => 0, fun i _ => if i = 0 then -1 else 2, fun i => if i = 0 then 2 / 3 else 1 / 3, by norm_num, ⟨fun i _ => ?_, ?_⟩, ?_, ?_, ?_⟩
  · dsimp only; split <;> norm_num
  · norm_num [Finset.sum_range_succ]
  · norm_num [euclid2, combine, Finset.sum_range_succ]
  · rw [hm]
    simp only [Covers, parts, List.map_cons, List.map_nil, List.mem_singleton, exists_eq_left]
    rw [covers_interval _ 0 0 le_rfl (by simp [entries]) (by simp [entries]) (by simp [entries]) (by simp [entries]) _ (by norm_num)]
    norm_num
  · rw [hm]; simp [volumeNode]

/-- A triangle without vertices in the ball has no parts, even if the ball is in its interior. -/
theorem inner_triangle_fails (sqrt : K → K) (m : K × K) : ∃ (h2 : K) (x : Nat → K) (s : Nat → Nat → K) (w : Nat → K), 0 < h2 ∧ Weights 3 w ∧ (∀ i, i < 3 → 0 < w i) ∧
    combine 3 s w = x ∧ subNodes2 sqrt 2 h2 m x s = [] := by
  have e : ∀ i k : Nat, i < 3 → k < 2 → i = 0 ∨ i = 1 ∨ i = 2 := by omega
  refine ⟨1, fun _ => 0, fun i k => if k = 0 then (if i = 0 then -10 else if i = 1 then 10 else 0) else if k = 1 then (if i = 2 then 20 else -10) else 0, fun _ => 1 / 3, zero_lt_one,
    ⟨fun _ _ => by positivity, by norm_num [Finset.sum_range_succ]⟩, fun _ _ => by positivity, ?_, ?_⟩
  · funext k
    simp only [combine, Finset.sum_range_succ, Finset.range_zero, Finset.sum_empty]
    rcases k with _ | _ | k <;> norm_num
  · have hr : List.range 3 = [0, 1, 2] := rfl
    have i0 : isInside .l2 2 (1 : K) (fun _ => 0) (fun k => if k = 0 then -10 else if k = 1 then -10 else 0) = false := by
      simp [isInside, dist2_l2, euclid2, Finset.sum_range_succ]; norm_num
    have i1 : isInside .l2 2 (1 : K) (fun _ => 0) (fun k => if k = 0 then 10 else if k = 1 then -10 else 0) = false := by
      simp [isInside, dist2_l2, euclid2, Finset.sum_range_succ]; norm_num
    have i2 : isInside .l2 2 (1 : K) (fun _ => 0) (fun k => if k = 0 then 0 else if k = 1 then 20 else 0) = false := by
      simp [isInside, dist2_l2, euclid2, Finset.sum_range_succ]
    simp [subNodes2, node2, hr, i0, i1, i2, node2none]

/-! ### The outer loop -/

private theorem covers_append (n : Nat) (l l' : List (Nat → Nat → K)) (w : Nat → K) : Covers n (l ++ l') w ↔ Covers n l w ∨ Covers n l' w := by
  simp only [Covers, List.mem_append]
  constructor
  · rintro ⟨M, h | h, r⟩
    · exact .inl ⟨M, h, r⟩
    · exact .inr ⟨M, h, r⟩
  · rintro (⟨M, h, r⟩ | ⟨M, h, r⟩)
    · exact ⟨M, .inl h, r⟩
    · exact ⟨M, .inr h, r⟩

private theorem covers_one (v0 v1 l r : K) (hv : v1 - v0 = 1) (hlr : l ≤ r) (w : Nat → K) (hw : w 0 + w 1 = 1) :
    Covers 2 (partsAff (interval v0 v1 l r)) w ↔ l < r ∧ l - v0 ≤ w 1 ∧ w 1 ≤ r - v0 := by
  unfold interval
  split
  · rename_i h
    have : ¬ l < r := by intro hh; linarith
    simp [Covers, partsAff, this]
  · rename_i h
    have h' : l < r := by linarith
    simp only [Covers, partsAff, List.map_cons, List.map_nil, List.mem_singleton, exists_eq_left]
    rw [covers_interval _ (l - v0) (r - v0) (by linarith) (by simp [entries]; linarith) (by simp [entries]) (by simp [entries]; linarith) (by simp [entries]) w hw]
    simp [h']

private theorem interval_volume (v0 v1 l r : K) (hv : v1 - v0 = 1) : ∀ e ∈ interval v0 v1 l r, 0 < e.vol ∧ e.vol = (Matrix.of fun i j : Fin 2 => e.A i j + e.b i).det := by
  intro e he
  unfold interval at he
  split at he
  · simp at he
  · rename_i h
    simp only [List.mem_singleton] at he
    subst he
    refine ⟨not_le.1 h, ?_⟩
    rw [det_two fun i j => (⟨_, _, _⟩ : SubAff K).A i j + (⟨_, _, _⟩ : SubAff K).b i]
    simp [entries]
    rw [show v1 = 1 + v0 by linarith]
    ring

private theorem hull_line (s : Nat → Nat → K) (h : s 0 0 < s 1 0) (p : K) : (∃ q, InHull 2 s q ∧ q 0 = p) ↔ s 0 0 ≤ p ∧ p ≤ s 1 0 := by
  constructor
  · rintro ⟨q, ⟨w, hw, hsum, hq⟩, rfl⟩
    have e := hq 0
    have hs : w 0 + w 1 = 1 := by simpa [Finset.sum_range_succ] using hsum
    simp only [Finset.sum_range_succ, Finset.range_zero, Finset.sum_empty, zero_add] at e
    have g0 := hw 0 (by omega)
    have g1 := hw 1 (by omega)
    rw [e, show w 0 = 1 - w 1 by linarith]
    rw [show w 0 = 1 - w 1 by linarith] at g0
    constructor <;> nlinarith
  · rintro ⟨h0, h1⟩
    have hd : 0 < s 1 0 - s 0 0 := sub_pos.2 h
    refine ⟨fun k => ∑ i ∈ Finset.range 2, (if i = 0 then (s 1 0 - p) / (s 1 0 - s 0 0) else (p - s 0 0) / (s 1 0 - s 0 0)) * s i k, ⟨_, fun i _ => ?_, ?_, fun _ => rfl⟩, ?_⟩
    · split
      · exact div_nonneg (sub_nonneg.2 h1) hd.le
      · exact div_nonneg (sub_nonneg.2 h0) hd.le
    · simp only [Finset.sum_range_succ, Finset.range_zero, Finset.sum_empty, if_true, one_ne_zero, if_false, zero_add]
      rw [← add_div, show s 1 0 - p + (p - s 0 0) = s 1 0 - s 0 0 by ring, div_self hd.ne']
    · simp only [Finset.sum_range_succ, Finset.range_zero, Finset.sum_empty, if_true, one_ne_zero, if_false, zero_add]
      field_simp
      ring

private theorem sq_le_iff (a h h2 : K) (h0 : 0 ≤ h) (hh : h ^ 2 = h2) : a ^ 2 ≤ h2 ↔ -h ≤ a ∧ a ≤ h := by
  rw [← hh]
  exact ⟨fun h => abs_le_of_sq_le_sq' h h0, fun h => sq_le_sq' h.1 h.2⟩

private theorem norm_line (a b p : K) (h : a < b) : b * (1 / |a - b|) - a * (1 / |a - b|) = 1 ∧
    (∀ l, l * (1 / |a - b|) - a * (1 / |a - b|) = (l - a) / (b - a)) ∧ 0 < 1 / |a - b| := by
  have hd : 0 < b - a := sub_pos.2 h
  rw [abs_of_neg (sub_neg.2 h), neg_sub]
  refine ⟨by field_simp, fun l => by field_simp, by positivity⟩

/-- On the line, for two intervals side by side that are cut: the parts cover exactly the points that interact with a point of the other interval. -/
theorem outer_line (sqrt : K → K) (hs : IsSqrt sqrt) (h2 : K) (h0 : 0 ≤ h2) (old : Position) (s1 s2 : Nat → Nat → K) (o1 : s1 0 0 < s1 1 0) (o2 : s2 0 0 < s2 1 0)
    (side : s1 1 0 ≤ s2 0 0 ∨ s2 1 0 ≤ s1 0 0) (hcut : (ballPosition .l2 1 2 2 h2 old s1 s2).1 = .cut) (w : Nat → K) (hw : Weights 2 w) :
    Covers 2 (partsAff (outer1 sqrt h2 s1 s2)) w ↔ ∃ q, InHull 2 s2 q ∧ euclid2 1 (combine 2 s1 w) q ≤ h2 := by
  obtain ⟨⟨i, k, hi, hk, near⟩, ⟨i', k', hi', hk', far⟩⟩ := (C64.position_ball .l2 1 2 2 h2 h0 old s1 s2).2.1.1 hcut
  have hsum : w 0 + w 1 = 1 := by simpa [Finset.sum_range_succ] using hw.2
  have w0 := hw.1 0 (by omega)
  have w1 := hw.1 1 (by omega)
  have w1' : w 1 ≤ 1 := by linarith
  obtain ⟨hh0, hh⟩ := hs h2 h0
  have sq := fun a => sq_le_iff a (sqrt h2) h2 hh0 hh
  have ed : ∀ x y : Nat → K, euclid2 1 x y ≤ h2 ↔ -sqrt h2 ≤ x 0 - y 0 ∧ x 0 - y 0 ≤ sqrt h2 := by
    intro x y
    rw [← sq]
    simp [euclid2]
  rw [dist2_l2] at near far
  have near := (ed _ _).1 near.le
  have near' : (s1 i 0 - s2 k 0) ^ 2 < h2 := by simpa [euclid2] using ‹euclid2 1 (s1 i) (s2 k) < h2›
  have far' : ¬ (-sqrt h2 ≤ s1 i' 0 - s2 k' 0 ∧ s1 i' 0 - s2 k' 0 ≤ sqrt h2) := fun h => absurd ((ed _ _).2 h) (not_le.2 far)
  have nearlt : -sqrt h2 < s1 i 0 - s2 k 0 ∧ s1 i 0 - s2 k 0 < sqrt h2 := by
    rw [← hh] at near'
    exact abs_lt_of_sq_lt_sq' near' hh0
  have v1 : ∀ i, i < 2 → s1 0 0 ≤ s1 i 0 ∧ s1 i 0 ≤ s1 1 0 := by
    intro i hi
    have : i = 0 ∨ i = 1 := by omega
    rcases this with rfl | rfl
    · exact ⟨le_rfl, o1.le⟩
    · exact ⟨o1.le, le_rfl⟩
  have v2 : ∀ i, i < 2 → s2 0 0 ≤ s2 i 0 ∧ s2 i 0 ≤ s2 1 0 := by
    intro i hi
    have : i = 0 ∨ i = 1 := by omega
    rcases this with rfl | rfl
    · exact ⟨le_rfl, o2.le⟩
    · exact ⟨o2.le, le_rfl⟩
  have a1 := v1 i hi
  have a2 := v2 k hk
  have b1 := v1 i' hi'
  have b2 := v2 k' hk'
  set h := sqrt h2 with hdef
  have hex : (∃ q, InHull 2 s2 q ∧ euclid2 1 (combine 2 s1 w) q ≤ h2) ↔
      ∃ q, (s2 0 0 ≤ q ∧ q ≤ s2 1 0) ∧ -h ≤ s1 0 0 + w 1 * (s1 1 0 - s1 0 0) - q ∧ s1 0 0 + w 1 * (s1 1 0 - s1 0 0) - q ≤ h := by
    constructor
    · rintro ⟨q, hq, hd⟩
      rw [ed, combine_two s1 w hsum] at hd
      exact ⟨q 0, (hull_line s2 o2 _).1 ⟨q, hq, rfl⟩, hd⟩
    · rintro ⟨p, hp, hd⟩
      obtain ⟨q, hq, rfl⟩ := (hull_line s2 o2 p).2 hp
      refine ⟨q, hq, ?_⟩
      rw [ed, combine_two s1 w hsum]
      exact hd
  rw [hex]
  have hL : 0 < s1 1 0 - s1 0 0 := sub_pos.2 o1
  set p := s1 0 0 + w 1 * (s1 1 0 - s1 0 0) with hp
  have pw : ∀ l, (l - s1 0 0) / (s1 1 0 - s1 0 0) ≤ w 1 ↔ l ≤ p := by
    intro l; rw [div_le_iff₀ hL, hp]; constructor <;> intro h <;> linarith
  have pw' : ∀ l, w 1 ≤ (l - s1 0 0) / (s1 1 0 - s1 0 0) ↔ p ≤ l := by
    intro l; rw [le_div_iff₀ hL, hp]; constructor <;> intro h <;> linarith
  have p0 : s1 0 0 ≤ p := by rw [← pw, sub_self, zero_div]; exact w1
  have p1 : p ≤ s1 1 0 := by rw [← pw', div_self hL.ne']; exact w1'
  obtain ⟨hv, hl, hinv⟩ := norm_line (s1 0 0) (s1 1 0) p o1
  unfold outer1
  dsimp only
  rw [← hdef]
  generalize 1 / |s1 0 0 - s1 1 0| = inv at hv hl hinv ⊢
  rcases side with side | side
  · have f1 : s2 0 0 - h < s1 1 0 := by linarith
    have f2 : s1 0 0 < s2 1 0 - h := by
      by_contra hc
      exact far' ⟨by linarith, by linarith⟩
    rw [if_pos (by linarith)]
    have ab : max (s1 0 0) (s2 0 0 - h) ≤ min (s1 1 0) (s2 1 0 - h) := le_min (max_le o1.le f1.le) (max_le f2.le (by linarith))
    have bm : min (s1 1 0) (s2 1 0 - h) ≤ s1 1 0 := min_le_left _ _
    unfold partsAff
    rw [List.map_append, covers_append]
    change Covers 2 (partsAff _) w ∨ Covers 2 (partsAff _) w ↔ _
    rw [covers_one _ _ _ _ hv (mul_le_mul_of_nonneg_right ab hinv.le) w hsum, covers_one _ _ _ _ hv (mul_le_mul_of_nonneg_right bm hinv.le) w hsum, hl, hl, hl, pw, pw',
      pw, pw', mul_lt_mul_iff_of_pos_right hinv, mul_lt_mul_iff_of_pos_right hinv]
    have goal : (∃ q, (s2 0 0 ≤ q ∧ q ≤ s2 1 0) ∧ -h ≤ p - q ∧ p - q ≤ h) ↔ max (s1 0 0) (s2 0 0 - h) ≤ p := by
      rw [max_le_iff]
      constructor
      · rintro ⟨q, hq, hd⟩; exact ⟨p0, by linarith⟩
      · rintro ⟨_, hd⟩; exact ⟨s2 0 0, ⟨le_rfl, o2.le⟩, by linarith, by linarith⟩
    rw [goal]
    have lt : max (s1 0 0) (s2 0 0 - h) < s1 1 0 := max_lt o1 f1
    constructor
    · rintro (⟨_, g, _⟩ | ⟨_, g, _⟩)
      · exact g
      · exact ab.trans g
    · intro g
      by_cases hm : max (s1 0 0) (s2 0 0 - h) < min (s1 1 0) (s2 1 0 - h)
      · by_cases hpm : p ≤ min (s1 1 0) (s2 1 0 - h)
        · exact .inl ⟨hm, g, hpm⟩
        · exact .inr ⟨(not_le.1 hpm).trans_le p1, (not_le.1 hpm).le, p1⟩
      · have e : max (s1 0 0) (s2 0 0 - h) = min (s1 1 0) (s2 1 0 - h) := le_antisymm ab (not_lt.1 hm)
        exact .inr ⟨by rw [← e]; exact lt, by rw [← e]; exact g, p1⟩
  · have f1 : s1 0 0 < s2 1 0 + h := by linarith
    have f2 : s2 0 0 + h < s1 1 0 := by
      by_contra hc
      exact far' ⟨by linarith, by linarith⟩
    rw [if_neg (by linarith)]
    have ab : max (s1 0 0) (s2 0 0 + h) ≤ min (s1 1 0) (s2 1 0 + h) := le_min (max_le o1.le f2.le) (max_le f1.le (by linarith))
    have bm : s1 0 0 ≤ max (s1 0 0) (s2 0 0 + h) := le_max_left _ _
    unfold partsAff
    rw [List.map_append, covers_append]
    change Covers 2 (partsAff _) w ∨ Covers 2 (partsAff _) w ↔ _
    rw [covers_one _ _ _ _ hv (mul_le_mul_of_nonneg_right bm hinv.le) w hsum, covers_one _ _ _ _ hv (mul_le_mul_of_nonneg_right ab hinv.le) w hsum, hl, hl, hl, pw, pw',
      pw, pw', mul_lt_mul_iff_of_pos_right hinv, mul_lt_mul_iff_of_pos_right hinv]
    have goal : (∃ q, (s2 0 0 ≤ q ∧ q ≤ s2 1 0) ∧ -h ≤ p - q ∧ p - q ≤ h) ↔ p ≤ min (s1 1 0) (s2 1 0 + h) := by
      rw [le_min_iff]
      constructor
      · rintro ⟨q, hq, hd⟩; exact ⟨p1, by linarith⟩
      · rintro ⟨_, hd⟩; exact ⟨s2 1 0, ⟨o2.le, le_rfl⟩, by linarith, by linarith⟩
    rw [goal]
    have lt : s1 0 0 < min (s1 1 0) (s2 1 0 + h) := lt_min o1 f1
    constructor
    · rintro (⟨_, _, g⟩ | ⟨_, _, g⟩)
      · exact g.trans ab
      · exact g
    · intro g
      by_cases hm : max (s1 0 0) (s2 0 0 + h) < min (s1 1 0) (s2 1 0 + h)
      · by_cases hpm : max (s1 0 0) (s2 0 0 + h) ≤ p
        · exact .inr ⟨hm, hpm, g⟩
        · exact .inl ⟨p0.trans_lt (not_le.1 hpm), p0, (not_le.1 hpm).le⟩
      · have e : max (s1 0 0) (s2 0 0 + h) = min (s1 1 0) (s2 1 0 + h) := le_antisymm ab (not_lt.1 hm)
        exact .inl ⟨by rw [e]; exact lt, p0, by rw [e]; exact g⟩

/-- Their volumes. -/
theorem outer_line_volume (sqrt : K → K) (h2 : K) (s1 s2 : Nat → Nat → K) (o1 : s1 0 0 < s1 1 0) :
    ∀ e ∈ outer1 sqrt h2 s1 s2, 0 < e.vol ∧ e.vol = (Matrix.of fun i j : Fin 2 => e.A i j + e.b i).det := by
  obtain ⟨hv, _, _⟩ := norm_line (s1 0 0) (s1 1 0) 0 o1
  intro e he
  unfold outer1 at he
  dsimp only at he
  split at he <;> rcases List.mem_append.1 he with he | he <;> exact interval_volume _ _ _ _ hv e he

/-- An interval whose vertices are in decreasing order has no parts. -/
theorem outer_line_fails (sqrt : K → K) (hs : IsSqrt sqrt) : ∃ (h2 : K) (s1 s2 : Nat → Nat → K) (w : Nat → K), s1 1 0 < s1 0 0 ∧ s1 0 0 < s2 0 0 ∧ s2 0 0 < s2 1 0 ∧
    (∀ old, (ballPosition .l2 1 2 2 h2 old s1 s2).1 = .cut) ∧ Weights 2 w ∧ euclid2 1 (combine 2 s1 w) (s2 0) < h2 ∧ outer1 sqrt h2 s1 s2 = [] := by
  have hq : sqrt (9 / 4 : K) = 3 / 2 := by
    obtain ⟨g0, g⟩ := hs (9 / 4) (by norm_num)
    nlinarith
  refine ⟨9 / 4, fun i _ => if i = 0 then 1 else 0, fun i _ => if i = 0 then 2 else 3, fun i => if i = 0 then 1 else 0, by norm_num, by norm_num, by norm_num, ?_,
    ⟨fun i _ => by dsimp only; split <;> norm_num, by norm_num [Finset.sum_range_succ]⟩, by norm_num [euclid2, combine, Finset.sum_range_succ], ?_⟩
  · intro old
    rw [(C64.position_ball .l2 1 2 2 _ (by norm_num) old _ _).2.1]
    refine ⟨⟨0, 0, by omega, by omega, ?_⟩, ⟨1, 1, by omega, by omega, ?_⟩⟩ <;> rw [dist2_l2] <;> norm_num [euclid2]
  · unfold outer1
    dsimp only
    rw [hq]
    norm_num [interval]

/-- Triangles without any pair of interacting vertices are refused. -/
theorem outer_raises (sqrt : K → K) (h2 : K) (m : K × K) (s1 s2 : Nat → Nat → K) (hfar : ∀ i k, i < 3 → k < 3 → h2 < euclid2 2 (s1 i) (s2 k)) : subSimplices2 sqrt h2 m s1 s2 = none := by
  have hf : (List.range 3).filter (fun i => (List.range 3).any fun k => isInside .l2 2 h2 (s1 i) (s2 k)) = [] := by
    refine List.filter_eq_nil_iff.2 fun i hi h => ?_
    obtain ⟨k, hk, h⟩ := List.any_eq_true.1 h
    have := hfar i k (List.mem_range.1 hi) (List.mem_range.1 hk)
    rw [← dist2_l2] at this
    simp only [isInside, decide_eq_true_eq] at h
    exact absurd h (not_le.2 this)
  unfold subSimplices2 outer2 outer2For
  rw [hf]
  rfl

/-- Triangles that are cut: the parts exist, their vertices are points of the triangle that interact with a vertex of the other triangle, the volumes are right and
the parts do not overlap. -/
theorem outer_triangle (sqrt : K → K) (hs : IsSqrt sqrt) (h2 : K) (h0 : 0 ≤ h2) (m : K × K) (old : Position) (s1 s2 : Nat → Nat → K)
    (hn : ∀ a b, a < 3 → b < 3 → a ≠ b → 0 < euclid2 2 (s1 a) (s1 b)) (hcut : (ballPosition .l2 2 3 3 h2 old s1 s2).1 = .cut) :
    ∃ l, subSimplices2 sqrt h2 m s1 s2 = some l ∧
      (∀ M ∈ partsAff l, ∀ j, j < 3 → Weights 3 (fun k => M k j) ∧ ∃ k, k < 3 ∧ euclid2 2 (combine 3 s1 fun k => M k j) (s2 k) ≤ h2) ∧
      (∀ e ∈ l, 0 < e.vol ∧ e.vol = (Matrix.of fun i j : Fin 3 => e.A i j + e.b i).det) ∧ (partsAff l).Pairwise (Apart 3) := by
  obtain ⟨⟨i, k, hi, hk, near⟩, _⟩ := (C64.position_ball .l2 2 3 3 h2 h0 old s1 s2).2.1.1 hcut
  have h01 : ∀ j a b, ∀ c ∈ cross2 sqrt 2 h2 (s2 j) s1 a b, 0 ≤ c ∧ c ≤ 1 := fun j => cross2_01 sqrt hs 2 h2 (s2 j) s1
  have sym : ∀ i k, isInside .l2 2 h2 (s1 i) (s2 k) = isInside .l2 2 h2 (s2 k) (s1 i) := by
    intro i k; unfold isInside; rw [dist2_comm]
  obtain ⟨l, hl, he, hp⟩ := outer2_spec (fun i k => isInside .l2 2 h2 (s1 i) (s2 k)) (fun j => cross2 sqrt 2 h2 (s2 j) s1) m s2
    (fun j a b _ ha hb h => by
      simp only [sym] at h
      exact crosses sqrt hs 2 3 h2 (s2 j) s1 hn a b ha hb h) h01
    ⟨i, k, hi, hk, by simpa [isInside] using near.le⟩
  refine ⟨l, hl, ?_, ?_, ?_⟩
  · intro M hM j hj
    obtain ⟨e, hel, rfl⟩ := List.mem_map.1 hM
    have hc := (he e hel).1 j hj
    refine ⟨corner_weights (fun a b c hc => ?_) hc, ?_⟩
    · obtain ⟨j, _, h⟩ := (mem_merged _ _ _ _).1 hc
      exact h01 _ _ _ _ h
    · rcases hc with ⟨i, hi, hin, hw⟩ | ⟨a, b, c, ha, hb, hab, hc, hw⟩ | ⟨v, hv, _⟩
      · change ∃ k, k < 3 ∧ euclid2 2 (combine 3 s1 fun k => e.M k j) (s2 k) ≤ h2
        rw [combine_vertex 3 i hi s1 _ hw]
        obtain ⟨k, hk, h⟩ := List.any_eq_true.1 hin
        refine ⟨k, List.mem_range.1 hk, ?_⟩
        rw [← dist2_l2]
        simpa [isInside] using h
      · change ∃ k, k < 3 ∧ euclid2 2 (combine 3 s1 fun k => e.M k j) (s2 k) ≤ h2
        rw [combine_edge 3 a b ha hb hab c s1 _ hw]
        obtain ⟨k, hk, h⟩ := (mem_merged _ _ _ _).1 hc
        refine ⟨k, hk, ?_⟩
        rw [euclid2_pos_comm]
        exact le_of_eq ((mem_cross2 sqrt hs 2 h2 (s2 k) s1 a b (hn b a hb ha hab.symm) c).1 h).2.2
      · cases hv
  · intro e hel
    obtain ⟨_, h1, h2⟩ := he e hel
    exact ⟨h1, h2.trans (det_three e.M).symm⟩
  · exact List.pairwise_map.2 hp

/-- A vertex that does not interact with a vertex of the other triangle is in none of the parts. -/
theorem outer_vertex (sqrt : K → K) (hs : IsSqrt sqrt) (h2 : K) (h0 : 0 ≤ h2) (m : K × K) (old : Position) (s1 s2 : Nat → Nat → K)
    (hn : ∀ a b, a < 3 → b < 3 → a ≠ b → 0 < euclid2 2 (s1 a) (s1 b)) (hcut : (ballPosition .l2 2 3 3 h2 old s1 s2).1 = .cut) (i : Nat) (hi : i < 3)
    (hout : ∀ k, k < 3 → h2 < euclid2 2 (s1 i) (s2 k)) :
    ∃ l, subSimplices2 sqrt h2 m s1 s2 = some l ∧ ¬ Covers 3 (partsAff l) fun k => if k = i then 1 else 0 := by
  obtain ⟨l, hl, hM, _⟩ := outer_triangle sqrt hs h2 h0 m old s1 s2 hn hcut
  refine ⟨l, hl, ?_⟩
  rintro ⟨M, hMl, u, hu, he⟩
  have hpos : ∃ j, j < 3 ∧ 0 < u j := by
    by_contra hc
    push Not at hc
    have : ∑ i ∈ Finset.range 3, u i = 0 := Finset.sum_eq_zero fun j hj => le_antisymm (hc j (Finset.mem_range.1 hj)) (hu.1 j (Finset.mem_range.1 hj))
    rw [hu.2] at this
    exact one_ne_zero this
  obtain ⟨j, hj, hup⟩ := hpos
  obtain ⟨hW, k, hk, hd⟩ := hM M hMl j hj
  have hz : ∀ k, k < 3 → k ≠ i → M k j = 0 := by
    intro k hk hki
    have e := he k hk
    dsimp only at e
    rw [if_neg hki] at e
    have := (Finset.sum_eq_zero_iff_of_nonneg fun j' hj' => mul_nonneg ((hM M hMl j' (Finset.mem_range.1 hj')).1.1 k hk) (hu.1 j' (Finset.mem_range.1 hj'))).1 e.symm j
      (Finset.mem_range.2 hj)
    exact (mul_eq_zero.1 this).resolve_right hup.ne'
  have h1 : M i j = 1 := by
    have := hW.2
    rwa [Finset.sum_eq_single i (fun k hk hki => hz k (Finset.mem_range.1 hk) hki) fun h => absurd (Finset.mem_range.2 hi) h] at this
  rw [combine_vertex 3 i hi s1 _ fun k hk => by
    by_cases h : k = i
    · rw [if_pos h, h]; exact h1
    · rw [if_neg h]; exact hz k hk h] at hd
  exact absurd hd (not_le.2 (hout k hk))

/-- Two triangles that are cut and a vertex of the first that interacts with points of the second, in none of the parts. -/
theorem outer_triangle_fails (sqrt : K → K) (hs : IsSqrt sqrt) (m : K × K) (old : Position) : ∃ (h2 : K) (s1 s2 : Nat → Nat → K) (q : Nat → K),
    (ballPosition .l2 2 3 3 h2 old s1 s2).1 = .cut ∧ InHull 3 s2 q ∧ euclid2 2 (s1 1) q < h2 ∧
      ∃ l, subSimplices2 sqrt h2 m s1 s2 = some l ∧ ¬ Covers 3 (partsAff l) fun k => if k = 1 then 1 else 0 := by
  have e3 : ∀ i : Nat, i < 3 → i = 0 ∨ i = 1 ∨ i = 2 := by omega
  have hcut : (ballPosition .l2 2 3 3 (2 : K) old (fun i k => if i = 0 then 0 else if i = 1 then (if k = 0 then 0 else 5) else if k = 0 then -4 else 2)
      (fun i k => if i = 0 then (if k = 0 then 1 else 0) else if i = 1 then (if k = 0 then 1 else 10) else if k = 0 then 9 else 5)).1 = .cut := by
    rw [(C64.position_ball .l2 2 3 3 _ (by norm_num) old _ _).2.1]
    refine ⟨⟨0, 0, by omega, by omega, ?_⟩, ⟨1, 1, by omega, by omega, ?_⟩⟩ <;> rw [dist2_l2] <;> norm_num [euclid2, Finset.sum_range_succ]
  refine ⟨2, _, _, fun k => if k = 0 then 1 else 5, hcut, ⟨fun i => if i = 2 then 0 else 1 / 2, fun i _ => by dsimp only; split <;> norm_num, by norm_num [Finset.sum_range_succ], ?_⟩,
    by norm_num [euclid2, Finset.sum_range_succ], ?_⟩
  · intro j
    simp only [Finset.sum_range_succ, Finset.range_zero, Finset.sum_empty]
    rcases j with _ | j <;> norm_num
  · refine outer_vertex sqrt hs 2 (by norm_num) m old _ _ ?_ hcut 1 (by omega) ?_
    · intro a b ha hb hab
      rcases e3 a ha with rfl | rfl | rfl <;> rcases e3 b hb with rfl | rfl | rfl <;> first | exact absurd rfl hab | norm_num [euclid2, Finset.sum_range_succ]
    · intro k hk
      rcases e3 k hk with rfl | rfl | rfl <;> norm_num [euclid2, Finset.sum_range_succ]

/-- The routine for the maximum norm writes four values into an array of two when an edge passes through two corners of the ball. -/
theorem corners_fails (sqrt : K → K) (h1 : sqrt 1 = 1) : (crossInf sqrt (1 / 10 ^ 12) 2 1 (fun _ => 0) (fun i _ => if i = 0 then (-2 : K) else 2) 0 1).length = 4 := by
  have hr : List.range 2 = [0, 1] := rfl
  have : (1 : K) / 10 ^ 12 < |-2 - 2| := by norm_num [abs_of_neg]
  simp only [crossInf, crossInfOne, hr, h1, List.flatMap_cons, List.flatMap_nil, if_true, one_ne_zero, if_false, this]
  norm_num

/-- In one dimension this routine reads a second coordinate; what it finds depends on the memory behind the arrays. -/
theorem memory_fails (sqrt : K → K) (h1 : sqrt 1 = 1) : ∃ (x y : Nat → K) (s : Nat → Nat → K), (∀ k, k < 1 → x k = y k) ∧
    crossInf sqrt (1 / 10 ^ 12) 1 1 x s 0 1 ≠ crossInf sqrt (1 / 10 ^ 12) 1 1 y s 0 1 := by
  refine ⟨fun _ => 0, fun k => if k = 0 then 0 else 5, fun i k => if k = 0 then (if i = 0 then 0 else 2) else 0, by simp, ?_⟩
  have hr : List.range 2 = [0, 1] := rfl
  have hr1 : List.range 1 = [0] := rfl
  have : (1 : K) / 10 ^ 12 < |0 - 2| := by norm_num [abs_of_neg]
  simp only [crossInf, crossInfOne, hr, hr1, h1, List.flatMap_cons, List.flatMap_nil, if_true, one_ne_zero, if_false, this]
  norm_num

/-! ### Examples -/

/-- The interval from 0 to 2 and the ball around 0 with radius one: the half of the interval. -/
example (m : ℝ × ℝ) (w : Nat → ℝ) (hw : Weights 2 w) :
    Covers 2 (parts (subNodes2 Real.sqrt 1 1 m (fun _ => 0) fun i _ => if i = 0 then 0 else 2)) w ↔ w 1 ≤ 1 / 2 := by
  rw [inner_line_partial Real.sqrt (fun a ha => ⟨Real.sqrt_nonneg a, Real.sq_sqrt ha⟩) 1 m _ _ (by norm_num) (by norm_num [euclid2]) (by norm_num [euclid2]) w hw]
  have := hw.1 1 (by omega)
  simp only [euclid2, combine, Finset.range_one, Finset.sum_singleton, Finset.sum_range_succ, Finset.range_zero, Finset.sum_empty]
  norm_num
  rw [abs_of_nonneg this]
  constructor <;> intro h <;> linarith

end PyNucleus.Props.C65
