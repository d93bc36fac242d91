import Verif.Proof.LevelErrors
import Mathlib.Algebra.Order.Ring.Rat

/-!
# C106: errors of solutions on coarse levels
-/

namespace PyNucleus.Props.C106

open PyNucleus.LevelErrors

variable {K : Type} [Field K] [LinearOrder K] [IsStrictOrderedRing K]

/-- The solution at a time is a mean of the solutions at the two neighbouring times, with weights that
give the time itself. -/
theorem mean (ts : List K) (u : List (Row K)) (t : K) (h2 : 2 ≤ ts.length) (hs : ts.Pairwise (· < ·))
    (h1 : ts.headD 0 ≤ t) (h3 : t ≤ ts.getLast?.getD 0) :
    ∃ j w, j + 1 < ts.length ∧ 0 ≤ w ∧ w ≤ 1 ∧ t = (1 - w) * ts.getD j 0 + w * ts.getD (j + 1) 0 ∧
      interpolate ts u t = some fun i => (1 - w) * u.getD j 0 i + w * u.getD (j + 1) 0 i :=
  interpolate_spec ts u t h2 hs h1 h3

/-- At the times of the coarse solution it is the coarse solution. -/
theorem common_times (ts : List K) (u : List (Row K)) (h2 : 2 ≤ ts.length) (hs : ts.Pairwise (· < ·))
    (k : Nat) (hk : k < ts.length) : interpolate ts u (ts.getD k 0) = some (u.getD k 0) := by
  have hh : ts.headD 0 ≤ ts.getD k 0 := by
    cases ts with
    | nil => simp at h2
    | cons a l =>
      rcases Nat.eq_zero_or_pos k with rfl | hp
      · simp
      · simpa using (lt_of_sorted hs hp hk).le
  obtain ⟨j, w, hj, h0, h1, ht, he⟩ := interpolate_spec ts u _ h2 hs hh (le_last hs hk)
  have hl := lt_of_sorted hs (Nat.lt_succ_self j) hj
  rw [he]
  have h4 : ts.getD k 0 - ts.getD j 0 = w * (ts.getD (j + 1) 0 - ts.getD j 0) := by rw [ht]; ring
  have h5 : ts.getD (j + 1) 0 - ts.getD k 0 = (1 - w) * (ts.getD (j + 1) 0 - ts.getD j 0) := by rw [ht]; ring
  have hkj : k = j ∨ k = j + 1 := by
    by_contra hne
    push Not at hne
    rcases Nat.lt_or_ge k j with h | h
    · have := lt_of_sorted hs h (by omega)
      have h6 : 0 ≤ w * (ts.getD (j + 1) 0 - ts.getD j 0) := mul_nonneg h0 (sub_nonneg.2 hl.le)
      linarith
    · have := lt_of_sorted hs (show j + 1 < k by omega) hk
      have h6 : 0 ≤ (1 - w) * (ts.getD (j + 1) 0 - ts.getD j 0) :=
        mul_nonneg (sub_nonneg.2 h1) (sub_nonneg.2 hl.le)
      linarith
  rcases hkj with rfl | rfl
  · have : w = 0 := by
      rw [sub_self] at h4
      exact (mul_eq_zero.1 h4.symm).resolve_right (sub_pos.2 hl).ne'
    subst this; simp
  · have : w = 1 := by
      rw [sub_self] at h5
      have := (mul_eq_zero.1 h5.symm).resolve_right (sub_pos.2 hl).ne'
      linarith
    subst this; simp

/-- The interpolated values are within the bounds of the given ones. -/
theorem bounds (ts : List K) (u : List (Row K)) (t : K) (h2 : 2 ≤ ts.length) (hs : ts.Pairwise (· < ·))
    (i : Nat) (lo hi : K) (hb : ∀ j, j < ts.length → lo ≤ u.getD j 0 i ∧ u.getD j 0 i ≤ hi)
    (r : Row K) (hr : interpolate ts u t = some r) : lo ≤ r i ∧ r i ≤ hi := by
  have hrange := (interpolate_isSome ts u t h2 hs).1 (by rw [hr]; rfl)
  obtain ⟨j, w, hj, h0, h1, _, he⟩ := interpolate_spec ts u t h2 hs hrange.1 hrange.2
  rw [he] at hr
  cases hr
  have ha := hb j (by omega)
  have hc := hb (j + 1) hj
  have hw : 0 ≤ 1 - w := sub_nonneg.2 h1
  constructor
  · have := mul_le_mul_of_nonneg_left ha.1 hw
    have := mul_le_mul_of_nonneg_left hc.1 h0
    linarith
  · have := mul_le_mul_of_nonneg_left ha.2 hw
    have := mul_le_mul_of_nonneg_left hc.2 h0
    linarith

/-- A time outside of the range of the coarse solution raises an error, no other does. -/
theorem range (ts : List K) (u : List (Row K)) (t : K) (h2 : 2 ≤ ts.length) (hs : ts.Pairwise (· < ·)) :
    interpolate ts u t = none ↔ t < ts.headD 0 ∨ ts.getLast?.getD 0 < t := by
  rw [← Option.not_isSome_iff_eq_none, interpolate_isSome ts u t h2 hs, not_and_or, not_le, not_le]

/-- There is one error for each level but the finest. -/
theorem number {E : Type} (P : Nat → Row K → Row K) (norm : List (Row K) → E)
    (times : Option (List (List K))) (sols : List (List (Row K))) (errs : List E)
    (h : computeErrors P norm times sols = some errs) : errs.length + 1 = sols.length := by
  unfold computeErrors at h
  split at h
  · cases h
  · rename_i hne
    split at h
    · have := length_errorList _ _ _ h
      have : 0 < sols.length := List.length_pos_iff.2 hne
      simp only [List.length_range] at *
      omega
    · cases h

omit [IsStrictOrderedRing K] in
/-- Errors are computed only if each level has as many times as solutions. -/
theorem times_checked {E : Type} (P : Nat → Row K → Row K) (norm : List (Row K) → E)
    (ts : List (List K)) (sols : List (List (Row K))) (errs : List E)
    (h : computeErrors P norm (some ts) sols = some errs) :
    sols.length ≤ ts.length ∧ ∀ i, i < sols.length → (ts.getD i []).length = (sols.getD i []).length := by
  unfold computeErrors at h
  split at h
  · cases h
  · rename_i hne
    split at h
    · rename_i hfit
      unfold timesFit at hfit
      rw [List.all_eq_true] at hfit
      have hfit : ∀ i, i < sols.length → i < ts.length ∧ (sols.getD i []).length = (ts.getD i []).length := fun i hi => by
        have := hfit i (List.mem_range.2 hi)
        exact of_decide_eq_true this
      refine ⟨?_, fun i hi => (hfit i hi).2.symm⟩
      have hpos : 0 < sols.length := List.length_pos_iff.2 hne
      have := (hfit (sols.length - 1) (by omega)).1
      omega
    · cases h

/-- The same function of space on all levels. -/
def Nested (P : Nat → Row K → Row K) (n : Nat) (A : Nat → Row K) : Prop := ∀ j, j + 1 < n → P (j + 1) (A j) = A (j + 1)

/-- Prolongations are linear. -/
def Linear (P : Nat → Row K → Row K) : Prop :=
  ∀ j (x y : Row K) (c : K), P j (fun i => x i + c * y i) = fun i => P j x i + c * P j y i

omit [LinearOrder K] [IsStrictOrderedRing K] in
theorem prolong_affine (P : Nat → Row K → Row K) (n : Nat) (A B : Nat → Row K) (hP : Linear P)
    (hA : Nested P n A) (hB : Nested P n B) (c : K) (lvl m : Nat) (h : lvl + m < n) :
    prolong P lvl m (fun i => A lvl i + c * B lvl i) = fun i => A (lvl + m) i + c * B (lvl + m) i := by
  induction m with
  | zero => rfl
  | succ m ih =>
    rw [prolong, ih (by omega), hP, hA _ (by omega), hB _ (by omega)]
    rfl

/-- Wanted: solutions on all levels that are the same affine function of time give the errors zero. Proved
if the time steps of each level begin and end at the same times. -/
theorem exact_partial {E : Type} (P : Nat → Row K → Row K) (norm : List (Row K) → E)
    (ts : List (List K)) (sols : List (List (Row K))) (A B : Nat → Row K) (hP : Linear P)
    (hA : Nested P sols.length A) (hB : Nested P sols.length B) (h0 : sols ≠ [])
    (hlen : ts.length = sols.length) (hs : ∀ l ∈ ts, l.Pairwise (· < ·)) (hne : ∀ l ∈ ts, l ≠ [])
    (hsol : ∀ i, i < sols.length → sols.getD i [] = (ts.getD i []).map fun t k => A i k + t * B i k)
    (hends : ∀ l ∈ ts, l.headD 0 = (ts.getLast?.getD []).headD 0 ∧
      l.getLast?.getD 0 = (ts.getLast?.getD []).getLast?.getD 0) :
    computeErrors P norm (some ts) sols =
      some (List.replicate (sols.length - 1) (norm ((sols.getLast?.getD []).map fun _ _ => 0))) := by
  unfold computeErrors
  have hpos : 0 < sols.length := List.length_pos_iff.2 h0
  rw [if_neg h0, if_pos ?_]
  · have := errorList_const (levelError P norm (some ts) sols)
      (norm ((sols.getLast?.getD []).map fun _ _ => 0)) (List.range (sols.length - 1)) ?_
    · simpa using this
    · intro i hi
      have hi : i < sols.length - 1 := List.mem_range.1 hi
      have hti : ts.getD i [] ∈ ts := by
        rw [List.getD_eq_getElem _ _ (by omega)]; exact List.getElem_mem _
      have htl : ts.getLast?.getD [] = ts.getD (sols.length - 1) [] := by
        rw [List.getLast?_eq_getElem?, List.getD_eq_getElem?_getD, hlen]
      have htlm : ts.getLast?.getD [] ∈ ts := by
        rw [htl, List.getD_eq_getElem _ _ (by omega)]; exact List.getElem_mem _
      have hsl : sols.getLast?.getD [] = (ts.getLast?.getD []).map fun t k => A (sols.length - 1) k + t * B (sols.length - 1) k := by
        rw [htl, ← hsol _ (by omega), List.getLast?_eq_getElem?, List.getD_eq_getElem?_getD]
      have hu : (sols.getD i []).map (prolong P i (sols.length - 1 - i)) =
          (ts.getD i []).map fun t k => A (sols.length - 1) k + t * B (sols.length - 1) k := by
        rw [hsol i (by omega), List.map_map]
        apply List.map_congr_left
        intro t _
        have := prolong_affine P sols.length A B hP hA hB t i (sols.length - 1 - i) (by omega)
        simp only [Function.comp_apply]
        rw [this, show i + (sols.length - 1 - i) = sols.length - 1 by omega]
      simp only [levelError]
      rw [hu, inTime_affine (ts.getD i []) _ (A (sols.length - 1)) (B (sols.length - 1))
        (ts.getLast?.getD []) (hs _ hti) (hs _ htlm) rfl (hne _ htlm) (hne _ hti)
        (hends _ hti).1 (hends _ hti).2, Option.bind_some, ← hsl, minus_self]
      rfl
  · simp only [timesFit, List.all_eq_true, List.mem_range, decide_eq_true_eq]
    intro i hi
    exact ⟨by omega, by rw [hsol i hi, List.length_map]⟩

/-- The first and the last solution are compared without regard to their times. -/
theorem exact_fails : ∃ (P : Nat → Row ℚ → Row ℚ) (ts : List (List ℚ)) (sols : List (List (Row ℚ)))
    (A B : Nat → Row ℚ), Linear P ∧ Nested P sols.length A ∧ Nested P sols.length B ∧ sols ≠ [] ∧
    ts.length = sols.length ∧ (∀ l ∈ ts, l.Pairwise (· < ·)) ∧ (∀ l ∈ ts, l ≠ []) ∧
    (∀ i, i < sols.length → sols.getD i [] = (ts.getD i []).map fun t k => A i k + t * B i k) ∧
    computeErrors P (fun r => r.map fun x => x 0) (some ts) sols = some [[0, 1]] := by
  refine ⟨fun _ x => x, [[0, 2], [0, 1]], [[fun _ => 0, fun _ => 2], [fun _ => 0, fun _ => 1]],
    fun _ _ => 0, fun _ _ => 1, fun _ _ _ _ => rfl, fun _ _ => rfl, fun _ _ => rfl, by simp, rfl, ?_, ?_, ?_, ?_⟩
  · intro l hl; simp at hl; rcases hl with rfl | rfl <;> simp
  · intro l hl; simp at hl; rcases hl with rfl | rfl <;> simp
  · intro i hi
    have : i = 0 ∨ i = 1 := by simp at hi; omega
    rcases this with rfl | rfl <;> simp
  · have ht : timesFit (some [[0, 2], [0, 1]]) ([[fun _ => 0, fun _ => 2], [fun _ => 0, fun _ => 1]] : List (List (Row ℚ))) = true := by
      simp [timesFit, List.range_succ]
    rw [computeErrors, if_neg (by simp), if_pos ht]
    simp [errorList, levelError, inTime, inner, minus, prolong]
    norm_num

/-- Three times and a fine solution with five times. -/
theorem sample_case :
    let ts : List ℚ := [0, 1, 3]
    let u : List (Row ℚ) := [fun i => i, fun i => 2 * i, fun i => i + 4]
    (2 ≤ ts.length ∧ ts.Pairwise (· < ·)) ∧ ((interpolate ts u 2).map fun r => [r 0, r 1]) = some [2, 7 / 2] ∧
      (interpolate ts u 4).isNone ∧
      ((inTime ts u [0, 1 / 2, 1, 2, 3]).map fun l => l.map fun r => r 1) = some [1, 3 / 2, 2, 7 / 2, 5] := by
  decide +kernel

end PyNucleus.Props.C106
