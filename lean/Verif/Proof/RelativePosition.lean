import Verif.Model.RelativePosition
import Verif.Spec.Interaction
import Mathlib.Algebra.BigOperators.Group.Finset.Sigma
import Mathlib.Algebra.BigOperators.Ring.Finset
import Mathlib.Algebra.Order.BigOperators.Ring.Finset
import Mathlib.Algebra.Order.BigOperators.Group.Finset
import Mathlib.Tactic.Ring
import Mathlib.Tactic.Linarith

namespace PyNucleus.Interaction

variable {K : Type} [Field K] [LinearOrder K] [IsStrictOrderedRing K]

theorem foldl_add (l : List Nat) (f : Nat → K) (a : K) : l.foldl (fun s j => s + f j) a = a + (l.map f).sum := by
  induction l generalizing a with
  | nil => simp
  | cons x l ih => simp only [List.foldl_cons, List.map_cons, List.sum_cons, ih]; ring

theorem sum_range_list (n : Nat) (f : Nat → K) : ((List.range n).map f).sum = ∑ i ∈ Finset.range n, f i := rfl

theorem foldl_max_le (l : List Nat) (f : Nat → K) (a h : K) : l.foldl (fun s j => max s (f j)) a ≤ h ↔ a ≤ h ∧ ∀ j ∈ l, f j ≤ h := by
  induction l generalizing a with
  | nil => simp
  | cons x l ih => simp only [List.foldl_cons, ih, max_le_iff, List.mem_cons, forall_eq_or_imp, and_assoc]

theorem foldl_max_ge (l : List Nat) (f : Nat → K) (a : K) : a ≤ l.foldl (fun s j => max s (f j)) a :=
  ((foldl_max_le l f a _).1 le_rfl).1

theorem dist2_l2 (dim : Nat) (x y : Point K) : dist2 .l2 dim x y = euclid2 dim x y := by
  unfold dist2 euclid2
  dsimp only
  rw [foldl_add, zero_add, sum_range_list]

theorem dist2_linf_le (dim : Nat) (x y : Point K) (h2 : K) (h0 : 0 ≤ h2) : dist2 .linf dim x y ≤ h2 ↔ WithinMax dim h2 x y := by
  unfold dist2 WithinMax
  dsimp only
  rw [foldl_max_le]
  simp [h0]

theorem dist2_nonneg (nm : Norm) (dim : Nat) (x y : Point K) : 0 ≤ dist2 nm dim x y := by
  cases nm with
  | l2 => rw [dist2_l2]; exact Finset.sum_nonneg fun j _ => sq_nonneg _
  | linf => exact foldl_max_ge _ _ _

theorem dist2_comm (nm : Norm) (dim : Nat) (x y : Point K) : dist2 nm dim x y = dist2 nm dim y x := by
  have h : ∀ j, (x j - y j) ^ 2 = (y j - x j) ^ 2 := fun j => by ring
  unfold dist2
  cases nm <;> dsimp only <;> simp only [h]

/-! ### Convexity -/

theorem sq_mean_le (n : Nat) (w f : Nat → K) (hw : ∀ i, i < n → 0 ≤ w i) (h1 : ∑ i ∈ Finset.range n, w i = 1) :
    (∑ i ∈ Finset.range n, w i * f i) ^ 2 ≤ ∑ i ∈ Finset.range n, w i * f i ^ 2 := by
  set m := ∑ i ∈ Finset.range n, w i * f i with hm
  have h : 0 ≤ ∑ i ∈ Finset.range n, w i * (f i - m) ^ 2 :=
    Finset.sum_nonneg fun i hi => mul_nonneg (hw i (Finset.mem_range.1 hi)) (sq_nonneg _)
  have e : ∑ i ∈ Finset.range n, w i * (f i - m) ^ 2 = ∑ i ∈ Finset.range n, w i * f i ^ 2 - m ^ 2 := by
    have : ∀ i, w i * (f i - m) ^ 2 = w i * f i ^ 2 - 2 * m * (w i * f i) + m ^ 2 * w i := fun i => by ring
    simp only [this, Finset.sum_add_distrib, Finset.sum_sub_distrib, ← Finset.mul_sum, h1, ← hm]
    ring
  linarith

theorem sub_mean (n : Nat) (w : Nat → K) (f : Nat → K) (c : K) (h1 : ∑ i ∈ Finset.range n, w i = 1) :
    ∑ i ∈ Finset.range n, w i * f i - c = ∑ i ∈ Finset.range n, w i * (f i - c) := by
  simp only [mul_sub, Finset.sum_sub_distrib, ← Finset.sum_mul, h1, one_mul]

theorem mean_le (n : Nat) (w f : Nat → K) (h : K) (hw : ∀ i, i < n → 0 ≤ w i) (h1 : ∑ i ∈ Finset.range n, w i = 1) (hf : ∀ i, i < n → f i ≤ h) :
    ∑ i ∈ Finset.range n, w i * f i ≤ h := by
  calc ∑ i ∈ Finset.range n, w i * f i ≤ ∑ i ∈ Finset.range n, w i * h :=
        Finset.sum_le_sum fun i hi => mul_le_mul_of_nonneg_left (hf i (Finset.mem_range.1 hi)) (hw i (Finset.mem_range.1 hi))
    _ = h := by rw [← Finset.sum_mul, h1, one_mul]

theorem pos_of_hull (n : Nat) (s : Simplex K) (p : Point K) (hp : InHull n s p) : 0 < n := by
  obtain ⟨w, _, h1, _⟩ := hp
  rcases Nat.eq_zero_or_pos n with h | h
  · subst h; simp at h1
  · exact h

/-- A ball around `y` that contains the vertices contains the simplex. -/
theorem dist2_hull (nm : Norm) (dim n : Nat) (s : Simplex K) (p y : Point K) (h2 : K) (hp : InHull n s p)
    (hs : ∀ i, i < n → dist2 nm dim (s i) y ≤ h2) : dist2 nm dim p y ≤ h2 := by
  have hn := pos_of_hull n s p hp
  have h0 : 0 ≤ h2 := le_trans (dist2_nonneg nm dim (s 0) y) (hs 0 hn)
  obtain ⟨w, hw, h1, hp⟩ := hp
  have hj : ∀ j, (p j - y j) ^ 2 ≤ ∑ i ∈ Finset.range n, w i * (s i j - y j) ^ 2 := by
    intro j
    rw [hp j, sub_mean n w (fun i => s i j) (y j) h1]
    exact sq_mean_le n w (fun i => s i j - y j) hw h1
  cases nm with
  | l2 =>
    simp only [dist2_l2] at hs ⊢
    refine le_trans (Finset.sum_le_sum fun j _ => hj j) ?_
    rw [Finset.sum_comm]
    have : ∀ i, ∑ j ∈ Finset.range dim, w i * (s i j - y j) ^ 2 = w i * euclid2 dim (s i) y := fun i => by rw [euclid2, Finset.mul_sum]
    simp only [this]
    exact mean_le n w _ h2 hw h1 hs
  | linf =>
    rw [dist2_linf_le _ _ _ _ h0]
    intro j hjd
    refine le_trans (hj j) (mean_le n w _ h2 hw h1 fun i hi => ?_)
    exact (dist2_linf_le _ _ _ _ h0).1 (hs i hi) j hjd

theorem dist2_hulls (nm : Norm) (dim n1 n2 : Nat) (s1 s2 : Simplex K) (p q : Point K) (h2 : K) (hp : InHull n1 s1 p) (hq : InHull n2 s2 q)
    (hs : ∀ i k, i < n1 → k < n2 → dist2 nm dim (s1 i) (s2 k) ≤ h2) : dist2 nm dim p q ≤ h2 := by
  refine dist2_hull nm dim n1 s1 p q h2 hp fun i hi => ?_
  rw [dist2_comm]
  refine dist2_hull nm dim n2 s2 q (s1 i) h2 hq fun k hk => ?_
  rw [dist2_comm]
  exact hs i k hi hk

/-! ### Minimum and maximum -/

theorem inner_ge (nm : Norm) (dim : Nat) (s1 s2 : Simplex K) (i : Nat) (h2 : K) (l : List Nat) (st : Option K × K) :
    (atLeast h2 (l.foldl (extremeStep nm dim s1 s2 i) st).1 = true ↔ atLeast h2 st.1 = true ∧ ∀ k ∈ l, h2 ≤ dist2 nm dim (s1 i) (s2 k)) ∧
      ((l.foldl (extremeStep nm dim s1 s2 i) st).2 ≤ h2 ↔ st.2 ≤ h2 ∧ ∀ k ∈ l, dist2 nm dim (s1 i) (s2 k) ≤ h2) := by
  induction l generalizing st with
  | nil => simp
  | cons k l ih =>
    simp only [List.foldl_cons, List.mem_cons, forall_eq_or_imp]
    rw [(ih _).1, (ih _).2]
    unfold extremeStep
    dsimp only
    refine ⟨?_, by rw [max_le_iff, and_assoc]⟩
    rw [← and_assoc]
    refine and_congr_left fun _ => ?_
    rcases st with ⟨_ | m, d⟩ <;> simp [atLeast]

theorem outer_ge (nm : Norm) (dim n2 : Nat) (s1 s2 : Simplex K) (h2 : K) (l : List Nat) (st : Option K × K) :
    (atLeast h2 (l.foldl (fun st i => (List.range n2).foldl (extremeStep nm dim s1 s2 i) st) st).1 = true ↔
        atLeast h2 st.1 = true ∧ ∀ i ∈ l, ∀ k, k < n2 → h2 ≤ dist2 nm dim (s1 i) (s2 k)) ∧
      ((l.foldl (fun st i => (List.range n2).foldl (extremeStep nm dim s1 s2 i) st) st).2 ≤ h2 ↔
        st.2 ≤ h2 ∧ ∀ i ∈ l, ∀ k, k < n2 → dist2 nm dim (s1 i) (s2 k) ≤ h2) := by
  induction l generalizing st with
  | nil => simp
  | cons i l ih =>
    simp only [List.foldl_cons, List.mem_cons, forall_eq_or_imp]
    rw [(ih _).1, (ih _).2, (inner_ge nm dim s1 s2 i h2 _ _).1, (inner_ge nm dim s1 s2 i h2 _ _).2]
    simp only [List.mem_range, and_assoc, and_self]

theorem extremes_min (nm : Norm) (dim n1 n2 : Nat) (s1 s2 : Simplex K) (h2 : K) :
    atLeast h2 (extremes nm dim n1 n2 s1 s2).1 = true ↔ ∀ i k, i < n1 → k < n2 → h2 ≤ dist2 nm dim (s1 i) (s2 k) := by
  unfold extremes
  rw [(outer_ge nm dim n2 s1 s2 h2 _ _).1]
  simp only [atLeast, true_and, List.mem_range]
  exact ⟨fun h i k hi hk => h i hi k hk, fun h i hi k hk => h i k hi hk⟩

theorem extremes_max (nm : Norm) (dim n1 n2 : Nat) (s1 s2 : Simplex K) (h2 : K) (h0 : 0 ≤ h2) :
    (extremes nm dim n1 n2 s1 s2).2 ≤ h2 ↔ ∀ i k, i < n1 → k < n2 → dist2 nm dim (s1 i) (s2 k) ≤ h2 := by
  unfold extremes
  rw [(outer_ge nm dim n2 s1 s2 h2 _ _).2]
  simp only [h0, true_and, List.mem_range]
  exact ⟨fun h i k hi hk => h i hi k hk, fun h i hi k hk => h i k hi hk⟩

/-! ### Transformed balls -/

theorem forward_eq (dim : Nat) (A : Nat → Nat → K) (x y : Point K) (i : Nat) : x i - forward dim A x y i = apply dim A x i - apply dim A y i := by
  unfold forward apply
  rw [foldl_add, sum_range_list, ← Finset.sum_sub_distrib]
  have : ∀ j, A i j * (y j - x j) = -(A i j * x j - A i j * y j) := fun j => by ring
  simp only [this, Finset.sum_neg_distrib]
  ring

theorem dist2_congr (nm : Norm) (dim : Nat) (x y x' y' : Point K) (h : ∀ j, x j - y j = x' j - y' j) : dist2 nm dim x y = dist2 nm dim x' y' := by
  unfold dist2
  cases nm <;> dsimp only <;> simp only [h]

theorem dist2_forward (nm : Norm) (dim : Nat) (A : Nat → Nat → K) (x y : Point K) :
    dist2 nm dim x (forward dim A x y) = dist2 nm dim (apply dim A x) (apply dim A y) :=
  dist2_congr _ _ _ _ _ _ (forward_eq dim A x y)

theorem apply_hull (dim n : Nat) (A : Nat → Nat → K) (s : Simplex K) (p : Point K) (hp : InHull n s p) :
    InHull n (fun i => apply dim A (s i)) (apply dim A p) := by
  obtain ⟨w, hw, h1, hp⟩ := hp
  refine ⟨w, hw, h1, fun k => ?_⟩
  unfold apply
  simp only [hp, Finset.mul_sum]
  rw [Finset.sum_comm]
  refine Finset.sum_congr rfl fun i _ => Finset.sum_congr rfl fun j _ => ?_
  ring

/-! ### The counters -/

/-- What the counters tell about the pairs seen. -/
theorem countInner_spec (inside : Nat → Bool) (l : List Nat) (c : Nat × Nat) :
    (0 < (countInner inside l c).1.1 ↔ 0 < c.1 ∨ ∃ k ∈ l, inside k = true) ∧ (0 < (countInner inside l c).1.2 ↔ 0 < c.2 ∨ ∃ k ∈ l, inside k = false) ∧
        (countInner inside l c).2 = false ∨
      (0 < (countInner inside l c).1.1 ∧ 0 < (countInner inside l c).1.2 ∧ (countInner inside l c).2 = true) ∧
        (0 < c.1 ∨ ∃ k ∈ l, inside k = true) ∧ (0 < c.2 ∨ ∃ k ∈ l, inside k = false) := by
  induction l generalizing c with
  | nil => left; simp [countInner]
  | cons k l ih =>
    unfold countInner
    dsimp only
    set c' : Nat × Nat := if inside k then (c.1 + 1, c.2) else (c.1, c.2 + 1) with hc'
    have e1 : (0 < c'.1) ↔ 0 < c.1 ∨ inside k = true := by
      rw [hc']; cases inside k <;> simp
    have e2 : (0 < c'.2) ↔ 0 < c.2 ∨ inside k = false := by
      rw [hc']; cases inside k <;> simp
    split
    · rename_i h
      right
      refine ⟨⟨h.1, h.2, rfl⟩, ?_, ?_⟩
      · rcases e1.1 h.1 with h | h
        · exact .inl h
        · exact .inr ⟨k, List.mem_cons_self, h⟩
      · rcases e2.1 h.2 with h | h
        · exact .inl h
        · exact .inr ⟨k, List.mem_cons_self, h⟩
    · simpa only [e1, e2, List.mem_cons, exists_eq_or_imp, or_assoc] using ih c'

theorem countOuter_spec (inside : Nat → Nat → Bool) (n2 : Nat) (l : List Nat) (c : Nat × Nat) :
    (0 < (countOuter inside n2 l c).1 ↔ 0 < c.1 ∨ ∃ i ∈ l, ∃ k, k < n2 ∧ inside i k = true) ∧
        (0 < (countOuter inside n2 l c).2 ↔ 0 < c.2 ∨ ∃ i ∈ l, ∃ k, k < n2 ∧ inside i k = false) := by
  induction l generalizing c with
  | nil => simp [countOuter]
  | cons i l ih =>
    unfold countOuter
    dsimp only
    simp only [List.mem_cons, exists_eq_or_imp]
    have h := countInner_spec (inside i) (List.range n2) c
    simp only [List.mem_range] at h
    rcases h with ⟨h1, h2, h3⟩ | ⟨⟨h1, h2, h3⟩, h4, h5⟩
    · rw [h3]
      simp only [Bool.false_eq_true, if_false]
      rw [(ih _).1, (ih _).2, h1, h2]
      simp only [or_assoc, and_self]
    · rw [h3]
      simp only [if_true, h1, h2, true_iff]
      exact ⟨by rw [← or_assoc]; exact .inl h4, by rw [← or_assoc]; exact .inl h5⟩

end PyNucleus.Interaction
