import Verif.Proof.OrderIntervals
import Mathlib.Algebra.Order.Ring.Int

/-!
# C104: intervals and nodes for the interpolation in the fractional order, admissible sets
-/

namespace PyNucleus.Props.C104

open PyNucleus.OrderIntervals

/-- Fixed orders: no assertion fails; the intervals follow each other from the left end on, they use the
first order below one half and the second one from there on, the factor of contraction is at most `η` on
each of them; and if there are fewer than 1000, they reach the right end. -/
theorem fixed_partial (δ r η sLeft sRight : ℝ) (M M2 : Nat) (hη : 0 < η) (hr : 0 < r + sLeft)
    (hR : sRight < 1) :
    ∃ l, intervalsFixed δ r η sLeft sRight M M2 = some l ∧ Chain sRight sLeft l ∧ l.length ≤ 1000 ∧
      (∀ p ∈ l, contraction δ r p.1 p.2.1 p.2.2 ≤ η ∧ p.2.2 = if p.1 ≥ 1 / 2 then M2 else M) ∧
      (l.length < 1000 → sRight ≤ endOf sLeft l) := by
  obtain ⟨l, h1, h2, h3, h4, h5, -⟩ := loopFixed_spec (δ := δ) (r := r) M M2 hη hR 1000 sLeft
    (if sLeft ≥ 1 / 2 then M2 else M) hr (fun h => if_pos h) (fun h => if_neg h)
  exact ⟨l, h1, h2, h3, h4, h5⟩

/-- They reach the right end if each step from a point of the interval is at least a thousandth of its
length. -/
theorem covers_partial (δ r η sLeft sRight : ℝ) (M M2 : Nat) (hη : 0 < η) (hr : 0 < r + sLeft)
    (hR : sRight < 1) (hLR : sLeft ≤ sRight)
    (hstep : ∀ u M, sLeft ≤ u → u < sRight → ∃ t, sigmaMaxFixed δ r η M u = some t ∧ (sRight - sLeft) / 1000 ≤ t - u) :
    ∃ l, intervalsFixed δ r η sLeft sRight M M2 = some l ∧ endOf sLeft l = sRight := by
  obtain ⟨l, h1, h2, h3, h4, h5, h6, h7⟩ := loopFixed_spec (δ := δ) (r := r) M M2 hη hR 1000 sLeft
    (if sLeft ≥ 1 / 2 then M2 else M) hr (fun h => if_pos h) (fun h => if_neg h)
  refine ⟨l, h1, le_antisymm ?_ ?_⟩
  · have : ∀ (l : List Piece) (s : ℝ), s ≤ sRight → Chain sRight s l → endOf s l ≤ sRight := by
      intro l
      induction l with
      | nil => intro s hs _; exact hs
      | cons p l ih => intro s _ hc; exact ih _ hc.2.2.1 hc.2.2.2
    exact this l sLeft hLR h2
  · have h8 := h7 ((sRight - sLeft) / 1000) (fun u M hu hu' => by
      obtain ⟨t, ht, hle⟩ := hstep u M hu hu'
      rw [sigmaMaxFixed_some hη (gap_pos (by linarith) (by linarith))] at ht
      cases ht
      linarith)
    rw [min_eq_left (by push_cast; linarith)] at h8
    exact h8

/-- The number of intervals is limited to 1000 without notice: for a small factor of contraction the
intervals end before the right end. -/
theorem covers_fails :
    ¬ ∀ (δ r η sLeft sRight : ℝ) (M M2 : Nat) (l : List Piece), 0 < δ → 0 < sLeft → sLeft < sRight →
      sRight < 1 → 0 ≤ r → 0 < η → intervalsFixed δ r η sLeft sRight M M2 = some l →
      endOf sLeft l = sRight := by
  intro h
  obtain ⟨l, h1, h2, h3, h4, h5, h6, -⟩ := loopFixed_spec (δ := 1) (r := 1) (η := 1 / 10 ^ 6)
    (sRight := 3 / 4) 0 0 (by norm_num) (by norm_num) 1000 (1 / 4) 0 (by norm_num) (fun _ => rfl) (fun _ => rfl)
  have hend := h 1 1 (1 / 10 ^ 6) (1 / 4) (3 / 4) 0 0 l (by norm_num) (by norm_num) (by norm_num) (by norm_num)
    (by norm_num) (by norm_num) (by unfold intervalsFixed; simpa using h1)
  have hc : ∀ (l : List Piece) (s : ℝ), 1 / 4 ≤ s → Chain (3 / 4) s l → ∀ p ∈ l, 1 / 4 ≤ p.1 ∧ p.1 ≤ 3 / 4 := by
    intro l
    induction l with
    | nil => intro s _ _ p hp; cases hp
    | cons q l ih =>
      intro s hs hc p hp
      rcases List.mem_cons.mp hp with rfl | hp
      · exact ⟨hc.1 ▸ hs, hc.1 ▸ (hc.2.1.le.trans hc.2.2.1)⟩
      · exact ih q.2.1 (hs.trans hc.2.1.le) hc.2.2.2 p hp
  have hM : ∀ p ∈ l, p.2.2 = 0 := by
    intro p hp
    have := (h4 p hp).2
    simpa using this
  have hle := endOf_le (3 / 4) (1 / 10 ^ 6) l (1 / 4) h2 (fun p hp => by
    obtain ⟨hp1, hp2⟩ := hc l (1 / 4) (le_refl _) h2 p hp
    have hg : 0 < gap 1 p.1 := gap_pos (by linarith) (by linarith)
    have hη : (0 : ℝ) < 1 / 10 ^ 6 := by norm_num
    have hs := step_le_sigma (δ := 1) (M := p.2.2) hη hg
    have hb := h6 p hp
    have hσ : sigma 1 1 (1 / 10 ^ 6) p.2.2 p.1 ≤ 1 / 10 ^ 6 := by
      have := sigma_pow (δ := 1) (r := 1) (s := p.1) p.2.2 hη
      rw [hM p hp] at this ⊢
      rw [zero_add, pow_one] at this
      rw [this]
      exact div_le_self hη.le (Cdelta_ge_one 1 1 p.1)
    linarith)
  rw [hend] at hle
  have hl : (l.length : ℝ) ≤ 1000 := by exact_mod_cast h3
  norm_num at hle
  linarith

/-- Variable orders, for parameters `1/10 < ξ < 1/2`: no assertion fails, the intervals follow each other,
and the factor of contraction is at most `η` wherever the order is below the largest one that is
allowed. -/
theorem variable_partial (δ r η ξ sLeft sRight : ℝ) (Mmin Mmax : Nat) (hη : 0 < η) (hr : 0 < r + sLeft)
    (hR : sRight < 1) (h1 : 1 / 10 < ξ) (h2 : ξ < 1 / 2) :
    ∃ l, intervalsVariable δ r η ξ sLeft sRight Mmin Mmax = some l ∧ Chain sRight sLeft l ∧
      (∀ p ∈ l, min Mmin Mmax ≤ p.2.2 ∧ p.2.2 ≤ Mmax ∧
        (p.2.2 < Mmax → contraction δ r p.1 p.2.1 p.2.2 ≤ η)) ∧
      (l.length < 1000 → sRight ≤ endOf sLeft l) := by
  obtain ⟨l, h3, h4, -, h5, h6⟩ := loopVariable_spec (δ := δ) (r := r) Mmin Mmax hη hR h1 h2 1000 sLeft hr
  exact ⟨l, h3, h4, h5, h6⟩

/-- The largest order is used even if it does not give the factor of contraction. -/
theorem variable_fails :
    ¬ ∀ (δ r η ξ sLeft sRight : ℝ) (Mmin Mmax : Nat) (l : List Piece), 0 < δ → 0 < sLeft → sLeft < sRight →
      sRight < 1 → 0 ≤ r → 0 < η → 1 / 10 < ξ → ξ < 1 / 2 → Mmin ≤ Mmax →
      intervalsVariable δ r η ξ sLeft sRight Mmin Mmax = some l →
      ∀ p ∈ l, contraction δ r p.1 p.2.1 p.2.2 ≤ η := by
  intro h
  have hg : gap 1 (1 / 4) = 1 / 2 := by unfold gap lifting; norm_num
  obtain ⟨l, h3, h4, -, h5, h6⟩ := loopVariable_spec (δ := 1) (r := 1) (η := 1 / 10 ^ 10) (ξ := 3 / 10)
    (sRight := 3 / 4) 3 3 (by norm_num) (by norm_num) (by norm_num) (by norm_num) 1000 (1 / 4) (by norm_num)
  have hall := h 1 1 (1 / 10 ^ 10) (3 / 10) (1 / 4) (3 / 4) 3 3 l (by norm_num) (by norm_num) (by norm_num)
    (by norm_num) (by norm_num) (by norm_num) (by norm_num) (by norm_num) (le_refl _) h3
  rw [loopVariable, if_pos (by norm_num), sigmaMaxVariable_some (by rw [hg]; norm_num) (by norm_num) (by norm_num),
    Option.bind_some, hg] at h3
  obtain ⟨l', -, rfl⟩ := Option.map_eq_some_iff.mp h3
  have := hall _ List.mem_cons_self
  dsimp only at this
  have hcap : ∀ m, capped 3 3 m = 3 := by intro m; unfold capped; omega
  rw [hcap] at this
  have hmin : min (1 / 4 + (1 / 2 - 3 / 10) * (1 / 2)) (3 / 4) = (7 / 20 : ℝ) := by norm_num
  rw [hmin] at this
  unfold contraction at this
  rw [epsHat_eq, hg] at this
  have hC := Cdelta_ge_one 1 1 (1 / 4)
  norm_num at this
  linarith

/-- The order that is chosen is one of those offered and has the smallest cost. -/
theorem chosen (f : Nat → Nat) (orders : List Nat) (h : orders ≠ []) :
    best orders (orders.map f) ∈ orders ∧ ∀ M ∈ orders, f (best orders (orders.map f)) ≤ f M := by
  obtain ⟨h1, h2⟩ := argmin_spec (orders.map f) (by simpa using h)
  have h1' : argmin (orders.map f) < orders.length := by simpa using h1
  unfold best
  rw [List.getD_eq_getElem _ _ h1']
  refine ⟨List.getElem_mem h1', fun M hM => ?_⟩
  have := h2 (f M) (List.mem_map.mpr ⟨M, hM, rfl⟩)
  rw [List.getD_eq_getElem _ _ h1, List.getElem_map] at this
  exact this

/-- The nodes are inside of the interval, increasing, and as many as asked for. -/
theorem nodes (n : Nat) (a b : ℝ) (hab : a < b) :
    (chebyNodes n a b).length = n ∧ (∀ x ∈ chebyNodes n a b, a < x ∧ x < b) ∧
      (chebyNodes n a b).Pairwise (· < ·) := by
  refine ⟨by simp [chebyNodes], fun x hx => ?_, ?_⟩
  · obtain ⟨i, hi, rfl⟩ := List.mem_map.mp hx
    obtain ⟨h1, h2⟩ := angle_bounds (List.mem_range.mp hi)
    have hc1 := Real.strictAntiOn_cos (show (0 : ℝ) ∈ Set.Icc 0 Real.pi from ⟨le_refl _, Real.pi_pos.le⟩)
      (show _ ∈ Set.Icc 0 Real.pi from ⟨h1.le, h2.le⟩) h1
    have hc2 := Real.strictAntiOn_cos (show _ ∈ Set.Icc 0 Real.pi from ⟨h1.le, h2.le⟩)
      (show Real.pi ∈ Set.Icc 0 Real.pi from ⟨Real.pi_pos.le, le_refl _⟩) h2
    rw [Real.cos_zero] at hc1
    rw [Real.cos_pi] at hc2
    have hba : 0 < b - a := by linarith
    constructor <;> nlinarith
  · unfold chebyNodes
    rw [List.pairwise_map]
    refine List.Pairwise.imp_of_mem ?_ List.pairwise_lt_range
    intro i j hi hj hij
    have hi' := List.mem_range.mp hi
    have hj' := List.mem_range.mp hj
    obtain ⟨h1, h2⟩ := angle_bounds hi'
    obtain ⟨h3, h4⟩ := angle_bounds hj'
    have hn : (0 : ℝ) < 2 * n := by
      have : (0 : ℝ) < n := by exact_mod_cast (show 0 < n by omega)
      linarith
    have hlt : (2 * ((n - j : Nat) : ℝ) - 1) / (2 * n) * Real.pi < (2 * ((n - i : Nat) : ℝ) - 1) / (2 * n) * Real.pi := by
      refine mul_lt_mul_of_pos_right ?_ Real.pi_pos
      rw [div_lt_div_iff_of_pos_right hn]
      have : ((n - j : Nat) : ℝ) < ((n - i : Nat) : ℝ) := by exact_mod_cast (show n - j < n - i by omega)
      linarith
    have := Real.strictAntiOn_cos (show _ ∈ Set.Icc 0 Real.pi from ⟨h3.le, h4.le⟩)
      (show _ ∈ Set.Icc 0 Real.pi from ⟨h1.le, h2.le⟩) hlt
    have hba : 0 < 0.5 * (b - a) := by norm_num; linarith
    nlinarith

section
variable {K : Type} [Zero K] [LinearOrder K]

/-- Values for the active parameters are completed with the lower bounds; the result is admissible exactly
if the values are within their ranges. No range is empty. -/
theorem augmented (ranges : List (K × K)) (hr : ∀ p ∈ ranges, p.1 ≤ p.2) (zActive : List K)
    (hz : zActive.length = (active ranges).length) :
    ∃ z, augment ranges zActive = some z ∧ z.length = ranges.length ∧
      (∀ i (hi : i < ranges.length), ¬ ranges[i].1 < ranges[i].2 → z.getD i 0 = ranges[i].1) ∧
      (∀ k (hk : k < (active ranges).length), z.getD (active ranges)[k] 0 = zActive.getD k 0) ∧
      (isAdmissible ranges z = some true ↔ ∀ k (hk : k < (active ranges).length),
        (ranges.getD (active ranges)[k] (0, 0)).1 ≤ zActive.getD k 0 ∧
          zActive.getD k 0 ≤ (ranges.getD (active ranges)[k] (0, 0)).2) := by
  have hbound : ∀ i ∈ active ranges, i < (ranges.map Prod.fst).length := by
    intro i hi
    rw [List.length_map]
    exact ((mem_active ranges i).mp hi).1
  have hother : ∀ i (hi : i < ranges.length), ¬ ranges[i].1 < ranges[i].2 →
      (assign (ranges.map Prod.fst) (active ranges) zActive).getD i 0 = ranges[i].1 := by
    intro i hi hn
    rw [assign_other _ _ _ _ (fun h => hn ((mem_active ranges i).mp h).2),
      List.getD_eq_getElem _ _ (by simpa using hi), List.getElem_map]
  have hat := assign_at (active ranges) (ranges.map Prod.fst) zActive (nodup_active ranges) hz hbound
  refine ⟨assign (ranges.map Prod.fst) (active ranges) zActive, by unfold augment; rw [if_pos hz],
    by rw [assign_length, List.length_map], hother, hat, ?_⟩
  unfold isAdmissible
  rw [if_pos (by rw [assign_length, List.length_map]), Option.some.injEq, List.all_eq_true]
  simp only [List.mem_range, Bool.and_eq_true, decide_eq_true_eq]
  constructor
  · intro h k hk
    have := h (active ranges)[k] (by simpa using hbound _ (List.getElem_mem hk))
    rw [hat k hk] at this
    exact this
  · intro h i hi
    by_cases hact : i ∈ active ranges
    · obtain ⟨k, hk, rfl⟩ := List.getElem_of_mem hact
      rw [hat k hk]
      exact h k hk
    · have hn : ¬ ranges[i].1 < ranges[i].2 := fun hlt => hact ((mem_active ranges i).mpr ⟨hi, hlt⟩)
      rw [hother i hi hn, List.getD_eq_getElem _ _ hi]
      exact ⟨le_refl _, hr _ (List.getElem_mem hi)⟩

/-- Vectors of one of two sets of parameters are found again in the vector of both. The second set has a
parameter. -/
theorem pair_partial (n1 n2 : Nat) (z1 z2 : List K) (h1 : z1.length = n1) (h2 : z2.length = n2) (hn : 0 < n2) :
    ((inject1 n1 n2 z1).bind (project1 n1 n2) = some z1 ∧
      (inject2 n1 n2 z2).bind (project2 n1 n2) = some z2) ∧
    ((inject1 n1 n2 z1).bind (project2 n1 n2) = some (List.replicate n2 0) ∧
      (inject2 n1 n2 z2).bind (project1 n1 n2) = some (List.replicate n1 0)) := by
  subst h1 h2
  have hn' : ¬ z2 = [] := by rintro rfl; simp at hn
  simp [inject1, inject2, project1, project2, hn']

/-- If the second set has no parameters, the projection to it gives the whole vector. -/
theorem pair_fails : ¬ ∀ (n1 n2 : Nat) (z2 : List Int), z2.length = n2 →
    (inject2 n1 n2 z2).bind (project2 n1 n2) = some z2 := by
  intro h
  have := h 2 0 [] rfl
  revert this
  decide

end

/-- Concrete cases. -/
theorem sample_case :
    augment (K := Int) [(0, 4), (3, 3), (1, 2)] [2, 1] = some [2, 3, 1] ∧
    isAdmissible (K := Int) [(0, 4), (3, 3), (1, 2)] [2, 3, 1] = some true ∧
    isAdmissible (K := Int) [(0, 4), (3, 3), (1, 2)] [5, 3, 1] = some false ∧
    best [3, 4, 5, 6] [20, 15, 12, 12] = 5 ∧
    (gap 1 (1 / 4) = 1 / 2 ∧ epsHat 1 (1 / 4) (1 / 4) = 1 / 2) := by
  refine ⟨by decide, by decide, by decide, by decide, ?_, ?_⟩
  · unfold gap lifting; norm_num
  · rw [epsHat_eq]; unfold gap lifting; norm_num

end PyNucleus.Props.C104
