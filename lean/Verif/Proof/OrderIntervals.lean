import Verif.Spec.OrderIntervals
import Mathlib.Analysis.SpecialFunctions.Log.Basic
import Mathlib.Analysis.Complex.ExponentialBounds
import Mathlib.Data.List.GetD
import Mathlib.Tactic.Linarith
import Mathlib.Tactic.FieldSimp
import Mathlib.Tactic.Positivity
import Mathlib.Tactic.GCongr

/-! # Lemmas on intervals for the fractional order -/

namespace PyNucleus.OrderIntervals

/-- The distance to the largest order that is reached. -/
noncomputable def gap (r s : ℝ) : ℝ := min (1 - s) (lifting r s)

theorem s2_eq (r s : ℝ) : s2 r s = s + gap r s := by
  unfold s2 gap
  rw [← min_add_add_left]
  congr 1
  ring

theorem epsHat_eq (r s t : ℝ) : epsHat r s t = gap r s - 2 * (t - s) := by
  unfold epsHat
  rw [s2_eq]
  ring

theorem gap_le (r s : ℝ) : gap r s ≤ 1 / 2 := (min_le_right _ _).trans (min_le_right _ _)

theorem gap_pos {r s : ℝ} (h0 : 0 < r + s) (h1 : s < 1) : 0 < gap r s := by
  unfold gap lifting
  refine lt_min (by linarith) (lt_min h0 (by norm_num))

theorem Cdelta_pos (δ r s : ℝ) : 0 < Cdelta δ r s := by
  unfold Cdelta
  have := Real.exp_pos (-1)
  split
  · rename_i h
    have := Real.rpow_pos_of_pos (show (0 : ℝ) < δ by linarith) (epsHat r s s + 1)
    linarith
  · linarith

theorem sigma_pos {δ r η s : ℝ} {M : Nat} (hη : 0 < η) : 0 < sigma δ r η M s :=
  Real.rpow_pos_of_pos (div_pos hη (Cdelta_pos δ r s)) _

theorem sigma_pow {δ r η s : ℝ} (M : Nat) (hη : 0 < η) :
    sigma δ r η M s ^ (M + 1) = η / Cdelta δ r s := by
  unfold sigma
  have : (1 / ((M : ℝ) + 1)) = (((M + 1 : ℕ) : ℝ))⁻¹ := by push_cast; rw [one_div]
  rw [this]
  exact Real.rpow_inv_natCast_pow (div_pos hη (Cdelta_pos δ r s)).le (by omega)

theorem checked_some {r s x : ℝ} (hg : 0 < gap r s) (hx0 : 0 ≤ x) (hx1 : x < gap r s / 2) :
    checked r s (s + x) = some (s + x) := by
  unfold checked
  rw [s2_eq, if_pos]
  have := gap_le r s
  constructor <;> linarith

/-- The step of the fixed order. -/
noncomputable def step (δ r η : ℝ) (M : Nat) (s : ℝ) : ℝ :=
  2 * sigma δ r η M s / (1 + 4 * sigma δ r η M s) * gap r s

theorem step_bounds {δ r η s : ℝ} {M : Nat} (hη : 0 < η) (hg : 0 < gap r s) :
    0 < step δ r η M s ∧ step δ r η M s < gap r s / 2 ∧
      step δ r η M s * (1 + 4 * sigma δ r η M s) = 2 * sigma δ r η M s * gap r s := by
  have hσ := sigma_pos (δ := δ) (r := r) (s := s) (M := M) hη
  have hmul : step δ r η M s * (1 + 4 * sigma δ r η M s) = 2 * sigma δ r η M s * gap r s := by
    unfold step
    field_simp
  have h1 : (0 : ℝ) < 1 + 4 * sigma δ r η M s := by linarith
  have hpos : 0 < step δ r η M s := by
    unfold step
    positivity
  refine ⟨hpos, ?_, hmul⟩
  by_contra hcon
  push Not at hcon
  nlinarith

theorem sigmaMaxFixed_some {δ r η s : ℝ} {M : Nat} (hη : 0 < η) (hg : 0 < gap r s) :
    sigmaMaxFixed δ r η M s = some (s + step δ r η M s) := by
  obtain ⟨h1, h2, -⟩ := step_bounds (δ := δ) (M := M) hη hg
  exact checked_some hg h1.le h2

/-- The factor of contraction on an interval that is not longer than the step. -/
theorem contraction_le {δ r η s t : ℝ} {M : Nat} (hη : 0 < η) (hg : 0 < gap r s) (hst : s ≤ t)
    (ht : t ≤ s + step δ r η M s) : contraction δ r s t M ≤ η := by
  obtain ⟨h1, h2, h3⟩ := step_bounds (δ := δ) (M := M) hη hg
  have hσ := sigma_pos (δ := δ) (r := r) (s := s) (M := M) hη
  have hC := Cdelta_pos δ r s
  have hε : 0 < epsHat r s t := by rw [epsHat_eq]; linarith
  have hratio : (t - s) / 2 / epsHat r s t ≤ sigma δ r η M s := by
    rw [div_le_iff₀ hε, epsHat_eq]
    have hx : (t - s) * (1 + 4 * sigma δ r η M s) ≤ step δ r η M s * (1 + 4 * sigma δ r η M s) :=
      mul_le_mul_of_nonneg_right (by linarith) (by linarith)
    rw [h3] at hx
    nlinarith
  have h0 : 0 ≤ (t - s) / 2 / epsHat r s t := by
    have : 0 ≤ t - s := by linarith
    positivity
  unfold contraction
  calc Cdelta δ r s * ((t - s) / 2 / epsHat r s t) ^ (M + 1)
      ≤ Cdelta δ r s * sigma δ r η M s ^ (M + 1) := by gcongr
    _ = η := by rw [sigma_pow M hη]; field_simp

theorem loopFixed_spec {δ r η sRight : ℝ} (M1 M2 : Nat) (hη : 0 < η) (hR : sRight < 1) :
    ∀ (k : Nat) (s : ℝ) (M : Nat), 0 < r + s → (s ≥ 1 / 2 → M = M2) → (¬ s ≥ 1 / 2 → M = M1) →
    ∃ l, loopFixed δ r η sRight M2 k s M = some l ∧ Chain sRight s l ∧ l.length ≤ k ∧
      (∀ p ∈ l, contraction δ r p.1 p.2.1 p.2.2 ≤ η ∧ p.2.2 = if p.1 ≥ 1 / 2 then M2 else M1) ∧
      (l.length < k → sRight ≤ endOf s l) ∧
      (∀ p ∈ l, p.2.1 ≤ p.1 + step δ r η p.2.2 p.1) ∧
      (∀ c, (∀ u M, s ≤ u → u < sRight → c ≤ step δ r η M u) → min sRight (s + k * c) ≤ endOf s l) := by
  intro k
  induction k with
  | zero =>
    intro s M _ _ _
    refine ⟨[], rfl, trivial, le_refl _, fun p hp => (by cases hp), fun h => absurd h (by simp),
      fun p hp => (by cases hp), fun c _ => ?_⟩
    simp [endOf]
  | succ k ih =>
    intro s M hs hM2 hM1
    rw [loopFixed]
    by_cases hlt : s < sRight
    · rw [if_pos hlt]
      have hg : 0 < gap r s := gap_pos hs (by linarith)
      obtain ⟨h1, h2, h3⟩ := step_bounds (δ := δ) (M := M) hη hg
      rw [sigmaMaxFixed_some hη hg, Option.bind_some]
      have hst : s < min (s + step δ r η M s) sRight := lt_min (by linarith) hlt
      obtain ⟨l, hl, hc, hlen, hall, hend, hstep, hlow⟩ := ih (min (s + step δ r η M s) sRight)
        (if min (s + step δ r η M s) sRight ≥ 1 / 2 then M2 else M) (by linarith)
        (fun h => if_pos h) (fun h => by
          rw [if_neg h]
          exact hM1 fun h' => h (by linarith))
      refine ⟨(s, min (s + step δ r η M s) sRight, M) :: l, by rw [hl]; rfl,
        ⟨rfl, hst, min_le_right _ _, hc⟩, by simpa using hlen, ?_, ?_, ?_, ?_⟩
      · intro p hp
        rcases List.mem_cons.mp hp with rfl | hp
        · refine ⟨contraction_le hη hg hst.le (min_le_left _ _), ?_⟩
          dsimp only
          split
          · rename_i h; exact hM2 h
          · rename_i h; exact hM1 h
        · exact hall p hp
      · intro h
        simp only [List.length_cons, Nat.add_lt_add_iff_right] at h
        exact hend h
      · intro p hp
        rcases List.mem_cons.mp hp with rfl | hp
        · exact min_le_left _ _
        · exact hstep p hp
      · intro c hc'
        have h5 := hlow c fun u M hu => hc' u M (by linarith)
        have h6 := hc' s M (le_refl _) hlt
        show min sRight (s + ((k + 1 : ℕ) : ℝ) * c) ≤ endOf (min (s + step δ r η M s) sRight) l
        rcases le_total (s + step δ r η M s) sRight with h | h
        · refine le_trans (min_le_min_left _ ?_) h5
          rw [min_eq_left h]
          push_cast
          linarith
        · rw [min_eq_right h] at h5
          have hmono : ∀ (l : List Piece) (s : ℝ), Chain sRight s l → s ≤ endOf s l := by
            intro l
            induction l with
            | nil => intro s _; exact le_refl _
            | cons p l ih =>
              intro s hc
              exact hc.2.1.le.trans (ih _ hc.2.2.2)
          rw [min_eq_right h] at hc ⊢
          exact (min_le_left _ _).trans (hmono l sRight hc)
    · rw [if_neg hlt]
      refine ⟨[], rfl, trivial, by simp, fun p hp => (by cases hp), fun _ => not_lt.mp hlt,
        fun p hp => (by cases hp), fun c _ => ?_⟩
      exact (min_le_left _ _).trans (not_lt.mp hlt)

/-- Steps that are not longer than `c` do not lead further than `c` for each interval. -/
theorem endOf_le (sRight c : ℝ) : ∀ (l : List Piece) (s : ℝ), Chain sRight s l →
    (∀ p ∈ l, p.2.1 ≤ p.1 + c) → endOf s l ≤ s + l.length * c := by
  intro l
  induction l with
  | nil => intro s _ _; simp [endOf]
  | cons p l ih =>
    intro s hc hp
    have h1 := ih p.2.1 hc.2.2.2 fun q hq => hp q (by simp [hq])
    have h2 := hp p (by simp)
    rw [hc.1] at h2
    show endOf p.2.1 l ≤ _
    rw [List.length_cons]
    push_cast
    linarith

theorem step_le_sigma {δ r η s : ℝ} {M : Nat} (hη : 0 < η) (hg : 0 < gap r s) :
    step δ r η M s ≤ sigma δ r η M s := by
  have hσ := sigma_pos (δ := δ) (r := r) (s := s) (M := M) hη
  have h := gap_le r s
  obtain ⟨h1, -, h3⟩ := step_bounds (δ := δ) (M := M) hη hg
  nlinarith

theorem Cdelta_ge_one (δ r s : ℝ) : 1 ≤ Cdelta δ r s := by
  have he : (1 : ℝ) ≤ 4 * Real.exp (-1) := by
    rw [Real.exp_neg]
    have := Real.exp_one_lt_d9
    have h0 := Real.exp_pos 1
    rw [← div_eq_mul_inv, le_div_iff₀ h0]
    linarith
  unfold Cdelta
  split
  · rename_i h
    have := Real.rpow_pos_of_pos (show (0 : ℝ) < δ by linarith) (epsHat r s s + 1)
    linarith
  · exact he

/-! ## Variable order -/

theorem variable_sigma {r s ξ : ℝ} (hg : 0 < gap r s) (hξ : 0 < ξ) :
    (s + (1 / 2 - ξ) * gap r s - s) / 2 / epsHat r s (s + (1 / 2 - ξ) * gap r s) = (1 / 2 - ξ) / (4 * ξ) := by
  rw [epsHat_eq]
  have : gap r s - 2 * (s + (1 / 2 - ξ) * gap r s - s) = 2 * ξ * gap r s := by ring
  rw [this]
  field_simp
  ring

theorem sigmaMaxVariable_some {δ r η ξ s : ℝ} (hg : 0 < gap r s) (h1 : 1 / 10 < ξ) (h2 : ξ < 1 / 2) :
    sigmaMaxVariable δ r η ξ s = some (s + (1 / 2 - ξ) * gap r s,
      ⌈Real.log (η / Cdelta δ r s) / Real.log ((1 / 2 - ξ) / (4 * ξ)) - 1⌉) := by
  have hx : (s + s2 r s) / 2 - ξ * min (1 - s) (lifting r s) = s + (1 / 2 - ξ) * gap r s := by
    rw [s2_eq]
    show _ - ξ * gap r s = _
    ring
  unfold sigmaMaxVariable
  rw [hx, checked_some hg (by have : 0 ≤ 1 / 2 - ξ := by linarith
                              positivity) (by nlinarith), Option.bind_some]
  dsimp only
  rw [variable_sigma hg (by linarith), if_pos]
  constructor
  · rw [div_lt_one (by linarith)]; linarith
  · exact div_nonneg (by linarith) (by linarith)

theorem variable_contraction {δ r η ξ s t : ℝ} {M : Nat} (hη : 0 < η) (hg : 0 < gap r s) (h1 : 1 / 10 < ξ)
    (h2 : ξ < 1 / 2) (hst : s ≤ t) (ht : t ≤ s + (1 / 2 - ξ) * gap r s)
    (hM : Real.log (η / Cdelta δ r s) / Real.log ((1 / 2 - ξ) / (4 * ξ)) - 1 ≤ M) :
    contraction δ r s t M ≤ η := by
  have hC := Cdelta_pos δ r s
  have hq0 : 0 < (1 / 2 - ξ) / (4 * ξ) := div_pos (by linarith) (by linarith)
  have hq1 : (1 / 2 - ξ) / (4 * ξ) < 1 := by rw [div_lt_one (by linarith)]; linarith
  have hlog := Real.log_neg hq0 hq1
  have hε : 0 < epsHat r s t := by rw [epsHat_eq]; nlinarith
  have hratio : (t - s) / 2 / epsHat r s t ≤ (1 / 2 - ξ) / (4 * ξ) := by
    rw [div_le_div_iff₀ hε (by linarith), epsHat_eq]
    nlinarith
  have h0 : 0 ≤ (t - s) / 2 / epsHat r s t := by
    have : 0 ≤ t - s := by linarith
    positivity
  have hpow : ((1 / 2 - ξ) / (4 * ξ)) ^ (M + 1) ≤ η / Cdelta δ r s := by
    rw [← Real.log_le_log_iff (by positivity) (by positivity), Real.log_pow]
    rw [sub_le_iff_le_add, div_le_iff_of_neg hlog] at hM
    push_cast
    exact hM
  unfold contraction
  calc Cdelta δ r s * ((t - s) / 2 / epsHat r s t) ^ (M + 1)
      ≤ Cdelta δ r s * (η / Cdelta δ r s) := by
        gcongr
        exact (pow_le_pow_left₀ h0 hratio _).trans hpow
    _ = η := by field_simp

theorem loopVariable_spec {δ r η ξ sRight : ℝ} (Mmin Mmax : Nat) (hη : 0 < η) (hR : sRight < 1)
    (h1 : 1 / 10 < ξ) (h2 : ξ < 1 / 2) :
    ∀ (k : Nat) (s : ℝ), 0 < r + s →
    ∃ l, loopVariable δ r η ξ sRight Mmin Mmax k s = some l ∧ Chain sRight s l ∧ l.length ≤ k ∧
      (∀ p ∈ l, min Mmin Mmax ≤ p.2.2 ∧ p.2.2 ≤ Mmax ∧
        (p.2.2 < Mmax → contraction δ r p.1 p.2.1 p.2.2 ≤ η)) ∧
      (l.length < k → sRight ≤ endOf s l) := by
  intro k
  induction k with
  | zero =>
    intro s _
    exact ⟨[], rfl, trivial, le_refl _, fun p hp => (by cases hp), fun h => absurd h (by simp)⟩
  | succ k ih =>
    intro s hs
    rw [loopVariable]
    by_cases hlt : s < sRight
    · rw [if_pos hlt]
      have hg : 0 < gap r s := gap_pos hs (by linarith)
      rw [sigmaMaxVariable_some hg h1 h2, Option.bind_some]
      dsimp only
      have hx : 0 < (1 / 2 - ξ) * gap r s := mul_pos (by linarith) hg
      have hst : s < min (s + (1 / 2 - ξ) * gap r s) sRight := lt_min (by linarith) hlt
      obtain ⟨l, hl, hc, hlen, hall, hend⟩ := ih (min (s + (1 / 2 - ξ) * gap r s) sRight) (by linarith)
      refine ⟨(s, min (s + (1 / 2 - ξ) * gap r s) sRight, capped Mmin Mmax _) :: l, by rw [hl]; rfl,
        ⟨rfl, hst, min_le_right _ _, hc⟩, by simpa using hlen, ?_, ?_⟩
      · intro p hp
        rcases List.mem_cons.mp hp with rfl | hp
        · dsimp only
          refine ⟨by unfold capped; omega, by unfold capped; omega, fun hcap => ?_⟩
          refine variable_contraction hη hg h1 h2 hst.le (min_le_left _ _) ?_
          set x := Real.log (η / Cdelta δ r s) / Real.log ((1 / 2 - ξ) / (4 * ξ)) - 1 with hxdef
          have hle : ⌈x⌉ ≤ ((capped Mmin Mmax ⌈x⌉ : ℕ) : ℤ) := by
            unfold capped at hcap ⊢
            omega
          calc x ≤ (⌈x⌉ : ℝ) := Int.le_ceil x
            _ ≤ _ := by exact_mod_cast hle
        · exact hall p hp
      · intro h
        simp only [List.length_cons, Nat.add_lt_add_iff_right] at h
        exact hend h
    · rw [if_neg hlt]
      exact ⟨[], rfl, trivial, by simp, fun p hp => (by cases hp), fun _ => not_lt.mp hlt⟩

/-! ## Nodes -/

theorem angle_bounds {n i : Nat} (hi : i < n) :
    0 < (2 * ((n - i : Nat) : ℝ) - 1) / (2 * n) * Real.pi ∧
      (2 * ((n - i : Nat) : ℝ) - 1) / (2 * n) * Real.pi < Real.pi := by
  have hn : (0 : ℝ) < n := by exact_mod_cast (show 0 < n by omega)
  have h1 : (1 : ℝ) ≤ ((n - i : Nat) : ℝ) := by exact_mod_cast (show 1 ≤ n - i by omega)
  have h2 : ((n - i : Nat) : ℝ) ≤ n := by exact_mod_cast (show n - i ≤ n by omega)
  have hπ := Real.pi_pos
  have hq0 : 0 < (2 * ((n - i : Nat) : ℝ) - 1) / (2 * n) := div_pos (by linarith) (by linarith)
  have hq1 : (2 * ((n - i : Nat) : ℝ) - 1) / (2 * n) < 1 := by
    rw [div_lt_one (by linarith)]; linarith
  exact ⟨mul_pos hq0 hπ, by nlinarith⟩

theorem argmin_spec : ∀ l : List Nat, l ≠ [] → argmin l < l.length ∧ ∀ x ∈ l, l.getD (argmin l) 0 ≤ x
  | [], h => absurd rfl h
  | [x], _ => by simp [argmin]
  | x :: y :: l, _ => by
    obtain ⟨h1, h2⟩ := argmin_spec (y :: l) (by simp)
    rw [argmin]
    split
    · rename_i h
      refine ⟨by simp, fun z hz => ?_⟩
      rcases List.mem_cons.mp hz with rfl | hz
      · exact le_refl _
      · exact h.trans (h2 z hz)
    · rename_i h
      refine ⟨by simpa using h1, fun z hz => ?_⟩
      rw [List.getD_cons_succ]
      rcases List.mem_cons.mp hz with rfl | hz
      · exact (not_le.mp h).le
      · exact h2 z hz

/-! ## Admissible sets -/

section
variable {K : Type} [Zero K] [LinearOrder K]

theorem assign_length : ∀ (idx : List Nat) (z l : List K), (assign z idx l).length = z.length := by
  intro idx
  induction idx with
  | nil => intro z l; simp [assign]
  | cons i idx ih =>
    intro z l
    cases l with
    | nil => rfl
    | cons x l => rw [assign, ih, List.length_set]

theorem assign_other : ∀ (idx : List Nat) (z l : List K) (i : Nat), i ∉ idx →
    (assign z idx l).getD i 0 = z.getD i 0 := by
  intro idx
  induction idx with
  | nil => intro z l i _; simp [assign]
  | cons j idx ih =>
    intro z l i hi
    cases l with
    | nil => rfl
    | cons x l =>
      rw [assign, ih _ _ _ (fun h => hi (List.mem_cons_of_mem _ h))]
      have : j ≠ i := fun h => hi (by simp [h])
      simp [List.getD_eq_getElem?_getD, List.getElem?_set_ne this]

theorem assign_at : ∀ (idx : List Nat) (z l : List K), idx.Nodup → l.length = idx.length →
    (∀ i ∈ idx, i < z.length) → ∀ (k : Nat) (hk : k < idx.length),
    (assign z idx l).getD idx[k] 0 = l.getD k 0 := by
  intro idx
  induction idx with
  | nil => intro z l _ _ _ k hk; exact absurd hk (by simp)
  | cons j idx ih =>
    intro z l hn hl hb k hk
    cases l with
    | nil => simp at hl
    | cons x l =>
      rw [List.nodup_cons] at hn
      rw [assign]
      cases k with
      | zero =>
        rw [List.getElem_cons_zero, assign_other _ _ _ _ hn.1]
        simp [List.getD_eq_getElem?_getD, List.getElem?_set_self (hb j (by simp))]
      | succ k =>
        rw [List.getElem_cons_succ, ih _ _ hn.2 (by simpa using hl)
          (fun i hi => by rw [List.length_set]; exact hb i (by simp [hi])) k (by simpa using hk)]
        simp

theorem mem_active (ranges : List (K × K)) (i : Nat) : i ∈ active ranges ↔
    ∃ h : i < ranges.length, ranges[i].1 < ranges[i].2 := by
  unfold active
  rw [List.mem_filter, List.mem_range, decide_eq_true_eq]
  constructor
  · rintro ⟨h1, h2⟩
    rw [List.getD_eq_getElem _ _ h1] at h2
    exact ⟨h1, h2⟩
  · rintro ⟨h1, h2⟩
    refine ⟨h1, ?_⟩
    rw [List.getD_eq_getElem _ _ h1]
    exact h2

theorem nodup_active (ranges : List (K × K)) : (active ranges).Nodup := List.nodup_range.filter _

end

end PyNucleus.OrderIntervals
