import Mathlib.LinearAlgebra.Matrix.DotProduct
import Mathlib.LinearAlgebra.Span.Basic
import Mathlib.Algebra.Order.Ring.Defs
import Mathlib.Algebra.Order.BigOperators.Ring.Finset
import Mathlib.Algebra.BigOperators.Intervals
import Mathlib.Algebra.Module.BigOperators
import Mathlib.Tactic.Ring
import Mathlib.Tactic.Abel
import Mathlib.Tactic.FieldSimp
import Mathlib.Tactic.LinearCombination
import Mathlib.Tactic.Module

/-! # Arnoldi bases and Givens rotations -/

namespace PyNucleus.Krylov

open Finset Matrix

variable {K : Type} [Field K] {n : Nat}

/-- The last vector of the rotated basis. -/
def uvec (q : Nat → Fin n → K) (c s : Nat → K) : Nat → Fin n → K
  | 0 => q 0
  | j + 1 => (-s j) • uvec q c s j + c j • q (j + 1)

/-- The other vectors of the rotated basis. -/
def wvec (q : Nat → Fin n → K) (c s : Nat → K) (j : Nat) : Fin n → K := c j • uvec q c s j + s j • q (j + 1)

/-- Orthonormal up to index `m`. -/
def ON (q : Nat → Fin n → K) (m : Nat) : Prop := ∀ j ≤ m, ∀ k ≤ m, q j ⬝ᵥ q k = if j = k then 1 else 0

theorem uvec_congr {q q' : Nat → Fin n → K} {c c' s s' : Nat → K} {m : Nat} (hq : ∀ j ≤ m, q j = q' j) (hc : ∀ j < m, c j = c' j)
    (hs : ∀ j < m, s j = s' j) : uvec q c s m = uvec q' c' s' m := by
  induction m with
  | zero => exact hq 0 (by omega)
  | succ m ih =>
    unfold uvec
    rw [ih (fun j hj => hq j (by omega)) (fun j hj => hc j (by omega)) (fun j hj => hs j (by omega)), hc m (by omega),
      hs m (by omega), hq (m + 1) (by omega)]

theorem wvec_congr {q q' : Nat → Fin n → K} {c c' s s' : Nat → K} {m : Nat} (hq : ∀ j ≤ m + 1, q j = q' j) (hc : ∀ j ≤ m, c j = c' j)
    (hs : ∀ j ≤ m, s j = s' j) : wvec q c s m = wvec q' c' s' m := by
  unfold wvec
  rw [uvec_congr (fun j hj => hq j (by omega)) (fun j hj => hc j (by omega)) (fun j hj => hs j (by omega)), hc m (by omega),
    hs m (by omega), hq (m + 1) (by omega)]

section
variable {q : Nat → Fin n → K} {c s : Nat → K} {i : Nat}

theorem u_perp (on : ON q i) : ∀ j k, j < k → k ≤ i → uvec q c s j ⬝ᵥ q k = 0 := by
  intro j
  induction j with
  | zero => intro k h hk; unfold uvec; rw [on 0 (by omega) k hk, if_neg (by omega)]
  | succ j ih =>
    intro k h hk
    unfold uvec
    rw [add_dotProduct, smul_dotProduct, smul_dotProduct, ih k (by omega) hk, on (j + 1) (by omega) k hk, if_neg (by omega)]
    simp

theorem u_unit (on : ON q i) (hu : ∀ j < i, c j * c j + s j * s j = 1) : ∀ j ≤ i, uvec q c s j ⬝ᵥ uvec q c s j = 1 := by
  intro j
  induction j with
  | zero => intro _; unfold uvec; rw [on 0 (by omega) 0 (by omega), if_pos rfl]
  | succ j ih =>
    intro hj
    have h1 := u_perp (c := c) (s := s) on j (j + 1) (by omega) hj
    have h2 := h1
    rw [dotProduct_comm] at h2
    unfold uvec
    rw [add_dotProduct, dotProduct_add, dotProduct_add]
    simp only [smul_dotProduct, dotProduct_smul, smul_eq_mul]
    rw [h1, h2, ih (by omega), on (j + 1) hj (j + 1) hj, if_pos rfl]
    linear_combination hu j (by omega)

theorem w_q (on : ON q i) (j k : Nat) (h : j + 1 < k) (hk : k ≤ i) : wvec q c s j ⬝ᵥ q k = 0 := by
  unfold wvec
  rw [add_dotProduct, smul_dotProduct, smul_dotProduct, u_perp on j k (by omega) hk, on (j + 1) (by omega) k hk, if_neg (by omega)]
  simp

theorem w_u (on : ON q i) (hu : ∀ j < i, c j * c j + s j * s j = 1) (j : Nat) : ∀ k, j < k → k ≤ i → wvec q c s j ⬝ᵥ uvec q c s k = 0 := by
  intro k
  induction k with
  | zero => intro h; omega
  | succ k ih =>
    intro h hk
    unfold uvec
    rw [dotProduct_add, dotProduct_smul, dotProduct_smul]
    by_cases e : j = k
    · subst e
      have h1 := u_perp (c := c) (s := s) on j (j + 1) (by omega) hk
      have h2 := h1
      rw [dotProduct_comm] at h2
      unfold wvec
      rw [add_dotProduct, add_dotProduct]
      simp only [smul_dotProduct, smul_eq_mul]
      rw [h1, h2, u_unit on hu j (by omega), on (j + 1) hk (j + 1) hk, if_pos rfl]
      ring
    · rw [ih (by omega) (by omega), w_q on j (k + 1) (by omega) hk]
      simp

theorem w_w (on : ON q i) (hu : ∀ j < i, c j * c j + s j * s j = 1) (j k : Nat) (hj : j < i) (hk : k < i) :
    wvec q c s j ⬝ᵥ wvec q c s k = if j = k then 1 else 0 := by
  have key : ∀ j k, j < k → k < i → wvec q c s j ⬝ᵥ wvec q c s k = 0 := by
    intro j k h hk
    conv => lhs; rhs; unfold wvec
    rw [dotProduct_add, dotProduct_smul, dotProduct_smul, w_u on hu j k h (by omega), w_q on j (k + 1) (by omega) (by omega)]
    simp
  rcases Nat.lt_trichotomy j k with h | h | h
  · rw [key j k h hk, if_neg (by omega)]
  · subst h
    rw [if_pos rfl]
    have h1 := u_perp (c := c) (s := s) on j (j + 1) (by omega) (by omega)
    have h2 := h1
    rw [dotProduct_comm] at h2
    unfold wvec
    rw [add_dotProduct, dotProduct_add, dotProduct_add]
    simp only [smul_dotProduct, dotProduct_smul, smul_eq_mul]
    rw [h1, h2, u_unit on hu j (by omega), on (j + 1) (by omega) (j + 1) (by omega), if_pos rfl]
    linear_combination hu j hj
  · rw [dotProduct_comm, key k j h hj, if_neg (by omega)]

/-- The running entry while rotations are applied to a column. -/
def rho (c s h : Nat → K) : Nat → K
  | 0 => h 0
  | j + 1 => -s j * rho c s h j + c j * h (j + 1)

/-- Rotating the coefficients and the basis keeps the vector. -/
theorem combo (hu : ∀ j < i, c j * c j + s j * s j = 1) (h : Nat → K) : ∀ m ≤ i,
    ∑ k ∈ range (m + 1), h k • q k =
      ∑ k ∈ range m, (c k * rho c s h k + s k * h (k + 1)) • wvec q c s k + rho c s h m • uvec q c s m := by
  intro m
  induction m with
  | zero => intro _; simp [rho, uvec]
  | succ m ih =>
    intro hm
    rw [sum_range_succ, ih (by omega), sum_range_succ, add_assoc, add_assoc]
    congr 1
    have e := hu m (by omega)
    simp only [wvec, rho, uvec]
    funext a
    simp only [Pi.add_apply, Pi.smul_apply, smul_eq_mul]
    linear_combination (-rho c s h m * uvec q c s m a - h (m + 1) * q (m + 1) a) * e

theorem norm_combo (on : ON q i) (hu : ∀ j < i, c j * c j + s j * s j = 1) (a : Nat → K) (g : K) :
    (∑ k ∈ range i, a k • wvec q c s k + g • uvec q c s i) ⬝ᵥ (∑ k ∈ range i, a k • wvec q c s k + g • uvec q c s i) =
      ∑ k ∈ range i, a k * a k + g * g := by
  have cross : (∑ k ∈ range i, a k • wvec q c s k) ⬝ᵥ uvec q c s i = 0 := by
    rw [sum_dotProduct]
    apply sum_eq_zero
    intro k hk
    rw [smul_dotProduct, w_u on hu k i (mem_range.1 hk) le_rfl, smul_zero]
  have cross' := cross
  rw [dotProduct_comm] at cross'
  rw [add_dotProduct, dotProduct_add, dotProduct_add]
  simp only [smul_dotProduct, dotProduct_smul, smul_eq_mul]
  rw [cross, cross', u_unit on hu i le_rfl, sum_dotProduct]
  have : ∀ k ∈ range i, (a k • wvec q c s k) ⬝ᵥ (∑ l ∈ range i, a l • wvec q c s l) = a k * a k := by
    intro k hk
    rw [smul_dotProduct, dotProduct_sum, sum_eq_single k]
    · rw [dotProduct_smul, w_w on hu k k (mem_range.1 hk) (mem_range.1 hk), if_pos rfl]; simp
    · intro l hl hne
      rw [dotProduct_smul, w_w on hu k l (mem_range.1 hk) (mem_range.1 hl), if_neg (Ne.symm hne), smul_zero]
    · intro h; exact absurd hk h
  rw [sum_congr rfl this]
  ring

end

/-- State of a cycle after `i` iterations: `T` operator, `r0` initial residual. -/
structure Inv (T : Matrix (Fin n) (Fin n) K) (r0 : Fin n → K) (i : Nat) (q : Nat → Fin n → K) (H : Nat → Nat → K)
    (c s gamma : Nat → K) : Prop where
  on : ON q i
  unit : ∀ j < i, c j * c j + s j * s j = 1
  arn : ∀ j < i, T.mulVec (q j) = ∑ k ∈ range (j + 1), H k j • wvec q c s k
  diag : ∀ j < i, H j j ≠ 0
  rhs : r0 = ∑ k ∈ range i, gamma k • wvec q c s k + gamma i • uvec q c s i
  hess : ∀ j < i, ∃ h : Nat → K, T.mulVec (q j) = ∑ k ∈ range (j + 1), h k • q k + h (j + 1) • q (j + 1) ∧ h (j + 1) ≠ 0
  first : ∃ a : K, a ≠ 0 ∧ r0 = a • q 0

theorem Inv.congr {T : Matrix (Fin n) (Fin n) K} {r0 : Fin n → K} {i : Nat} {q q' : Nat → Fin n → K} {H H' : Nat → Nat → K}
    {c c' s s' gamma gamma' : Nat → K} (h : Inv T r0 i q H c s gamma) (hq : ∀ j ≤ i, q j = q' j) (hH : ∀ j k, k < i → H j k = H' j k)
    (hc : ∀ j < i, c j = c' j) (hs : ∀ j < i, s j = s' j) (hg : ∀ j ≤ i, gamma j = gamma' j) : Inv T r0 i q' H' c' s' gamma' := by
  have hw : ∀ k < i, wvec q c s k = wvec q' c' s' k := fun k hk =>
    wvec_congr (fun j hj => hq j (by omega)) (fun j hj => hc j (by omega)) (fun j hj => hs j (by omega))
  refine ⟨fun j hj k hk => ?_, fun j hj => ?_, fun j hj => ?_, fun j hj => ?_, ?_, fun j hj => ?_, ?_⟩
  · rw [← hq j hj, ← hq k hk]; exact h.on j hj k hk
  · rw [← hc j hj, ← hs j hj]; exact h.unit j hj
  · rw [← hq j (by omega), h.arn j hj]
    apply sum_congr rfl
    intro k hk
    have := mem_range.1 hk
    rw [hH k j hj, hw k (by omega)]
  · rw [← hH j j hj]; exact h.diag j hj
  · rw [h.rhs, hg i le_rfl, uvec_congr hq hc hs]
    congr 1
    apply sum_congr rfl
    intro k hk
    have := mem_range.1 hk
    rw [hg k (by omega), hw k this]
  · obtain ⟨g, h1, h2⟩ := h.hess j hj
    refine ⟨g, ?_, h2⟩
    rw [← hq j (by omega), ← hq (j + 1) (by omega), h1]
    congr 1
    apply sum_congr rfl
    intro k hk
    have := mem_range.1 hk
    rw [hq k (by omega)]
  · rw [← hq 0 (by omega)]; exact h.first

/-- One iteration. -/
theorem Inv.step {T : Matrix (Fin n) (Fin n) K} {r0 : Fin n → K} {i : Nat} {q : Nat → Fin n → K} {H : Nat → Nat → K}
    {c s gamma : Nat → K} (inv : Inv T r0 i q H c s gamma) (on : ON q (i + 1)) {h : Nat → K}
    (hT : T.mulVec (q i) = ∑ k ∈ range (i + 1), h k • q k + h (i + 1) • q (i + 1)) (hh : h (i + 1) ≠ 0)
    {H' : Nat → Nat → K} {c' s' gamma' : Nat → K} {beta : K} (hb : beta * beta = rho c s h i * rho c s h i + h (i + 1) * h (i + 1))
    (hb0 : beta ≠ 0) (hc : ∀ j < i, c' j = c j) (hs : ∀ j < i, s' j = s j) (hci : c' i = rho c s h i / beta) (hsi : s' i = h (i + 1) / beta)
    (hg : ∀ j < i, gamma' j = gamma j) (hgi : gamma' i = c' i * gamma i) (hgi' : gamma' (i + 1) = -s' i * gamma i)
    (hH : ∀ j k, k < i → H' j k = H j k) (hHi : ∀ k < i, H' k i = c k * rho c s h k + s k * h (k + 1)) (hHii : H' i i = beta) :
    Inv T r0 (i + 1) q H' c' s' gamma' := by
  have unit' : ∀ j < i + 1, c' j * c' j + s' j * s' j = 1 := by
    intro j hj
    by_cases e : j = i
    · subst e
      rw [hci, hsi]
      field_simp
      rw [pow_two, pow_two, pow_two, hb]
    · rw [hc j (by omega), hs j (by omega)]; exact inv.unit j (by omega)
  have hw : ∀ k < i, wvec q c' s' k = wvec q c s k := fun k hk =>
    wvec_congr (fun _ _ => rfl) (fun j hj => hc j (by omega)) (fun j hj => hs j (by omega))
  have hu : uvec q c' s' i = uvec q c s i := uvec_congr (fun _ _ => rfl) hc hs
  refine ⟨on, unit', fun j hj => ?_, fun j hj => ?_, ?_, fun j hj => ?_, inv.first⟩
  · by_cases e : j = i
    · subst e
      rw [hT, combo inv.unit h j le_rfl, sum_range_succ, add_assoc]
      congr 1
      · apply sum_congr rfl
        intro k hk
        rw [hHi k (mem_range.1 hk), hw k (mem_range.1 hk)]
      · rw [hHii]
        unfold wvec
        rw [hu, hci, hsi]
        funext a
        simp only [Pi.add_apply, Pi.smul_apply, smul_eq_mul]
        field_simp
    · rw [inv.arn j (by omega)]
      apply sum_congr rfl
      intro k hk
      have := mem_range.1 hk
      rw [hH k j (by omega), hw k (by omega)]
  · by_cases e : j = i
    · subst e; rw [hHii]; exact hb0
    · rw [hH j j (by omega)]; exact inv.diag j (by omega)
  · rw [sum_range_succ, inv.rhs, add_assoc]
    congr 1
    · apply sum_congr rfl
      intro k hk
      rw [hg k (mem_range.1 hk), hw k (mem_range.1 hk)]
    · rw [hgi, hgi']
      simp only [wvec, uvec]
      rw [hu]
      have e := unit' i (by omega)
      funext a
      simp only [Pi.add_apply, Pi.smul_apply, smul_eq_mul]
      linear_combination (-gamma i * uvec q c s i a) * e
  · by_cases e : j = i
    · subst e; exact ⟨h, hT, hh⟩
    · exact inv.hess j (by omega)

section
variable {T : Matrix (Fin n) (Fin n) K} {r0 : Fin n → K} {i : Nat} {q : Nat → Fin n → K} {H : Nat → Nat → K} {c s gamma : Nat → K}

/-- The residual after a correction in the span of the basis. -/
theorem Inv.residual (inv : Inv T r0 i q H c s gamma) (z : Nat → K) :
    r0 - T.mulVec (∑ l ∈ range i, z l • q l) =
      ∑ k ∈ range i, (gamma k - ∑ l ∈ Ico k i, H k l * z l) • wvec q c s k + gamma i • uvec q c s i := by
  have e : T.mulVec (∑ l ∈ range i, z l • q l) = ∑ k ∈ range i, (∑ l ∈ Ico k i, H k l * z l) • wvec q c s k := by
    rw [Matrix.mulVec_sum]
    have : ∀ l ∈ range i, T.mulVec (z l • q l) = ∑ k ∈ range (l + 1), (H k l * z l) • wvec q c s k := by
      intro l hl
      rw [Matrix.mulVec_smul, inv.arn l (mem_range.1 hl), smul_sum]
      apply sum_congr rfl
      intro k _
      rw [smul_smul, mul_comm]
    rw [sum_congr rfl this]
    have e2 : ∀ k ∈ range i, (∑ l ∈ Ico k i, H k l * z l) • wvec q c s k = ∑ l ∈ Ico k i, (H k l * z l) • wvec q c s k :=
      fun k _ => sum_smul
    rw [sum_congr rfl e2]
    simp only [range_eq_Ico]
    rw [sum_sigma', sum_sigma']
    refine sum_bij' (fun a _ => ⟨a.2, a.1⟩) (fun a _ => ⟨a.2, a.1⟩) ?_ ?_ ?_ ?_ ?_
    all_goals first | (rintro ⟨a, b⟩ h; simp at h ⊢; try omega)
  conv => lhs; lhs; rw [inv.rhs]
  rw [e]
  simp only [sub_smul, sum_sub_distrib]
  abel

end

section
variable [LinearOrder K] [IsStrictOrderedRing K] {T : Matrix (Fin n) (Fin n) K} {r0 : Fin n → K} {i : Nat}
  {q : Nat → Fin n → K} {H : Nat → Nat → K} {c s gamma : Nat → K}

/-- Every correction leaves a residual of norm at least `|gamma i|`. -/
theorem Inv.lower (inv : Inv T r0 i q H c s gamma) (z : Nat → K) :
    gamma i * gamma i ≤ (r0 - T.mulVec (∑ l ∈ range i, z l • q l)) ⬝ᵥ (r0 - T.mulVec (∑ l ∈ range i, z l • q l)) := by
  rw [inv.residual z, norm_combo inv.on inv.unit]
  have : 0 ≤ ∑ k ∈ range i, (gamma k - ∑ l ∈ Ico k i, H k l * z l) * (gamma k - ∑ l ∈ Ico k i, H k l * z l) :=
    sum_nonneg fun k _ => mul_self_nonneg _
  exact le_add_of_nonneg_left this

/-- The solution of the triangular system attains it. -/
theorem Inv.attained (inv : Inv T r0 i q H c s gamma) (z : Nat → K) (hz : ∀ k < i, ∑ l ∈ Ico k i, H k l * z l = gamma k) :
    (r0 - T.mulVec (∑ l ∈ range i, z l • q l)) ⬝ᵥ (r0 - T.mulVec (∑ l ∈ range i, z l • q l)) = gamma i * gamma i := by
  rw [inv.residual z, norm_combo inv.on inv.unit]
  rw [sum_eq_zero, zero_add]
  intro k hk
  rw [hz k (mem_range.1 hk), sub_self, zero_mul]

end

/-! ### Krylov spaces -/

/-- The Krylov space of dimension at most `m`. -/
def krylov (T : Matrix (Fin n) (Fin n) K) (r0 : Fin n → K) (m : Nat) : Submodule K (Fin n → K) :=
  Submodule.span K {v | ∃ j, j < m ∧ v = (T ^ j).mulVec r0}

/-- The span of the first `m` basis vectors. -/
def basisSpan (q : Nat → Fin n → K) (m : Nat) : Submodule K (Fin n → K) := Submodule.span K {v | ∃ j, j < m ∧ v = q j}

theorem mem_basisSpan (q : Nat → Fin n → K) (m : Nat) (v : Fin n → K) : v ∈ basisSpan q m ↔ ∃ z : Nat → K, v = ∑ l ∈ range m, z l • q l := by
  constructor
  · intro h
    unfold basisSpan at h
    induction h using Submodule.span_induction with
    | mem x hx =>
      obtain ⟨j, hj, rfl⟩ := hx
      refine ⟨fun l => if l = j then 1 else 0, ?_⟩
      rw [sum_eq_single j]
      · simp
      · intro l _ hl; simp [hl]
      · intro h; exact absurd (mem_range.2 hj) h
    | zero => exact ⟨fun _ => 0, by simp⟩
    | add x y _ _ hx hy =>
      obtain ⟨z, rfl⟩ := hx
      obtain ⟨z', rfl⟩ := hy
      exact ⟨fun l => z l + z' l, by rw [← sum_add_distrib]; exact sum_congr rfl fun l _ => (add_smul _ _ _).symm⟩
    | smul a x _ hx =>
      obtain ⟨z, rfl⟩ := hx
      exact ⟨fun l => a * z l, by rw [smul_sum]; exact sum_congr rfl fun l _ => smul_smul _ _ _⟩
  · rintro ⟨z, rfl⟩
    exact Submodule.sum_mem _ fun l hl => Submodule.smul_mem _ _ (Submodule.subset_span ⟨l, mem_range.1 hl, rfl⟩)

section
variable {T : Matrix (Fin n) (Fin n) K} {r0 : Fin n → K} {q : Nat → Fin n → K}

theorem krylov_mono {m m' : Nat} (h : m ≤ m') : krylov T r0 m ≤ krylov T r0 m' :=
  Submodule.span_mono fun _ ⟨j, hj, e⟩ => ⟨j, by omega, e⟩

theorem basisSpan_mono {m m' : Nat} (h : m ≤ m') : basisSpan q m ≤ basisSpan q m' :=
  Submodule.span_mono fun _ ⟨j, hj, e⟩ => ⟨j, by omega, e⟩

theorem krylov_apply {m : Nat} {v : Fin n → K} (h : v ∈ krylov T r0 m) : T.mulVec v ∈ krylov T r0 (m + 1) := by
  unfold krylov at h
  induction h using Submodule.span_induction with
  | mem x hx =>
    obtain ⟨j, hj, rfl⟩ := hx
    exact Submodule.subset_span ⟨j + 1, by omega, by rw [Matrix.mulVec_mulVec, ← pow_succ']⟩
  | zero => rw [Matrix.mulVec_zero]; exact Submodule.zero_mem _
  | add x y _ _ hx hy => rw [Matrix.mulVec_add]; exact Submodule.add_mem _ hx hy
  | smul a x _ hx => rw [Matrix.mulVec_smul]; exact Submodule.smul_mem _ _ hx

theorem sum_mem_basisSpan (m : Nat) (h : Nat → K) : ∑ k ∈ range m, h k • q k ∈ basisSpan q m :=
  (mem_basisSpan q m _).2 ⟨h, rfl⟩

theorem q_mem {m j : Nat} (h : j < m) : q j ∈ basisSpan q m := Submodule.subset_span ⟨j, h, rfl⟩

/-- The basis spans the Krylov space. -/
theorem span_eq {i : Nat} (hess : ∀ j, j + 1 < i → ∃ h : Nat → K, T.mulVec (q j) = ∑ k ∈ range (j + 1), h k • q k + h (j + 1) • q (j + 1) ∧ h (j + 1) ≠ 0)
    (first : ∃ a : K, a ≠ 0 ∧ r0 = a • q 0) : ∀ m ≤ i, krylov T r0 m = basisSpan q m := by
  obtain ⟨a, ha, hr⟩ := first
  have fwd : ∀ j, j < i → (T ^ j).mulVec r0 ∈ basisSpan q (j + 1) := by
    intro j
    induction j with
    | zero => intro _; rw [pow_zero, Matrix.one_mulVec, hr]; exact Submodule.smul_mem _ _ (q_mem (by omega))
    | succ j ih =>
      intro hj
      rw [pow_succ', ← Matrix.mulVec_mulVec]
      obtain ⟨z, hz⟩ := (mem_basisSpan _ _ _).1 (ih (by omega))
      rw [hz, Matrix.mulVec_sum]
      apply Submodule.sum_mem
      intro l hl
      have hl := mem_range.1 hl
      rw [Matrix.mulVec_smul]
      apply Submodule.smul_mem
      obtain ⟨h, e, _⟩ := hess l (by omega)
      rw [e]
      exact Submodule.add_mem _ (basisSpan_mono (by omega) (sum_mem_basisSpan (l + 1) h))
        (Submodule.smul_mem _ _ (q_mem (by omega)))
  have bwd : ∀ j, j < i → ∀ k ≤ j, q k ∈ krylov T r0 (j + 1) := by
    intro j
    induction j with
    | zero =>
      intro _ k hk
      obtain rfl : k = 0 := by omega
      have : q 0 = a⁻¹ • r0 := by rw [hr, smul_smul, inv_mul_cancel₀ ha, one_smul]
      rw [this]
      exact Submodule.smul_mem _ _ (Submodule.subset_span ⟨0, by omega, by rw [pow_zero, Matrix.one_mulVec]⟩)
    | succ j ih =>
      intro hj k hk
      by_cases e : k = j + 1
      · subst e
        obtain ⟨h, e, h0⟩ := hess j hj
        have : q (j + 1) = (h (j + 1))⁻¹ • (T.mulVec (q j) - ∑ k ∈ range (j + 1), h k • q k) := by
          rw [e, add_sub_cancel_left, smul_smul, inv_mul_cancel₀ h0, one_smul]
        rw [this]
        apply Submodule.smul_mem
        apply Submodule.sub_mem
        · exact krylov_apply (ih (by omega) j le_rfl)
        · apply Submodule.sum_mem
          intro l hl
          have hl := mem_range.1 hl
          exact Submodule.smul_mem _ _ (krylov_mono (by omega) (ih (by omega) l (by omega)))
      · exact krylov_mono (by omega) (ih (by omega) k (by omega))
  intro m hm
  apply le_antisymm
  · apply Submodule.span_le.2
    rintro v ⟨j, hj, rfl⟩
    exact basisSpan_mono (by omega) (fwd j (by omega))
  · apply Submodule.span_le.2
    rintro v ⟨j, hj, rfl⟩
    exact krylov_mono (by omega) (bwd j (by omega) j le_rfl)

end

end PyNucleus.Krylov
