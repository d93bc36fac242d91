import Mathlib.LinearAlgebra.LinearIndependent.Lemmas
import Mathlib.LinearAlgebra.Dimension.Finite
import Mathlib.LinearAlgebra.Dimension.Constructions
import Mathlib.LinearAlgebra.BilinearMap
import Mathlib.Tactic.FieldSimp
import Mathlib.Tactic.LinearCombination
import Mathlib.Algebra.Order.Field.Basic

/-! # Conjugacy of the preconditioned conjugate gradient recurrences -/

namespace PyNucleus.CGTheory

variable {K V : Type} [Field K] [AddCommGroup V] [Module K V]

/-- The recurrences up to iteration `m`. -/
structure Rec (ip : V →ₗ[K] V →ₗ[K] K) (A M : V →ₗ[K] V) (m : Nat) (r p : Nat → V) : Prop where
  p0 : p 0 = M (r 0)
  rs : ∀ j, j < m → r (j + 1) = r j - (ip (r j) (M (r j)) / ip (p j) (A (p j))) • A (p j)
  ps : ∀ j, j < m → p (j + 1) = M (r (j + 1)) + (ip (r (j + 1)) (M (r (j + 1))) / ip (r j) (M (r j))) • p j

/-- Symmetric, and `A`, `M` self-adjoint. -/
structure SelfAdj (ip : V →ₗ[K] V →ₗ[K] K) (A M : V →ₗ[K] V) : Prop where
  symm : ∀ u v, ip u v = ip v u
  hA : ∀ u v, ip (A u) v = ip u (A v)
  hM : ∀ u v, ip (M u) v = ip u (M v)

/-- Orthogonality relations at iteration `j`. -/
structure Orth (ip : V →ₗ[K] V →ₗ[K] K) (A M : V →ₗ[K] V) (r p : Nat → V) (j : Nat) : Prop where
  rz : ∀ i, i < j → ip (r j) (M (r i)) = 0
  rp : ∀ i, i < j → ip (r j) (p i) = 0
  pAp : ∀ i, i < j → ip (p j) (A (p i)) = 0
  rpj : ip (r j) (p j) = ip (r j) (M (r j))

theorem orth {ip : V →ₗ[K] V →ₗ[K] K} {A M : V →ₗ[K] V} (hs : SelfAdj ip A M) {m : Nat} {r p : Nat → V} (h : Rec ip A M m r p)
    (hρ : ∀ j, j < m → ip (r j) (M (r j)) ≠ 0) (hp : ∀ j, j < m → ip (p j) (A (p j)) ≠ 0) :
    ∀ j, j ≤ m → Orth ip A M r p j := by
  intro j
  induction j using Nat.strong_induction_on with
  | _ j ih =>
    intro hj
    cases j with
    | zero => exact ⟨fun i hi => absurd hi (Nat.not_lt_zero _), fun i hi => absurd hi (Nat.not_lt_zero _),
        fun i hi => absurd hi (Nat.not_lt_zero _), by rw [h.p0]⟩
    | succ j =>
      have ihj := ih j (Nat.lt_succ_self _) (by omega)
      have hρj := hρ j (by omega)
      have hpj := hp j (by omega)
      -- A p_j is conjugate to z_i
      have hz : ∀ i, i ≤ j → ip (A (p j)) (M (r i)) = if i = j then ip (p j) (A (p j)) else 0 := by
        intro i hi
        cases i with
        | zero =>
          rw [← h.p0, hs.hA]
          by_cases h0 : 0 = j
          · subst h0; simp
          · rw [if_neg h0]; exact ihj.pAp 0 (by omega)
        | succ i =>
          have e : M (r (i + 1)) = p (i + 1) - (ip (r (i + 1)) (M (r (i + 1))) / ip (r i) (M (r i))) • p i := by
            rw [h.ps i (by omega)]; simp
          rw [e, map_sub, map_smul, hs.hA, hs.hA, ihj.pAp i (by omega), smul_zero, sub_zero]
          by_cases h0 : i + 1 = j
          · subst h0; simp
          · rw [if_neg h0]; exact ihj.pAp _ (by omega)
      have rz : ∀ i, i < j + 1 → ip (r (j + 1)) (M (r i)) = 0 := by
        intro i hi
        rw [h.rs j (by omega), map_sub, map_smul, LinearMap.sub_apply, LinearMap.smul_apply, hz i (by omega), smul_eq_mul]
        by_cases h0 : i = j
        · subst h0
          rw [if_pos rfl, div_mul_cancel₀ _ hpj, sub_self]
        · rw [if_neg h0, ihj.rz i (by omega), mul_zero, sub_zero]
      have rp : ∀ i, i < j + 1 → ip (r (j + 1)) (p i) = 0 := by
        intro i hi
        rw [h.rs j (by omega), map_sub, map_smul, LinearMap.sub_apply, LinearMap.smul_apply, hs.hA, smul_eq_mul]
        by_cases h0 : i = j
        · subst h0
          rw [ihj.rpj, div_mul_cancel₀ _ hpj, sub_self]
        · rw [ihj.rp i (by omega), ihj.pAp i (by omega), mul_zero, sub_zero]
      refine ⟨rz, rp, fun i hi => ?_, ?_⟩
      · -- A p_i is a difference of residuals
        have hρi := hρ i (by omega)
        have hpi := hp i (by omega)
        have hα : ip (r i) (M (r i)) / ip (p i) (A (p i)) ≠ 0 := div_ne_zero hρi hpi
        have e : (ip (r i) (M (r i)) / ip (p i) (A (p i))) * ip (M (r (j + 1))) (A (p i)) = - ip (r (j + 1)) (M (r (i + 1))) := by
          have e1 : (ip (r i) (M (r i)) / ip (p i) (A (p i))) • A (p i) = r i - r (i + 1) := by
            rw [h.rs i (by omega)]; simp
          rw [← smul_eq_mul, ← map_smul, e1, map_sub, hs.hM, hs.hM, rz i hi, zero_sub]
        rw [h.ps j (by omega), map_add, map_smul, LinearMap.add_apply, LinearMap.smul_apply, smul_eq_mul]
        by_cases h0 : i = j
        · subst h0
          apply mul_left_cancel₀ hα
          rw [mul_add, e]
          field_simp
          ring
        · rw [ihj.pAp i (by omega), mul_zero, add_zero]
          rw [rz (i + 1) (by omega), neg_zero] at e
          exact (mul_eq_zero.1 e).resolve_left hα
      · rw [h.ps j (by omega), map_add, map_smul, rp j (by omega), smul_zero, add_zero]

section
variable [LinearOrder K] [IsStrictOrderedRing K] [Module.Finite K V]

/-- In a space of dimension `n` a residual vanishes after at most `n` iterations. -/
theorem terminates {ip : V →ₗ[K] V →ₗ[K] K} {A M : V →ₗ[K] V} (hs : SelfAdj ip A M) {m : Nat} {r p : Nat → V} (h : Rec ip A M m r p)
    (hM : ∀ v, v ≠ 0 → 0 < ip v (M v)) (hp : ∀ j, j < m → ip (p j) (A (p j)) ≠ 0) (hr : ∀ j, j < m → r j ≠ 0) :
    m ≤ Module.finrank K V := by
  have ho := orth hs h (fun j hj => (hM _ (hr j hj)).ne') hp
  have hli : LinearIndependent K fun j : Fin m => r j := by
    rw [Fintype.linearIndependent_iff]
    intro g hg i
    have h1 : ip (∑ j, g j • r j) (M (r i)) = 0 := by rw [hg]; simp
    rw [map_sum, LinearMap.sum_apply, Finset.sum_eq_single i] at h1
    · rw [map_smul, LinearMap.smul_apply, smul_eq_mul] at h1
      exact (mul_eq_zero.1 h1).resolve_right (hM _ (hr i i.2)).ne'
    · intro j _ hji
      rw [map_smul, LinearMap.smul_apply, smul_eq_mul]
      have : ip (r j) (M (r i)) = 0 := by
        rcases Nat.lt_trichotomy i.1 j.1 with hl | hl | hl
        · exact (ho j (by omega)).rz i hl
        · exact absurd (Fin.ext hl.symm) hji
        · rw [← hs.hM, hs.symm]; exact (ho i (by omega)).rz j hl
      rw [this, mul_zero]
    · intro hi; exact absurd (Finset.mem_univ i) hi
  simpa using hli.fintype_card_le_finrank

end

end PyNucleus.CGTheory
