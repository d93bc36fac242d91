import Verif.Spec.Eigenvalues
import Mathlib.Algebra.Module.BigOperators
import Mathlib.LinearAlgebra.Matrix.Symmetric
import Mathlib.Tactic.Ring
import Mathlib.Tactic.Abel
import Mathlib.Tactic.Linarith
import Mathlib.Tactic.Positivity

/-! # Lemmas: Lanczos and Arnoldi -/

namespace PyNucleus.Eigenvalues

open Matrix Finset

variable {n : Nat}

theorem dot_nonneg (x : Vec n) : 0 ≤ x ⬝ᵥ x := by
  unfold dotProduct; exact Finset.sum_nonneg fun i _ => mul_self_nonneg _

theorem norm_nonneg (x : Vec n) : 0 ≤ norm x := Real.sqrt_nonneg _

theorem norm_mul_self (x : Vec n) : norm x * norm x = x ⬝ᵥ x := Real.mul_self_sqrt (dot_nonneg x)

theorem norm_smul (a : ℝ) (x : Vec n) : norm (a • x) = |a| * norm x := by
  unfold norm
  rw [smul_dotProduct, dotProduct_smul, smul_eq_mul, smul_eq_mul, ← mul_assoc,
    Real.sqrt_mul (mul_self_nonneg a), Real.sqrt_mul_self_eq_abs]

theorem norm_normalised {x : Vec n} (h : norm x ≠ 0) : norm ((norm x)⁻¹ • x) = 1 := by
  rw [norm_smul, abs_inv, abs_of_nonneg (norm_nonneg x), inv_mul_cancel₀ h]

theorem lanczosLoop_eq (A : Mat n) : ∀ (left m : Nat) (x w : Vec n) (H : Nat → Nat → ℝ),
    lanczosLoop A left m x w H = lanczos2Loop A 1 1 left m x w H
  | 0, _, _, _, _ => rfl
  | left + 1, m, x, w, H => by
    unfold lanczosLoop lanczos2Loop
    simp only [Matrix.one_mulVec, norm, lanczosLoop_eq A left]

/-- The three-term relation up to column `m`, and what is left. -/
structure Basis (A M : Mat n) (V : Nat → Vec n) (w : Vec n) (H : Nat → Nat → ℝ) (m : Nat) : Prop where
  pos : 0 < m
  on : Orthonormal M V m
  rel : ∀ j, j + 1 < m → A *ᵥ V j = H 0 (j + 1) • (M *ᵥ V (j + 1)) + H 1 j • (M *ᵥ V j) +
    (if j = 0 then 0 else H 0 j • (M *ᵥ V (j - 1)))
  last : A *ᵥ V (m - 1) = w + H 1 (m - 1) • (M *ᵥ V (m - 1)) +
    (if m - 1 = 0 then 0 else H 0 (m - 1) • (M *ᵥ V (m - 1 - 1)))
  perp : ∀ j < m, V j ⬝ᵥ w = 0

theorem symm_dot {A : Mat n} (h : A.IsSymm) (x y : Vec n) : x ⬝ᵥ A *ᵥ y = y ⬝ᵥ A *ᵥ x := by
  rw [Matrix.dotProduct_mulVec, ← Matrix.mulVec_transpose, h.eq, dotProduct_comm]

theorem Basis.next {A M Minv : Mat n} (hA : A.IsSymm) (hM : M.IsSymm) (hi : M * Minv = 1)
    {V : Nat → Vec n} {w : Vec n} {H : Nat → Nat → ℝ} {m : Nat} (B : Basis A M V w H m)
    (b : ℝ) (hb : b * b = w ⬝ᵥ Minv *ᵥ w) (hb0 : b ≠ 0) :
    let x := b⁻¹ • (Minv *ᵥ w)
    let w' := A *ᵥ x - b • (M *ᵥ V (m - 1))
    let a := w' ⬝ᵥ x
    Basis A M (fun j => if j = m then x else V j) (w' - a • (M *ᵥ x)) (put (put H 0 m b) 1 m a)
      (m + 1) := by
  intro x w' a
  have hMx : b • (M *ᵥ x) = w := by
    simp only [x]
    rw [Matrix.mulVec_smul, smul_smul, mul_inv_cancel₀ hb0, one_smul, Matrix.mulVec_mulVec, hi,
      Matrix.one_mulVec]
  have hVx : ∀ j < m, V j ⬝ᵥ M *ᵥ x = 0 := fun j hj => by
    have h := B.perp j hj
    rw [← hMx, dotProduct_smul, smul_eq_mul] at h
    exact (mul_eq_zero.mp h).resolve_left hb0
  have hxV : ∀ j < m, x ⬝ᵥ M *ᵥ V j = 0 := fun j hj => by rw [symm_dot hM]; exact hVx j hj
  have hxx : x ⬝ᵥ M *ᵥ x = 1 := by
    have h1 : b * (x ⬝ᵥ M *ᵥ x) = x ⬝ᵥ w := by rw [← hMx, dotProduct_smul, smul_eq_mul]
    have h2 : x ⬝ᵥ w = b := by
      simp only [x]
      rw [smul_dotProduct, smul_eq_mul, dotProduct_comm, ← hb, ← mul_assoc, inv_mul_cancel₀ hb0, one_mul]
    rw [h2] at h1
    have : b * (x ⬝ᵥ M *ᵥ x) = b * 1 := by rw [h1, mul_one]
    exact mul_left_cancel₀ hb0 this
  have hp := B.pos
  have hput0 : ∀ j, j ≠ m → put (put H 0 m b) 1 m a 0 j = H 0 j := fun j hj => by
    simp [put, hj]
  have hput1 : ∀ j, j ≠ m → put (put H 0 m b) 1 m a 1 j = H 1 j := fun j hj => by
    simp [put, hj]
  have hput0m : put (put H 0 m b) 1 m a 0 m = b := by simp [put]
  have hput1m : put (put H 0 m b) 1 m a 1 m = a := by simp [put]
  have hrel : ∀ j < m, A *ᵥ V j = (if j + 1 = m then b else H 0 (j + 1)) •
      (M *ᵥ (if j + 1 = m then x else V (j + 1))) + H 1 j • (M *ᵥ V j) +
      (if j = 0 then 0 else H 0 j • (M *ᵥ V (j - 1))) := by
    intro j hj
    by_cases h : j + 1 = m
    · subst h
      simp only [if_true]
      rw [hMx]
      have := B.last
      simpa using this
    · rw [if_neg h, if_neg h]
      exact B.rel j (by omega)
  refine ⟨by omega, ?_, ?_, ?_, ?_⟩
  · intro i hi' j hj'
    beta_reduce
    by_cases h1 : i = m
    · by_cases h2 : j = m
      · rw [if_pos h1, if_pos h2, if_pos (h1.trans h2.symm)]; exact hxx
      · rw [if_pos h1, if_neg h2, if_neg (by omega)]; exact hxV j (by omega)
    · by_cases h2 : j = m
      · rw [if_neg h1, if_pos h2, if_neg (by omega)]; exact hVx i (by omega)
      · rw [if_neg h1, if_neg h2]; exact B.on i (by omega) j (by omega)
  · intro j hj
    have hj' : j < m := by omega
    beta_reduce
    rw [if_neg (show ¬ j = m by omega), hrel j hj', hput1 j (by omega), hput0 j (by omega),
      if_neg (show ¬ j - 1 = m by omega)]
    by_cases h : j + 1 = m
    · rw [if_pos h, if_pos h, h, hput0m]
    · rw [if_neg h, if_neg h, hput0 _ h]
  · simp only [Nat.add_sub_cancel, if_true]
    rw [hput1m, hput0m, if_neg (show ¬ m = 0 by omega), if_neg (show ¬ m - 1 = m by omega)]
    simp only [w']
    abel
  · intro j hj
    beta_reduce
    by_cases h : j = m
    · rw [if_pos h, dotProduct_sub, dotProduct_smul, hxx, smul_eq_mul, mul_one, dotProduct_comm x w']
      exact sub_self _
    · rw [if_neg h]
      have hj' : j < m := by omega
      simp only [w']
      rw [dotProduct_sub, dotProduct_sub, dotProduct_smul, dotProduct_smul, hVx j hj', smul_zero,
        sub_zero, symm_dot hA, hrel j hj', B.on j hj' (m - 1) (by omega), dotProduct_add,
        dotProduct_add, dotProduct_smul, dotProduct_smul, hxV j hj']
      have h3 : x ⬝ᵥ (if j = 0 then 0 else H 0 j • (M *ᵥ V (j - 1))) = 0 := by
        by_cases h0 : j = 0
        · rw [if_pos h0, dotProduct_zero]
        · rw [if_neg h0, dotProduct_smul, hxV _ (by omega), smul_zero]
      rw [h3]
      by_cases h1 : j + 1 = m
      · rw [if_pos h1, if_pos h1, hxx, if_pos (by omega)]; simp
      · rw [if_neg h1, if_neg h1, hxV _ (by omega), if_neg (by omega)]; simp

theorem Basis.congr {A M : Mat n} {V : Nat → Vec n} {w : Vec n} {H H' : Nat → Nat → ℝ} {m : Nat}
    (B : Basis A M V w H m) (h0 : ∀ j < m, H' 0 j = H 0 j) (h1 : ∀ j < m, H' 1 j = H 1 j) :
    Basis A M V w H' m := by
  have hp := B.pos
  refine ⟨B.pos, B.on, fun j hj => ?_, ?_, B.perp⟩
  · rw [h0 _ hj, h0 j (by omega), h1 j (by omega)]; exact B.rel j hj
  · rw [h0 _ (by omega), h1 _ (by omega)]; exact B.last

theorem loop_basis {A M Minv : Mat n} (hA : A.IsSymm) (hM : M.IsSymm) (hi : M * Minv = 1)
    (hpos : ∀ w : Vec n, 0 ≤ w ⬝ᵥ Minv *ᵥ w) :
    ∀ (left m : Nat) (V : Nat → Vec n) (w : Vec n) (H : Nat → Nat → ℝ), Basis A M V w H m →
    ∃ V' w', Basis A M V' w' (lanczos2Loop A M Minv left m (V (m - 1)) w H).1
        (lanczos2Loop A M Minv left m (V (m - 1)) w H).2 ∧ V' 0 = V 0 ∧
      (lanczos2Loop A M Minv left m (V (m - 1)) w H).2 ≤ m + left
  | 0, m, V, w, H, B => ⟨V, w, B, rfl, le_refl _⟩
  | left + 1, m, V, w, H, B => by
    unfold lanczos2Loop
    dsimp only
    split
    · refine ⟨V, w, B.congr (fun j hj => ?_) (fun j hj => ?_), rfl, by dsimp only; omega⟩
      · simp [put, (show j ≠ m by omega)]
      · simp [put]
    · rename_i hb
      have hb0 : Real.sqrt (w ⬝ᵥ Minv *ᵥ w) ≠ 0 := by
        intro h
        rw [h] at hb
        norm_num at hb
      have B' := B.next hA hM hi _ (Real.mul_self_sqrt (hpos w)) hb0
      obtain ⟨V', w', h1, h2, h3⟩ := loop_basis hA hM hi hpos left (m + 1) _ _ _ B'
      simp only [Nat.add_sub_cancel, if_true] at h1 h3
      refine ⟨V', w', h1, ?_, by omega⟩
      rw [h2, if_neg (show ¬ 0 = m by have := B.pos; omega)]

theorem start_basis {A M : Mat n} (x : Vec n) (hx : x ⬝ᵥ M *ᵥ x = 1) (H : Nat → Nat → ℝ) :
    Basis A M (fun _ => x) (A *ᵥ x - ((A *ᵥ x) ⬝ᵥ x) • (M *ᵥ x)) (put H 1 0 ((A *ᵥ x) ⬝ᵥ x)) 1 := by
  refine ⟨by omega, ?_, fun j hj => by omega, ?_, ?_⟩
  · intro i hi j hj
    rw [if_pos (by omega)]; exact hx
  · simp [put]
  · intro j hj
    rw [dotProduct_sub, dotProduct_smul, hx, smul_eq_mul, mul_one, dotProduct_comm x]
    exact sub_self _

theorem Basis.entry {A M : Mat n} {V : Nat → Vec n} {w : Vec n} {H : Nat → Nat → ℝ} {m : Nat}
    (B : Basis A M V w H m) (i j : Nat) (hi : i < m) (hj : j < m) :
    V i ⬝ᵥ A *ᵥ V j = tri H i j := by
  have hp := B.pos
  have hprev : V i ⬝ᵥ (if j = 0 then 0 else H 0 j • (M *ᵥ V (j - 1))) =
      if j = i + 1 then H 0 j else 0 := by
    by_cases h0 : j = 0
    · rw [if_pos h0, dotProduct_zero, if_neg (by omega)]
    · rw [if_neg h0, dotProduct_smul, B.on i hi _ (by omega)]
      by_cases h : j = i + 1
      · rw [if_pos (by omega), if_pos h]; simp
      · rw [if_neg (by omega), if_neg h]; simp
  by_cases h : j + 1 < m
  · rw [B.rel j h, dotProduct_add, dotProduct_add, dotProduct_smul, dotProduct_smul, hprev,
      B.on i hi _ h, B.on i hi j hj]
    unfold tri
    by_cases h1 : i = j
    · subst h1
      simp
    · by_cases h2 : j = i + 1
      · subst h2
        simp [(show ¬ i = i + 1 + 1 by omega)]
      · by_cases h3 : i = j + 1
        · subst h3
          simp [(show ¬ j = j + 1 + 1 by omega)]
        · simp [h1, h2, h3]
  · have hj' : j = m - 1 := by omega
    have hl := B.last
    rw [← hj'] at hl
    rw [hl, dotProduct_add, dotProduct_add, dotProduct_smul, hprev, B.on i hi j hj, B.perp i hi]
    unfold tri
    by_cases h1 : i = j
    · subst h1
      simp
    · by_cases h2 : j = i + 1
      · subst h2
        simp
      · simp [h1, h2, (show i ≠ j + 1 by omega)]

theorem Basis.relation {A M : Mat n} {V : Nat → Vec n} {w : Vec n} {H : Nat → Nat → ℝ} {m : Nat}
    (B : Basis A M V w H m) (j : Nat) (hj : j < m) :
    A *ᵥ V j = M *ᵥ combo V m (fun i => tri H i j) + if j + 1 = m then w else 0 := by
  have hp := B.pos
  have hsum : M *ᵥ combo V m (fun i => tri H i j) =
      (if j + 1 < m then H 0 (j + 1) • (M *ᵥ V (j + 1)) else 0) + H 1 j • (M *ᵥ V j) +
      (if j = 0 then 0 else H 0 j • (M *ᵥ V (j - 1))) := by
    have hsplit : ∀ i ∈ range m, tri H i j • V i =
        (if i = j + 1 then H 0 (j + 1) • V (j + 1) else 0) + (if i = j then H 1 j • V j else 0) +
        (if i + 1 = j then H 0 j • V (j - 1) else 0) := by
      intro i _
      unfold tri
      by_cases h1 : i = j
      · subst h1; simp
      · by_cases h2 : j = i + 1
        · subst h2; simp [(show ¬ i = i + 1 + 1 by omega)]
        · by_cases h3 : i = j + 1
          · subst h3; simp [(show ¬ j = j + 1 + 1 by omega), (show ¬ j + 1 + 1 = j by omega)]
          · simp [h1, h3, (show ¬ j = i + 1 from h2), (show ¬ i + 1 = j by omega)]
    unfold combo
    rw [Finset.sum_congr rfl hsplit, Finset.sum_add_distrib, Finset.sum_add_distrib, Matrix.mulVec_add,
      Matrix.mulVec_add]
    congr 1
    · congr 1
      · rw [Finset.sum_ite_eq']
        simp only [mem_range]
        split
        · rw [Matrix.mulVec_smul]
        · rw [Matrix.mulVec_zero]
      · rw [Finset.sum_ite_eq', if_pos (mem_range.mpr hj), Matrix.mulVec_smul]
    · by_cases h0 : j = 0
      · rw [if_pos h0, Finset.sum_eq_zero (fun i _ => if_neg (by omega)), Matrix.mulVec_zero]
      · rw [if_neg h0, Finset.sum_eq_single (j - 1)]
        · rw [if_pos (by omega), Matrix.mulVec_smul]
        · intro i _ hne
          exact if_neg (by omega)
        · intro h
          exact absurd (mem_range.mpr (by omega)) h
  rw [hsum]
  by_cases h : j + 1 < m
  · rw [if_pos h, if_neg (show ¬ j + 1 = m by omega), add_zero]
    exact B.rel j h
  · have hj' : j = m - 1 := by omega
    have hl := B.last
    rw [← hj'] at hl
    rw [if_neg h, if_pos (show j + 1 = m by omega), hl, zero_add, add_assoc, add_comm]

end PyNucleus.Eigenvalues
