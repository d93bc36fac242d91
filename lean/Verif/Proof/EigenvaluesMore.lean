import Verif.Proof.Eigenvalues
import Mathlib.Analysis.Matrix.Spectrum
import Mathlib.LinearAlgebra.Dimension.Constructions
import Mathlib.Algebra.Order.BigOperators.Ring.Finset

/-! # Lemmas: bases, symmetric matrices, Arnoldi, power method -/

namespace PyNucleus.Eigenvalues

open Matrix Finset

variable {n : Nat}

theorem dot_combo (N : Mat n) (V : Nat → Vec n) (k : Nat) (E : Nat → Nat → ℝ)
    (h : ∀ i < k, ∀ j < k, V i ⬝ᵥ N *ᵥ V j = E i j) (y z : Nat → ℝ) :
    combo V k y ⬝ᵥ N *ᵥ combo V k z = ∑ i ∈ range k, ∑ j ∈ range k, y i * E i j * z j := by
  unfold combo
  rw [Matrix.mulVec_sum, sum_dotProduct]
  refine Finset.sum_congr rfl fun i hi => ?_
  rw [dotProduct_sum]
  refine Finset.sum_congr rfl fun j hj => ?_
  rw [Matrix.mulVec_smul, smul_dotProduct, dotProduct_smul, h i (mem_range.mp hi) j (mem_range.mp hj),
    smul_eq_mul, smul_eq_mul]
  ring

theorem combo_sq (M : Mat n) (V : Nat → Vec n) (k : Nat) (h : Orthonormal M V k) (y : Nat → ℝ) :
    combo V k y ⬝ᵥ M *ᵥ combo V k y = ∑ i ∈ range k, y i ^ 2 := by
  rw [dot_combo M V k _ h]
  refine Finset.sum_congr rfl fun i hi => ?_
  rw [Finset.sum_eq_single i]
  · rw [if_pos rfl]; ring
  · intro j _ hne
    rw [if_neg (Ne.symm hne)]; ring
  · intro h; exact absurd hi h

theorem card_le {M : Mat n} {V : Nat → Vec n} {k : Nat} (h : Orthonormal M V k) : k ≤ n := by
  have hl : LinearIndependent ℝ (fun i : Fin k => V i) := by
    rw [Fintype.linearIndependent_iff]
    intro g hg i
    have h1 : V i ⬝ᵥ M *ᵥ (∑ j : Fin k, g j • V j) = g i := by
      rw [Matrix.mulVec_sum, dotProduct_sum, Finset.sum_eq_single i]
      · rw [Matrix.mulVec_smul, dotProduct_smul, h i i.2 i i.2, if_pos rfl]; simp
      · intro j _ hne
        rw [Matrix.mulVec_smul, dotProduct_smul, h i i.2 j j.2,
          if_neg (fun e => hne (Fin.ext e.symm))]; simp
      · intro h; exact absurd (Finset.mem_univ _) h
    rw [hg, Matrix.mulVec_zero, dotProduct_zero] at h1
    exact h1.symm
  have := hl.fintype_card_le_finrank
  simpa using this

theorem Basis.full {A M Minv : Mat n} (hA : A.IsSymm) (hM : M.IsSymm) (hi : M * Minv = 1)
    (hpos : ∀ w : Vec n, w ≠ 0 → 0 < w ⬝ᵥ Minv *ᵥ w) {V : Nat → Vec n} {w : Vec n}
    {H : Nat → Nat → ℝ} (B : Basis A M V w H n) : w = 0 := by
  by_contra hw
  have hp := hpos w hw
  have B' := B.next hA hM hi _ (Real.mul_self_sqrt hp.le) (Real.sqrt_pos.mpr hp).ne'
  have := card_le B'.on
  omega

theorem Basis.apply {A M : Mat n} {V : Nat → Vec n} {w : Vec n} {H : Nat → Nat → ℝ} {m : Nat}
    (B : Basis A M V w H m) (y : Nat → ℝ) :
    A *ᵥ combo V m y = M *ᵥ combo V m (fun i => ∑ j ∈ range m, tri H i j * y j) + y (m - 1) • w := by
  have hp := B.pos
  have h1 : A *ᵥ combo V m y = ∑ j ∈ range m, y j • (M *ᵥ combo V m (fun i => tri H i j) +
      if j + 1 = m then w else 0) := by
    unfold combo
    rw [Matrix.mulVec_sum]
    refine Finset.sum_congr rfl fun j hj => ?_
    rw [Matrix.mulVec_smul, B.relation j (mem_range.mp hj)]
    rfl
  rw [h1]
  simp only [smul_add]
  rw [Finset.sum_add_distrib]
  congr 1
  · unfold combo
    simp only [Matrix.mulVec_sum, Matrix.mulVec_smul, Finset.smul_sum, Finset.sum_smul]
    rw [Finset.sum_comm]
    refine Finset.sum_congr rfl fun i _ => Finset.sum_congr rfl fun j _ => ?_
    rw [smul_smul, mul_comm]
  · rw [Finset.sum_eq_single (m - 1)]
    · rw [if_pos (by omega)]
    · intro j _ hne
      rw [if_neg (by omega), smul_zero]
    · intro h; exact absurd (mem_range.mpr (by omega)) h

/-! ### Symmetric matrices -/

theorem cauchy (x y : Vec n) : x ⬝ᵥ y ≤ norm x * norm y := by
  have h := Finset.sum_mul_sq_le_sq_mul_sq Finset.univ x y
  have hx : ∑ i, x i ^ 2 = norm x ^ 2 := by
    rw [sq (norm x), norm_mul_self]; unfold dotProduct
    exact Finset.sum_congr rfl fun i _ => sq _
  have hy : ∑ i, y i ^ 2 = norm y ^ 2 := by
    rw [sq (norm y), norm_mul_self]; unfold dotProduct
    exact Finset.sum_congr rfl fun i _ => sq _
  rw [hx, hy, ← mul_pow] at h
  exact le_trans (le_abs_self _) (abs_le_of_sq_le_sq h (mul_nonneg (norm_nonneg x) (norm_nonneg y)))

theorem exists_coords {A : Mat n} (hA : A.IsSymm) :
    ∃ (e : Fin n → Vec n) (lam : Fin n → ℝ), (∀ i, A *ᵥ e i = lam i • e i) ∧ (∀ i, e i ≠ 0) ∧
      ∀ v : Vec n, v ⬝ᵥ v = ∑ i, (e i ⬝ᵥ v) ^ 2 := by
  have hH : A.IsHermitian := by
    unfold Matrix.IsHermitian
    rw [Matrix.conjTranspose_eq_transpose_of_trivial]
    exact hA
  refine ⟨fun i => (hH.eigenvectorBasis i).ofLp, hH.eigenvalues, fun i => hH.mulVec_eigenvectorBasis i,
    fun i h => ?_, fun v => ?_⟩
  · have h1 := hH.eigenvectorBasis.orthonormal.1 i
    have h0 : hH.eigenvectorBasis i = 0 := by
      apply PiLp.ext
      intro j
      exact congrFun h j
    rw [h0] at h1
    simp at h1
  · have h1 := hH.eigenvectorBasis.sum_sq_inner_right (WithLp.toLp 2 v)
    rw [EuclideanSpace.real_norm_sq_eq] at h1
    have h2 : v ⬝ᵥ v = ∑ i, v i ^ 2 := by
      unfold dotProduct
      exact Finset.sum_congr rfl fun i _ => (sq _).symm
    rw [h2, show (∑ i, v i ^ 2) = ∑ i, (WithLp.toLp 2 v : EuclideanSpace ℝ (Fin n)) i ^ 2 from rfl, ← h1]
    refine Finset.sum_congr rfl fun i _ => ?_
    rw [EuclideanSpace.inner_eq_star_dotProduct, dotProduct_comm]
    rfl

theorem sym_bound {A : Mat n} (hA : A.IsSymm) (rho : ℝ)
    (h : ∀ (t : ℝ) (v : Vec n), v ≠ 0 → A *ᵥ v = t • v → |t| ≤ rho) (v : Vec n) :
    norm (A *ᵥ v) ≤ rho * norm v := by
  obtain ⟨e, lam, h1, h2, h3⟩ := exists_coords hA
  by_cases hn : Nonempty (Fin n)
  · obtain ⟨i0⟩ := hn
    have hr : 0 ≤ rho := le_trans (abs_nonneg _) (h (lam i0) (e i0) (h2 i0) (h1 i0))
    have hsq : (A *ᵥ v) ⬝ᵥ (A *ᵥ v) ≤ rho ^ 2 * (v ⬝ᵥ v) := by
      rw [h3 (A *ᵥ v), h3 v, Finset.mul_sum]
      refine Finset.sum_le_sum fun i _ => ?_
      rw [symm_dot hA, h1, dotProduct_smul, smul_eq_mul, mul_pow, dotProduct_comm v]
      exact mul_le_mul_of_nonneg_right (sq_le_sq' (abs_le.mp (h _ _ (h2 i) (h1 i))).1
        (abs_le.mp (h _ _ (h2 i) (h1 i))).2) (sq_nonneg _)
    have : norm (A *ᵥ v) ≤ Real.sqrt (rho ^ 2 * (v ⬝ᵥ v)) := Real.sqrt_le_sqrt hsq
    rwa [Real.sqrt_mul (sq_nonneg _), Real.sqrt_sq hr] at this
  · have : ∀ u : Vec n, norm u = 0 := fun u => by
      unfold norm dotProduct
      rw [Finset.sum_eq_zero (fun i _ => absurd ⟨i⟩ hn), Real.sqrt_zero]
    rw [this, this, mul_zero]

theorem sym_rayleigh {A : Mat n} (hA : A.IsSymm) (a b : ℝ)
    (h : ∀ (t : ℝ) (v : Vec n), v ≠ 0 → A *ᵥ v = t • v → a ≤ t ∧ t ≤ b) (v : Vec n) :
    a * (v ⬝ᵥ v) ≤ v ⬝ᵥ A *ᵥ v ∧ v ⬝ᵥ A *ᵥ v ≤ b * (v ⬝ᵥ v) := by
  obtain ⟨e, lam, h1, h2, h3⟩ := exists_coords hA
  have hpol : ∀ u : Vec n, u ⬝ᵥ v = ∑ i, (e i ⬝ᵥ u) * (e i ⬝ᵥ v) := by
    intro u
    have hs := h3 (u + v)
    have hu := h3 u
    have hv := h3 v
    simp only [dotProduct_add, add_dotProduct] at hs
    have hexp : ∑ i, (e i ⬝ᵥ u + e i ⬝ᵥ v) ^ 2 = (∑ i, (e i ⬝ᵥ u) ^ 2) + 2 * (∑ i, (e i ⬝ᵥ u) * (e i ⬝ᵥ v)) +
        ∑ i, (e i ⬝ᵥ v) ^ 2 := by
      rw [Finset.mul_sum, ← Finset.sum_add_distrib, ← Finset.sum_add_distrib]
      refine Finset.sum_congr rfl fun i _ => ?_
      ring
    rw [hexp, dotProduct_comm v u] at hs
    linarith
  have hq : v ⬝ᵥ A *ᵥ v = ∑ i, lam i * (e i ⬝ᵥ v) ^ 2 := by
    rw [dotProduct_comm, hpol]
    refine Finset.sum_congr rfl fun i _ => ?_
    rw [symm_dot hA, h1, dotProduct_smul, smul_eq_mul, dotProduct_comm v]
    ring
  rw [hq, h3 v, Finset.mul_sum, Finset.mul_sum]
  exact ⟨Finset.sum_le_sum fun i _ => mul_le_mul_of_nonneg_right (h _ _ (h2 i) (h1 i)).1 (sq_nonneg _),
    Finset.sum_le_sum fun i _ => mul_le_mul_of_nonneg_right (h _ _ (h2 i) (h1 i)).2 (sq_nonneg _)⟩

/-! ### Power method -/

theorem power_step {A : Mat n} (hA : A.IsSymm) {x : Vec n} (hx : norm x = 1) (hy : norm (A *ᵥ x) ≠ 0) :
    norm (A *ᵥ x) ≤ norm (A *ᵥ ((norm (A *ᵥ x))⁻¹ • (A *ᵥ x))) := by
  have hpos : 0 < norm (A *ᵥ x) := lt_of_le_of_ne (norm_nonneg _) (Ne.symm hy)
  rw [Matrix.mulVec_smul, norm_smul, abs_inv, abs_of_pos hpos]
  have h1 : norm (A *ᵥ x) * norm (A *ᵥ x) ≤ norm (A *ᵥ (A *ᵥ x)) := by
    rw [norm_mul_self, symm_dot hA (A *ᵥ x) x]
    have := cauchy x (A *ᵥ (A *ᵥ x))
    rwa [hx, one_mul] at this
  rw [inv_mul_eq_div, le_div_iff₀ hpos]
  exact h1

theorem powerLoop_ok {A : Mat n} (hA : A.IsSymm) (eps : ℝ) :
    ∀ (left : Nat) (x : Vec n) (lold l : ℝ), norm x = 1 → norm (A *ᵥ x) ≠ 0 → l ≤ norm (A *ᵥ x) →
      (∃ v, norm v = 1 ∧ norm (A *ᵥ v) = l) →
      ∃ r, powerLoop A eps left x lold l = some r ∧ l ≤ r ∧ ∃ v, norm v = 1 ∧ norm (A *ᵥ v) = r
  | 0, x, lold, l, _, _, _, hv => ⟨l, rfl, le_refl _, hv⟩
  | left + 1, x, lold, l, hx, hy, hl, hv => by
    unfold powerLoop
    split
    · dsimp only
      rw [if_neg hy]
      have hstep := power_step hA hx hy
      have hpos : 0 < norm (A *ᵥ x) := lt_of_le_of_ne (norm_nonneg _) (Ne.symm hy)
      obtain ⟨r, h1, h2, h3⟩ := powerLoop_ok hA eps left _ l (norm (A *ᵥ x)) (norm_normalised hy)
        (lt_of_lt_of_le hpos hstep).ne' hstep ⟨x, hx, rfl⟩
      exact ⟨r, h1, le_trans hl h2, h3⟩
    · exact ⟨l, rfl, le_refl _, hv⟩

/-! ### Arnoldi -/

theorem put_same (H : Nat → Nat → ℝ) (a b : Nat) (v : ℝ) : put H a b v a b = v := by simp [put]

theorem put_other (H : Nat → Nat → ℝ) (a b : Nat) (v : ℝ) (i j : Nat) (h : ¬ (i = a ∧ j = b)) :
    put H a b v i j = H i j := if_neg h

/-- Orthonormal with respect to the dot product, the first `k` vectors. -/
def Ortho (Q : Nat → Vec n) (k : Nat) : Prop :=
  ∀ i < k, ∀ j < k, Q i ⬝ᵥ Q j = if i = j then 1 else 0

theorem orthogonalise_ok (Q : Nat → Vec n) (i : Nat) (hQ : Ortho Q (i + 1)) (r : Vec n)
    (H : Nat → Nat → ℝ) : ∀ j ≤ i + 1,
    (∀ a b, (b ≠ i ∨ j ≤ a) → (orthogonalise Q i j r H).2 a b = H a b) ∧
    r = (∑ l ∈ range j, (orthogonalise Q i j r H).2 l i • Q l) + (orthogonalise Q i j r H).1 ∧
    ∀ l < j, Q l ⬝ᵥ (orthogonalise Q i j r H).1 = 0
  | 0, _ => ⟨fun _ _ _ => rfl, by simp [orthogonalise], fun l hl => by omega⟩
  | j + 1, hj => by
    obtain ⟨h1, h2, h3⟩ := orthogonalise_ok Q i hQ r H j (by omega)
    unfold orthogonalise
    dsimp only
    refine ⟨?_, ?_, ?_⟩
    · intro a b hab
      rw [put_other _ _ _ _ _ _ (by omega)]
      exact h1 a b (by omega)
    · rw [Finset.sum_range_succ, put_same]
      have hs : ∑ l ∈ range j, put (orthogonalise Q i j r H).2 j i (Q j ⬝ᵥ (orthogonalise Q i j r H).1) l i • Q l =
          ∑ l ∈ range j, (orthogonalise Q i j r H).2 l i • Q l := by
        refine Finset.sum_congr rfl fun l hl => ?_
        have := mem_range.mp hl
        rw [put_other _ _ _ _ _ _ (by omega)]
      rw [hs]
      conv_lhs => rw [h2]
      abel
    · intro l hl
      rw [dotProduct_sub, dotProduct_smul, hQ l (by omega) j (by omega)]
      by_cases e : l = j
      · subst e; simp
      · rw [if_neg e, h3 l (by omega)]; simp

/-- Orthonormal vectors with the relation of the columns before `k`. -/
structure Hess (op : Vec n → Vec n) (tol : ℝ) (Q : Nat → Vec n) (H : Nat → Nat → ℝ) (k : Nat) : Prop where
  on : Ortho Q (k + 1)
  rel : ∀ j < k, op (Q j) = ∑ l ∈ range (j + 2), H l j • Q l
  zero : ∀ l j, j + 1 < l → H l j = 0
  big : ∀ j < k, tol < H (j + 1) j

theorem arnoldiLoop_ok (op : Vec n → Vec n) (tol : ℝ) (ht : 0 ≤ tol) :
    ∀ (left i : Nat) (Q : Nat → Vec n) (H : Nat → Nat → ℝ), Hess op tol Q H i →
      ∃ Q' H' k, arnoldiLoop op tol left i Q H = (H', k + 1, k) ∧ k ≤ i + left ∧ Q' 0 = Q 0 ∧
        Ortho Q' (k + 1) ∧ (∀ j < k, op (Q' j) = ∑ l ∈ range (j + 2), H' l j • Q' l) ∧
        (∀ l j, j + 1 < l → H' l j = 0) ∧ ∀ j < k, tol < H' (j + 1) j
  | 0, i, Q, H, hH => ⟨Q, H, i, rfl, le_refl _, rfl, hH.on, hH.rel, hH.zero, hH.big⟩
  | left + 1, i, Q, H, hH => by
    obtain ⟨h1, h2, h3⟩ := orthogonalise_ok Q i hH.on (op (Q i)) H (i + 1) (le_refl _)
    unfold arnoldiLoop
    dsimp only
    generalize orthogonalise Q i (i + 1) (op (Q i)) H = s at *
    have hold : ∀ l j, j ≠ i → put s.2 (i + 1) i (norm s.1) l j = H l j := fun l j hj => by
      rw [put_other _ _ _ _ _ _ (fun h => hj h.2), h1 l j (Or.inl hj)]
    have hzero : ∀ l j, j + 1 < l → put s.2 (i + 1) i (norm s.1) l j = 0 := fun l j hlj => by
      by_cases hj : j = i
      · subst hj
        rw [put_other _ _ _ _ _ _ (by omega), h1 l j (Or.inr (by omega))]
        exact hH.zero l j hlj
      · rw [hold l j hj]; exact hH.zero l j hlj
    split
    · rename_i hb
      rw [abs_of_nonneg (norm_nonneg _)] at hb
      have hb0 : norm s.1 ≠ 0 := (lt_of_le_of_lt ht hb).ne'
      have hrel' : norm s.1 • ((norm s.1)⁻¹ • s.1) = s.1 := by
        rw [smul_smul, mul_inv_cancel₀ hb0, one_smul]
      obtain ⟨Q', H', k, g1, g2, g3, g4⟩ := arnoldiLoop_ok op tol ht left (i + 1)
        (fun j => if j = i + 1 then (norm s.1)⁻¹ • s.1 else Q j) (put s.2 (i + 1) i (norm s.1))
        { on := by
            intro a ha b hb'
            beta_reduce
            by_cases ea : a = i + 1
            · by_cases eb : b = i + 1
              · rw [if_pos ea, if_pos eb, if_pos (ea.trans eb.symm), smul_dotProduct, dotProduct_smul,
                  ← norm_mul_self, smul_eq_mul, smul_eq_mul, inv_mul_cancel_left₀ hb0, inv_mul_cancel₀ hb0]
              · rw [if_pos ea, if_neg eb, if_neg (by omega), smul_dotProduct, dotProduct_comm,
                  h3 b (by omega), smul_zero]
            · by_cases eb : b = i + 1
              · rw [if_neg ea, if_pos eb, if_neg (by omega), dotProduct_smul, h3 a (by omega), smul_zero]
              · rw [if_neg ea, if_neg eb]; exact hH.on a (by omega) b (by omega)
          rel := by
            intro j hj
            beta_reduce
            rw [if_neg (show ¬ j = i + 1 by omega)]
            by_cases hji : j = i
            · subst hji
              rw [Finset.sum_range_succ, if_pos rfl, put_same, hrel']
              conv_lhs => rw [h2]
              congr 1
              refine Finset.sum_congr rfl fun l hl => ?_
              have := mem_range.mp hl
              rw [if_neg (by omega), put_other _ _ _ _ _ _ (by omega)]
            · rw [hH.rel j (by omega)]
              refine Finset.sum_congr rfl fun l hl => ?_
              have := mem_range.mp hl
              rw [if_neg (by omega), hold l j hji]
          zero := hzero
          big := by
            intro j hj
            by_cases hji : j = i
            · subst hji; rw [put_same]; exact hb
            · rw [hold _ _ hji]; exact hH.big j (by omega) }
      refine ⟨Q', H', k, g1, by omega, ?_, g4⟩
      rw [g3]
      exact if_neg (by omega)
    · refine ⟨Q, _, i, rfl, by omega, rfl, hH.on, ?_, hzero, ?_⟩
      · intro j hj
        rw [hH.rel j hj]
        refine Finset.sum_congr rfl fun l _ => ?_
        rw [hold l j (by omega)]
      · intro j hj
        rw [hold _ _ (by omega)]
        exact hH.big j hj

end PyNucleus.Eigenvalues
