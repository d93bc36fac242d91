import Verif.Proof.EigenvaluesMore
import Mathlib.Data.Fin.VecNotation
import Mathlib.Tactic.NormNum

/-!
# C99: estimates of eigenvalues
-/

namespace PyNucleus.Props.C99

open PyNucleus.Eigenvalues Matrix Finset

variable {n : Nat}

/-- The power method for a symmetric matrix: the estimate is the length of `A v` for a vector of
length 1, at least the one of the start vector, and never more than the largest absolute value of an
eigenvalue. -/
theorem power_partial (A : Mat n) (hA : A.IsSymm) (eps : ℝ) (he : eps < 1) (kMax : Nat) (x : Vec n)
    (hx : Eigenvalues.norm x = 1) (hy : A *ᵥ x ≠ 0) :
    ∃ l, Eigenvalues.spectralRadius A eps kMax x = some l ∧ Eigenvalues.norm (A *ᵥ x) ≤ l ∧
      (∃ v, Eigenvalues.norm v = 1 ∧ Eigenvalues.norm (A *ᵥ v) = l) ∧
      ∀ rho, (∀ (t : ℝ) (v : Vec n), v ≠ 0 → A *ᵥ v = t • v → |t| ≤ rho) → l ≤ rho := by
  have hy' : Eigenvalues.norm (A *ᵥ x) ≠ 0 := by
    intro h
    apply hy
    have h2 := norm_mul_self (A *ᵥ x)
    rw [h, mul_zero] at h2
    exact dotProduct_self_eq_zero.mp h2.symm
  have hstep := power_step hA hx hy'
  have hpos : 0 < Eigenvalues.norm (A *ᵥ x) := lt_of_le_of_ne (norm_nonneg _) (Ne.symm hy')
  obtain ⟨l, h1, h2, v, h3, h4⟩ := powerLoop_ok hA eps kMax _ 1 (Eigenvalues.norm (A *ᵥ x))
    (norm_normalised hy') (lt_of_lt_of_le hpos hstep).ne' hstep ⟨x, hx, rfl⟩
  refine ⟨l, ?_, h2, ⟨v, h3, h4⟩, fun rho hr => ?_⟩
  · unfold Eigenvalues.spectralRadius powerLoop
    rw [if_pos (by rw [sub_zero, abs_one]; exact he)]
    dsimp only
    rw [if_neg hy']
    exact h1
  · have := sym_bound hA rho hr v
    rwa [h3, h4, mul_one] at this

/-- Eigenvalues 2 and -2. -/
def turn : Mat 2 := !![0, 4; 1, 0]

theorem turn0 (a b : ℝ) : turn *ᵥ ![a, b] = ![4 * b, a] := by
  ext i; fin_cases i <;> simp [turn, Matrix.mulVec, dotProduct, Fin.sum_univ_two]

theorem norm2 (a b : ℝ) : Eigenvalues.norm (![a, b] : Vec 2) = Real.sqrt (a ^ 2 + b ^ 2) := by
  unfold Eigenvalues.norm
  congr 1
  simp [dotProduct, Fin.sum_univ_two]; ring

theorem sqrt16 : Real.sqrt 16 = 4 := by
  rw [show (16 : ℝ) = 4 ^ 2 by norm_num]; exact Real.sqrt_sq (by norm_num)

theorem turn_step1 (left : Nat) (lold l : ℝ) (h : |l - lold| > 1e-3) :
    powerLoop turn 1e-3 (left + 1) ![0, 1] lold l = powerLoop turn 1e-3 left ![1, 0] l 4 := by
  conv_lhs => unfold powerLoop
  rw [if_pos h]
  dsimp only
  have hn : Eigenvalues.norm (turn *ᵥ ![0, 1]) = 4 := by
    rw [turn0, norm2]; norm_num [sqrt16]
  rw [hn, if_neg (by norm_num), turn0]
  congr 1
  ext i; fin_cases i <;> simp

theorem turn_step0 (left : Nat) (lold l : ℝ) (h : |l - lold| > 1e-3) :
    powerLoop turn 1e-3 (left + 1) ![1, 0] lold l = powerLoop turn 1e-3 left ![0, 1] l 1 := by
  conv_lhs => unfold powerLoop
  rw [if_pos h]
  dsimp only
  have hn : Eigenvalues.norm (turn *ᵥ ![1, 0]) = 1 := by
    rw [turn0, norm2]; norm_num
  rw [hn, if_neg (by norm_num), turn0]
  congr 1
  ext i; fin_cases i <;> simp

theorem turn_loop : ∀ (k : Nat) (lold l : ℝ), |l - lold| > 1e-3 → l = 1 →
    powerLoop turn 1e-3 (2 * k + 1) ![0, 1] lold l = some 4
  | 0, lold, l, h, _ => by rw [turn_step1 _ _ _ h]; rfl
  | k + 1, lold, l, h, hl => by
    rw [show 2 * (k + 1) + 1 = (2 * k + 1) + 1 + 1 by ring, turn_step1 _ _ _ h,
      turn_step0 _ _ _ (by rw [hl]; norm_num [abs_of_pos]),
      turn_loop k _ _ (by norm_num [abs_of_pos, abs_of_neg]) rfl]

/-- The estimate can be twice the largest absolute value of an eigenvalue for a matrix that is not
symmetric; for the operator 0 it is NaN; and 1 if the tolerance is at least 1. -/
theorem power_fails :
    (Eigenvalues.spectralRadius turn 1e-3 100 ![0, 1] = some 4 ∧
      ∀ (t : ℝ) (v : Vec 2), v ≠ 0 → turn *ᵥ v = t • v → |t| ≤ 2) ∧
    (Eigenvalues.spectralRadius (0 : Mat 2) 1e-3 100 ![0, 1] = none) ∧
    (∀ (A : Mat n) (kMax : Nat) (x : Vec n), Eigenvalues.spectralRadius A 1 kMax x = some 1) := by
  refine ⟨⟨?_, ?_⟩, ?_, ?_⟩
  · exact turn_loop 50 0 1 (by norm_num) rfl
  · intro t v hv h
    have e : v = ![v 0, v 1] := by ext i; fin_cases i <;> rfl
    rw [e, turn0] at h
    have h0 := congrFun h 0
    have h1 := congrFun h 1
    simp at h0 h1
    have hv1 : v 1 ≠ 0 := by
      intro h'
      apply hv
      rw [e, h1, h', mul_zero]
      ext i; fin_cases i <;> rfl
    rw [h1] at h0
    have h2 : t * t = 4 := by
      apply mul_right_cancel₀ hv1
      linarith
    rw [abs_le]
    constructor <;> nlinarith
  · unfold Eigenvalues.spectralRadius powerLoop
    rw [if_pos (by norm_num)]
    dsimp only
    rw [if_pos (by simp [Eigenvalues.norm]), if_pos ⟨by norm_num, by norm_num⟩]
  · intro A kMax x
    unfold Eigenvalues.spectralRadius powerLoop
    rw [if_neg (by norm_num)]

theorem mass_inv_pos {M Minv : Mat n} (hM : M.IsSymm) (hi : M * Minv = 1)
    (hp : ∀ v : Vec n, v ≠ 0 → 0 < v ⬝ᵥ M *ᵥ v) (w : Vec n) (hw : w ≠ 0) : 0 < w ⬝ᵥ Minv *ᵥ w := by
  have h1 : M *ᵥ (Minv *ᵥ w) = w := by rw [Matrix.mulVec_mulVec, hi, Matrix.one_mulVec]
  have h2 : Minv *ᵥ w ≠ 0 := fun h => hw (by rw [← h1, h, Matrix.mulVec_zero])
  have h3 := hp _ h2
  rw [h1, dotProduct_comm] at h3
  exact h3

theorem mass_inv_nonneg {M Minv : Mat n} (hM : M.IsSymm) (hi : M * Minv = 1)
    (hp : ∀ v : Vec n, v ≠ 0 → 0 < v ⬝ᵥ M *ᵥ v) (w : Vec n) : 0 ≤ w ⬝ᵥ Minv *ᵥ w := by
  by_cases h : w = 0
  · rw [h, zero_dotProduct]
  · exact (mass_inv_pos hM hi hp w h).le

/-- `lanczos2` for a symmetric operator, a symmetric positive mass matrix and its inverse: the result
is the tridiagonal matrix of the operator in a basis that is orthonormal with respect to the mass
matrix and starts with the normalised start vector. It has at most `n` columns; with `n` columns,
it is the operator in other coordinates. -/
theorem generalised (A M Minv : Mat n) (hA : A.IsSymm) (hM : M.IsSymm) (hi : M * Minv = 1)
    (hp : ∀ v : Vec n, v ≠ 0 → 0 < v ⬝ᵥ M *ᵥ v) (x : Option (Vec n)) (hx : x.getD (fun _ => 1) ≠ 0)
    (numIter : Nat) (hn : 0 < numIter) (H : Nat → Nat → ℝ) :
    ∃ H' k x' V, lanczos2 A M Minv x numIter H = some ((H', k), x') ∧
      0 < k ∧ k ≤ numIter ∧ k ≤ n ∧ Orthonormal M V k ∧
      (∃ s : ℝ, 0 < s ∧ V 0 = s • x.getD fun _ => 1) ∧
      (∀ i < k, ∀ j < k, V i ⬝ᵥ A *ᵥ V j = tri H' i j) ∧
      (k = n → ∀ y, A *ᵥ combo V k y = M *ᵥ combo V k fun i => ∑ j ∈ range k, tri H' i j * y j) := by
  unfold lanczos2
  dsimp only
  generalize x.getD (fun _ => 1) = x0 at *
  have hx0 := hp x0 hx
  have hs : 0 < Real.sqrt (x0 ⬝ᵥ M *ᵥ x0) := Real.sqrt_pos.mpr hx0
  rw [if_neg hs.ne', if_neg hn.ne']
  set s := Real.sqrt (x0 ⬝ᵥ M *ᵥ x0) with hsdef
  have hunit : (s⁻¹ • x0) ⬝ᵥ M *ᵥ (s⁻¹ • x0) = 1 := by
    rw [Matrix.mulVec_smul, smul_dotProduct, dotProduct_smul, smul_eq_mul, smul_eq_mul,
      ← Real.mul_self_sqrt hx0.le, ← hsdef, inv_mul_cancel_left₀ hs.ne', inv_mul_cancel₀ hs.ne']
  obtain ⟨V, w, B, h0, hk⟩ := loop_basis hA hM hi (mass_inv_nonneg hM hi hp) (numIter - 1) 1 _ _ _
    (start_basis (A := A) (s⁻¹ • x0) hunit H)
  refine ⟨_, _, _, V, rfl, B.pos, by omega, card_le B.on, B.on, ⟨s⁻¹, inv_pos.mpr hs, h0⟩,
    fun i hi' j hj => B.entry i j hi' hj, fun hkn y => ?_⟩
  have hap := B.apply y
  have hfull : w = 0 := by
    have B2 := B
    rw [hkn] at B2
    exact B2.full hA hM hi (mass_inv_pos hM hi hp)
  rw [hfull, smul_zero, add_zero] at hap
  exact hap

theorem one_pos' (v : Vec n) (hv : v ≠ 0) : 0 < v ⬝ᵥ (1 : Mat n) *ᵥ v := by
  rw [Matrix.one_mulVec]
  exact lt_of_le_of_ne (dot_nonneg v) (fun h => hv (dotProduct_self_eq_zero.mp h.symm))

/-- The start vector of `lanczos`. -/
def start (x : Option (Vec n)) : Vec n := x.getD fun _ => 1

/-- `lanczos` for a symmetric operator, in the same way. -/
theorem standard (A : Mat n) (hA : A.IsSymm) (x : Option (Vec n)) (hx : start x ≠ 0)
    (numIter : Nat) (hn : 0 < numIter) (H : Nat → Nat → ℝ) :
    ∃ H' k V, lanczos A x numIter H = some (H', k) ∧ 0 < k ∧ k ≤ numIter ∧ k ≤ n ∧
      (∀ i < k, ∀ j < k, V i ⬝ᵥ V j = if i = j then 1 else 0) ∧ (∃ s : ℝ, 0 < s ∧ V 0 = s • start x) ∧
      (∀ i < k, ∀ j < k, V i ⬝ᵥ A *ᵥ V j = tri H' i j) ∧
      (k = n → ∀ y, A *ᵥ combo V k y = combo V k fun i => ∑ j ∈ range k, tri H' i j * y j) := by
  obtain ⟨H', k, x', V, h1, h2, h3, h4, h5, h6, h7, h8⟩ := generalised A 1 1 hA
    Matrix.isSymm_one (Matrix.one_mul 1) one_pos' x hx numIter hn H
  refine ⟨H', k, V, ?_, h2, h3, h4, ?_, h6, h7, ?_⟩
  · have hnorm : Eigenvalues.norm (start x) ≠ 0 := by
      intro h
      have h' := norm_mul_self (start x)
      rw [h, mul_zero] at h'
      exact hx (dotProduct_self_eq_zero.mp h'.symm)
    have key : lanczos A x numIter H =
        lanczosFrom A ((Eigenvalues.norm (start x))⁻¹ • start x) numIter H := by
      cases x with
      | none =>
        unfold lanczos
        dsimp only
        congr 3
        unfold Eigenvalues.norm start
        congr 1
        simp [dotProduct]
      | some x =>
        unfold lanczos
        dsimp only
        rw [if_neg (show ¬ Eigenvalues.norm x = 0 from hnorm)]
        rfl
    rw [key]
    unfold lanczosFrom
    rw [if_neg hn.ne']
    dsimp only
    rw [lanczosLoop_eq]
    unfold lanczos2 at h1
    dsimp only at h1
    rw [Matrix.one_mulVec, if_neg (show ¬ Real.sqrt ((x.getD fun _ => 1) ⬝ᵥ (x.getD fun _ => 1)) = 0 from hnorm), if_neg hn.ne'] at h1
    rw [Matrix.one_mulVec] at h1
    have h1' := Option.some.inj h1
    exact congrArg some (Prod.ext_iff.mp h1').1
  · intro i hi j hj
    have := h5 i hi j hj
    rwa [Matrix.one_mulVec] at this
  · intro hk y
    have := h8 hk y
    rwa [Matrix.one_mulVec] at this

/-- The eigenvalues of the tridiagonal matrix lie between bounds for the eigenvalues of the
operator. -/
theorem between (A : Mat n) (hA : A.IsSymm) (x : Option (Vec n)) (hx : start x ≠ 0)
    (numIter : Nat) (hn : 0 < numIter) (H : Nat → Nat → ℝ) (a b : ℝ)
    (hab : ∀ (t : ℝ) (v : Vec n), v ≠ 0 → A *ᵥ v = t • v → a ≤ t ∧ t ≤ b) :
    ∃ H' k, lanczos A x numIter H = some (H', k) ∧ ∀ (t : ℝ) (y : Nat → ℝ),
      (∃ i < k, y i ≠ 0) → (∀ i < k, ∑ j ∈ range k, tri H' i j * y j = t * y i) → a ≤ t ∧ t ≤ b := by
  obtain ⟨H', k, V, h1, h2, h3, h4, h5, h6, h7, -⟩ := standard A hA x hx numIter hn H
  refine ⟨H', k, h1, fun t y hy ht => ?_⟩
  have hone : Orthonormal 1 V k := fun i hi j hj => by rw [Matrix.one_mulVec]; exact h5 i hi j hj
  have hsq := combo_sq 1 V k hone y
  rw [Matrix.one_mulVec] at hsq
  have hform := dot_combo A V k _ h7 y y
  have hform' : combo V k y ⬝ᵥ A *ᵥ combo V k y = t * ∑ i ∈ range k, y i ^ 2 := by
    rw [hform, Finset.mul_sum]
    refine Finset.sum_congr rfl fun i hi => ?_
    have : ∑ j ∈ range k, y i * tri H' i j * y j = y i * ∑ j ∈ range k, tri H' i j * y j := by
      rw [Finset.mul_sum]
      exact Finset.sum_congr rfl fun j _ => mul_assoc _ _ _
    rw [this, ht i (mem_range.mp hi)]
    ring
  have hpos : 0 < ∑ i ∈ range k, y i ^ 2 := by
    obtain ⟨i, hi, hyi⟩ := hy
    exact Finset.sum_pos' (fun _ _ => sq_nonneg _) ⟨i, mem_range.mpr hi, by positivity⟩
  have hr := sym_rayleigh hA a b hab (combo V k y)
  rw [hsq, hform'] at hr
  exact ⟨le_of_mul_le_mul_right hr.1 hpos, le_of_mul_le_mul_right hr.2 hpos⟩

/-- `lanczos2` overwrites the start vector that it is given. -/
theorem overwritten : ∃ r, lanczos2 (1 : Mat 1) 1 1 (some ![2]) 1 (fun _ _ => 0) = some (r, ![1]) := by
  have h : Real.sqrt ((![2] : Vec 1) ⬝ᵥ (1 : Mat 1) *ᵥ ![2]) = 2 := by
    rw [Matrix.one_mulVec]
    have : (![2] : Vec 1) ⬝ᵥ ![2] = 2 ^ 2 := by simp [dotProduct]; norm_num
    rw [this]
    exact Real.sqrt_sq (by norm_num)
  unfold lanczos2
  dsimp only [Option.getD_some]
  rw [h, if_neg (by norm_num), if_neg (by norm_num)]
  have h1 : (2⁻¹ : ℝ) • (![2] : Vec 1) = ![1] := by
    ext i
    fin_cases i
    simp
  rw [h1]
  exact ⟨_, rfl⟩

/-- `arnoldi`: the result with `k + 1` rows and `k` columns has the entries of the preconditioned
operator in an orthonormal basis that starts with the normalised start vector. -/
theorem hessenberg_partial (A : Mat n) (x0 : Vec n) (hx : x0 ≠ 0) (maxiter : Nat) (tol : ℝ)
    (ht : 0 ≤ tol) (L R : Option (Mat n)) (Q0 : Nat → Vec n) :
    ∃ (H : Nat → Nat → ℝ) (k : Nat) (Q : Nat → Vec n), arnoldi A x0 maxiter tol L R Q0 = some (H, k + 1, k) ∧ k ≤ maxiter ∧ k + 1 ≤ n ∧
      (∀ i < k + 1, ∀ j < k + 1, Q i ⬝ᵥ Q j = if i = j then 1 else 0) ∧ (∃ s : ℝ, 0 < s ∧ Q 0 = s • x0) ∧
      (∀ j < k, (L.getD 1 * A * R.getD 1) *ᵥ Q j = ∑ l ∈ range (j + 2), H l j • Q l) ∧
      (∀ l < k + 1, ∀ j < k, Q l ⬝ᵥ (L.getD 1 * A * R.getD 1) *ᵥ Q j = H l j) ∧
      ∀ l j, j + 1 < l → H l j = 0 := by
  have hop : ∀ v, applyAll A L R v = (L.getD 1 * A * R.getD 1) *ᵥ v := by
    intro v
    unfold applyAll
    cases L <;> cases R <;> simp [Matrix.mulVec_mulVec, Matrix.mul_assoc]
  simp only [← hop]
  have hnorm : Eigenvalues.norm x0 ≠ 0 := by
    intro h
    have h' := norm_mul_self x0
    rw [h, mul_zero] at h'
    exact hx (dotProduct_self_eq_zero.mp h'.symm)
  have hpos : 0 < Eigenvalues.norm x0 := lt_of_le_of_ne (norm_nonneg _) (Ne.symm hnorm)
  have hunit : ((Eigenvalues.norm x0)⁻¹ • x0) ⬝ᵥ ((Eigenvalues.norm x0)⁻¹ • x0) = 1 := by
    rw [← norm_mul_self, norm_normalised hnorm, mul_one]
  obtain ⟨Q, H, k, h1, h2, h3, h4, h5, h6, h7⟩ := arnoldiLoop_ok (applyAll A L R) tol ht maxiter 0
    (fun j => if j = 0 then (Eigenvalues.norm x0)⁻¹ • x0 else Q0 j) (fun _ _ => 0)
    { on := by
        intro i hi j hj
        have hi' : i = 0 := by omega
        have hj' : j = 0 := by omega
        subst hi'; subst hj'
        simpa using hunit
      rel := fun j hj => by omega
      zero := fun _ _ _ => rfl
      big := fun j hj => by omega }
  have hone : Orthonormal 1 Q (k + 1) := fun i hi j hj => by rw [Matrix.one_mulVec]; exact h4 i hi j hj
  refine ⟨H, k, Q, ?_, by omega, card_le hone, h4, ⟨(Eigenvalues.norm x0)⁻¹, inv_pos.mpr hpos, h3⟩, h5,
    fun l hl j hj => ?_, h6⟩
  · unfold arnoldi
    rw [if_neg hnorm, h1]
  · rw [h5 j hj, dotProduct_sum]
    by_cases hlj : l < j + 2
    · rw [Finset.sum_eq_single l]
      · rw [dotProduct_smul, h4 l hl l hl, if_pos rfl, smul_eq_mul, mul_one]
      · intro i hi hne
        have := mem_range.mp hi
        rw [dotProduct_smul, h4 l hl i (by omega), if_neg (Ne.symm hne), smul_zero]
      · intro h; exact absurd (mem_range.mpr hlj) h
    · rw [h6 l j (by omega)]
      refine Finset.sum_eq_zero fun i hi => ?_
      have := mem_range.mp hi
      rw [dotProduct_smul, h4 l hl i (by omega), if_neg (by omega), smul_zero]

/-- If the space of the basis is invariant, the last column is not returned: with an eigenvector as
start vector, the result has no entry. -/
theorem hessenberg_fails (Q0 : Nat → Vec 2) :
    ∃ H, arnoldi ((5 : ℝ) • (1 : Mat 2)) ![1, 0] 20 1e-10 none none Q0 = some (H, 1, 0) := by
  have hn : Eigenvalues.norm (![1, 0] : Vec 2) = 1 := by rw [norm2]; norm_num
  unfold arnoldi
  rw [hn, if_neg one_ne_zero]
  refine ⟨fun l j => if l = 0 ∧ j = 0 then 5 else 0, congrArg some ?_⟩
  unfold arnoldiLoop
  have hop : applyAll ((5 : ℝ) • (1 : Mat 2)) none none ![1, 0] = ![5, 0] := by
    unfold applyAll
    dsimp only
    rw [Matrix.smul_mulVec, Matrix.one_mulVec]
    ext i; fin_cases i <;> simp
  simp only [if_true, inv_one, one_smul, hop, orthogonalise]
  have hd : (![1, 0] : Vec 2) ⬝ᵥ ![5, 0] = 5 := by simp [dotProduct, Fin.sum_univ_two]
  have hz : (![5, 0] : Vec 2) - (5 : ℝ) • ![1, 0] = ![0, 0] := by
    ext i; fin_cases i <;> simp
  have hn0 : Eigenvalues.norm (![0, 0] : Vec 2) = 0 := by rw [norm2]; norm_num
  rw [hd, hz, hn0, if_neg (by norm_num)]
  refine Prod.ext ?_ rfl
  funext l j
  simp only [put]
  split
  · rename_i h; rw [if_neg (by omega)]
  · rfl

/-- Two steps of `lanczos` for a matrix with eigenvalues 1 and 3. -/
theorem sample_case : (!![2, 1; 1, 2] : Mat 2).IsSymm ∧ start (some ![1, 0] : Option (Vec 2)) ≠ 0 ∧
    Eigenvalues.norm (![1, 0] : Vec 2) = 1 ∧ (!![2, 1; 1, 2] : Mat 2) *ᵥ ![1, 0] ≠ 0 ∧
    Eigenvalues.spectralRadius (!![2, 1; 1, 2] : Mat 2) 1e-3 0 ![1, 0] = some (Real.sqrt 5) := by
  have hm : (!![2, 1; 1, 2] : Mat 2) *ᵥ ![1, 0] = ![2, 1] := by
    ext i; fin_cases i <;> simp [Matrix.mulVec, dotProduct, Fin.sum_univ_two]
  have h5 : Eigenvalues.norm (![2, 1] : Vec 2) = Real.sqrt 5 := by rw [norm2]; norm_num
  refine ⟨?_, ?_, by rw [norm2]; norm_num, ?_, ?_⟩
  · ext i j; fin_cases i <;> fin_cases j <;> rfl
  · intro h
    have := congrFun h 0
    simp [start] at this
  · rw [hm]
    intro h
    have := congrFun h 1
    simp at this
  · unfold Eigenvalues.spectralRadius powerLoop
    rw [if_pos (by norm_num)]
    dsimp only
    rw [hm, h5, if_neg (by positivity)]
    rfl

end PyNucleus.Props.C99
