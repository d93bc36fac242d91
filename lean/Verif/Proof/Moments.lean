import Mathlib.MeasureTheory.Measure.Lebesgue.VolumeOfBalls
import Mathlib.MeasureTheory.Constructions.HaarToSphere
import Mathlib.Analysis.Normed.Lp.MeasurableSpace
import Verif.Spec.Moments

/-!
Moments of radial functions.
-/

namespace PyNucleus.Moments

open MeasureTheory Set Metric

variable {d : Nat}

/-- Change the sign of one coordinate. -/
noncomputable def flip (i : Fin d) : EuclideanSpace ℝ (Fin d) ≃ₗᵢ[ℝ] EuclideanSpace ℝ (Fin d) :=
  LinearIsometryEquiv.piLpCongrRight 2 fun k => if k = i then LinearIsometryEquiv.neg ℝ else LinearIsometryEquiv.refl ℝ ℝ

theorem flip_same (i : Fin d) (z : EuclideanSpace ℝ (Fin d)) : flip i z i = -z i := by
  simp [flip, LinearIsometryEquiv.piLpCongrRight]

theorem flip_other {i j : Fin d} (h : j ≠ i) (z : EuclideanSpace ℝ (Fin d)) : flip i z j = z j := by
  simp [flip, LinearIsometryEquiv.piLpCongrRight, h]

theorem moment_off (f : ℝ → ℝ) {i j : Fin d} (h : i ≠ j) :
    ∫ z : EuclideanSpace ℝ (Fin d), z i * z j * f ‖z‖ = 0 := by
  have h1 := (flip i).measurePreserving.integral_comp (flip i).toHomeomorph.measurableEmbedding
    (fun z : EuclideanSpace ℝ (Fin d) => z i * z j * f ‖z‖)
  simp only [LinearIsometryEquiv.norm_map, flip_same, flip_other h.symm, neg_mul] at h1
  rw [integral_neg] at h1
  linarith

theorem moment_diag (f : ℝ → ℝ) (i j : Fin d) :
    ∫ z : EuclideanSpace ℝ (Fin d), z i * z i * f ‖z‖ = ∫ z : EuclideanSpace ℝ (Fin d), z j * z j * f ‖z‖ := by
  have h1 := (LinearIsometryEquiv.piLpCongrLeft 2 ℝ ℝ (Equiv.swap i j)).measurePreserving.integral_comp
    (LinearIsometryEquiv.piLpCongrLeft 2 ℝ ℝ (Equiv.swap i j)).toHomeomorph.measurableEmbedding
    (fun z : EuclideanSpace ℝ (Fin d) => z j * z j * f ‖z‖)
  have h2 : ∀ z : EuclideanSpace ℝ (Fin d), LinearIsometryEquiv.piLpCongrLeft 2 ℝ ℝ (Equiv.swap i j) z j = z i := by
    intro z
    simp [LinearIsometryEquiv.piLpCongrLeft_apply]
  simp only [LinearIsometryEquiv.norm_map, h2] at h1
  exact h1

/-- Volume of the unit ball. -/
noncomputable def unitBall (d : Nat) : ℝ := (volume : Measure (EuclideanSpace ℝ (Fin d))).real (ball 0 1)

theorem norm_sq (z : EuclideanSpace ℝ (Fin d)) : ‖z‖ ^ 2 = ∑ i, z i * z i := by
  rw [EuclideanSpace.norm_sq_eq]
  simp [sq]

theorem moment_radial (hd : 0 < d) (f : ℝ → ℝ) (hf : IntegrableOn (fun r => r ^ (d + 1) * f r) (Ioi 0)) (i j : Fin d) :
    ∫ z : EuclideanSpace ℝ (Fin d), z i * z j * f ‖z‖ =
      if i = j then unitBall d * ∫ r in Ioi (0 : ℝ), r ^ (d + 1) * f r else 0 := by
  by_cases h : i = j
  swap
  · rw [if_neg h, moment_off f h]
  subst h
  rw [if_pos rfl]
  haveI : Nontrivial (EuclideanSpace ℝ (Fin d)) := by
    haveI : Nonempty (Fin d) := ⟨⟨0, hd⟩⟩
    infer_instance
  have hpow : ∀ y : ℝ, y ^ (Module.finrank ℝ (EuclideanSpace ℝ (Fin d)) - 1) • (y ^ 2 * f y) = y ^ (d + 1) * f y := by
    intro y
    rw [finrank_euclideanSpace_fin, smul_eq_mul, ← mul_assoc, ← pow_add, show d - 1 + 2 = d + 1 by omega]
  have hint : Integrable (fun z : EuclideanSpace ℝ (Fin d) => ‖z‖ ^ 2 * f ‖z‖) := by
    rw [integrable_fun_norm_addHaar volume (f := fun r => r ^ 2 * f r)]
    simp only [hpow]
    exact hf
  have htot : ∫ z : EuclideanSpace ℝ (Fin d), ‖z‖ ^ 2 * f ‖z‖ =
      d * (unitBall d * ∫ r in Ioi (0 : ℝ), r ^ (d + 1) * f r) := by
    rw [integral_fun_norm_addHaar volume (fun r => r ^ 2 * f r)]
    simp only [hpow]
    rw [finrank_euclideanSpace_fin, nsmul_eq_mul, smul_eq_mul]
    rfl
  have hk : ∀ k : Fin d, Integrable (fun z : EuclideanSpace ℝ (Fin d) => z k * z k * f ‖z‖) := by
    intro k
    have hb : Integrable (fun z : EuclideanSpace ℝ (Fin d) => (z k * z k / ‖z‖ ^ 2) * (‖z‖ ^ 2 * f ‖z‖)) := by
      refine hint.bdd_mul (c := 1) ?_ ?_
      · have hm : Measurable fun z : EuclideanSpace ℝ (Fin d) => z k := by fun_prop
        exact ((hm.mul hm).div (measurable_norm.pow_const 2)).aestronglyMeasurable
      · filter_upwards with z
        rw [Real.norm_eq_abs, abs_of_nonneg (div_nonneg (mul_self_nonneg _) (by positivity))]
        apply div_le_one_of_le₀ _ (by positivity)
        rw [norm_sq]
        exact Finset.single_le_sum (f := fun i => z i * z i) (fun i _ => mul_self_nonneg _) (Finset.mem_univ k)
    refine hb.congr ?_
    filter_upwards with z
    by_cases hz : ‖z‖ = 0
    · have : z = 0 := norm_eq_zero.mp hz
      subst this
      simp
    · field_simp
  have hsum : ∫ z : EuclideanSpace ℝ (Fin d), ‖z‖ ^ 2 * f ‖z‖ =
      ∑ k : Fin d, ∫ z : EuclideanSpace ℝ (Fin d), z k * z k * f ‖z‖ := by
    rw [← integral_finset_sum _ fun k _ => hk k]
    congr 1
    funext z
    rw [norm_sq, Finset.sum_mul]
  rw [Finset.sum_congr rfl fun k _ => moment_diag f k i, Finset.sum_const, Finset.card_univ, Fintype.card_fin, htot,
    nsmul_eq_mul] at hsum
  have hd' : (d : ℝ) ≠ 0 := by exact_mod_cast hd.ne'
  exact (mul_left_cancel₀ hd' hsum).symm

theorem mass_radial (hd : 0 < d) (f : ℝ → ℝ) :
    ∫ z : EuclideanSpace ℝ (Fin d), f ‖z‖ = d * (unitBall d * ∫ r in Ioi (0 : ℝ), r ^ (d - 1) * f r) := by
  haveI : Nontrivial (EuclideanSpace ℝ (Fin d)) := by
    haveI : Nonempty (Fin d) := ⟨⟨0, hd⟩⟩
    infer_instance
  rw [integral_fun_norm_addHaar volume f, finrank_euclideanSpace_fin, nsmul_eq_mul, smul_eq_mul]
  rfl

theorem unitBall_eq (hd : 0 < d) : unitBall d = √Real.pi ^ d / Real.Gamma ((d : ℝ) / 2 + 1) := by
  haveI : Nonempty (Fin d) := ⟨⟨0, hd⟩⟩
  unfold unitBall Measure.real
  rw [EuclideanSpace.volume_ball]
  have : 0 ≤ √Real.pi ^ d / Real.Gamma ((d : ℝ) / 2 + 1) :=
    div_nonneg (by positivity) (Real.Gamma_pos_of_pos (by positivity)).le
  simp [ENNReal.toReal_ofReal this]

theorem unitBall_one : unitBall 1 = 2 := by
  rw [unitBall_eq (by norm_num), pow_one]
  rw [show (((1 : ℕ) : ℝ) / 2 + 1) = 1 / 2 + 1 by norm_num, Real.Gamma_add_one (by norm_num), Real.Gamma_one_half_eq]
  have : √Real.pi ≠ 0 := (Real.sqrt_pos.mpr Real.pi_pos).ne'
  field_simp

theorem unitBall_two : unitBall 2 = Real.pi := by
  rw [unitBall_eq (by norm_num), Real.sq_sqrt Real.pi_pos.le, show (((2 : ℕ) : ℝ) / 2 + 1) = 1 + 1 by norm_num,
    Real.Gamma_add_one (by norm_num), Real.Gamma_one]
  norm_num

end PyNucleus.Moments
