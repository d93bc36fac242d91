import Mathlib.MeasureTheory.Integral.Gamma
import Mathlib.MeasureTheory.Integral.Pi
import Verif.Proof.KernelScaling
import Verif.Proof.Normalization

/-!
C74: normalised kernels have unit second moments.
-/

namespace PyNucleus.Props.C74

open MeasureTheory Set Kernels Normalization Moments

theorem ballInf_one (h : ℝ) : Kernels.ballInf 1 h = Kernels.ball2 1 h := by
  have : ∀ x y : Point, distMax2 1 x y = dist2 1 x y := by
    intro x y
    simp [distMax2, dist2, sq_nonneg]
  funext x y
  simp [Kernels.ballInf, Kernels.ball2, this]

/-- Interaction domains for which the normalisation is meant: balls of the Euclidean norm, in one dimension also the
interval that is called `ballInf`. -/
def Admissible (d : Nat) (dom : Option Domain) : Prop := dom = none ∨ dom = some .ball2 ∨ (d = 1 ∧ dom = some .ballInf)

theorem interaction_eq {d : Nat} {dom : Option Domain} (hdom : Admissible d dom) (h : ℝ) :
    (getDomain (some h) dom).interaction d (some h) = Kernels.ball2 d h := by
  rcases hdom with rfl | rfl | ⟨rfl, rfl⟩
  · rfl
  · rfl
  · exact ballInf_one h

/-- A kernel on a ball. -/
noncomputable def ballKernel (d : Nat) (kind : Kind) (h c e : ℝ) : Kernel where
  kind := kind
  dim := d
  boundary := false
  horizon := some h
  interaction := Kernels.ball2 d h
  s := 0
  scalingPrePhi := c
  phi := none
  tempered := 0
  exponent := e
  power := 0

theorem indicator_integral (d : Nat) (h c : ℝ) :
    ∫ r in (0 : ℝ)..h, r ^ (d + 1) * c = c * h ^ (d + 2) / (d + 2) := by
  rw [intervalIntegral.integral_mul_const, integral_pow]
  simp only [zero_pow (Nat.succ_ne_zero (d + 1)), sub_zero]
  push_cast
  rw [show ((d : ℝ) + 1 + 1) = d + 2 by ring]
  ring

theorem peridynamic_congr (d : Nat) (hd : 0 < d) {h : ℝ} (hh : 0 < h) (c : ℝ) :
    EqOn (fun r : ℝ => r ^ (d + 1) * (c / √(r ^ 2))) (fun r => r ^ d * c) (uIcc 0 h) := by
  intro r hr
  rw [uIcc_of_le hh.le] at hr
  have h0 := hr.1
  simp only
  rw [Real.sqrt_sq h0]
  rcases h0.eq_or_lt with h0 | h0
  · subst h0
    simp [hd.ne']
  · field_simp
    ring

theorem peridynamic_integral (d : Nat) (hd : 0 < d) {h : ℝ} (hh : 0 < h) (c : ℝ) :
    ∫ r in (0 : ℝ)..h, r ^ (d + 1) * (c / √(r ^ 2)) = c * h ^ (d + 1) / (d + 1) := by
  rw [intervalIntegral.integral_congr (peridynamic_congr d hd hh c), intervalIntegral.integral_mul_const, integral_pow]
  simp only [zero_pow (Nat.succ_ne_zero d), sub_zero]
  ring

theorem exponential_congr {h : ℝ} (hh : 0 < h) (c a : ℝ) :
    EqOn (fun r : ℝ => r ^ (1 + 1) * (c * Real.exp (-a * √(r ^ 2)))) (fun r => c * (r ^ 2 * Real.exp (-a * r)))
      (uIcc 0 h) := by
  intro r hr
  rw [uIcc_of_le hh.le] at hr
  simp only
  rw [Real.sqrt_sq hr.1]
  ring

/-- Second moments of the normalised kernels of finite horizon: `∫ z_i z_j γ(x, x+z) dz = δ_ij`. -/
theorem second_moment (d : Nat) (kind : Kind) (dom : Option Domain) (hdom : Admissible d dom)
    (hk : ((kind = .indicator ∨ kind = .peridynamic ∨ kind = .gaussian) ∧ (d = 1 ∨ d = 2)) ∨ (kind = .exponential ∧ d = 1))
    (h : ℝ) (hh : 0 < h) (variance rate a : ℝ) (hr : 0 < rate) :
    ∃ k γ, getIntegrableKernel d kind (some h) dom variance rate a = some k ∧ kernelFun k = some γ ∧
      ∀ x i j, moment d γ x i j = if i = j then 1 else 0 := by
  have hI := interaction_eq hdom h
  have hpi := Real.pi_pos
  have hsp : 0 < √Real.pi := Real.sqrt_pos.mpr hpi
  have hdom2 : d = 2 → getDomain (some h) dom = .ball2 := by
    rintro rfl
    rcases hdom with rfl | rfl | ⟨h1, -⟩
    · rfl
    · rfl
    · omega
  have hσ : 0 < h / 3 := by linarith
  -- it is enough to give the scaling, the profile and the integral
  suffices ∃ (c : ℝ) (φ : ℝ → ℝ), integrableScaling kind (getDomain (some h) dom) d (some h) variance rate = some c ∧
      0 < d ∧ kernelFun (ballKernel d kind h c (exponentInverse kind d (some h) variance rate a)) =
        some (within (Kernels.ball2 d h) φ) ∧
      IntervalIntegrable (fun r => r ^ (d + 1) * φ (r ^ 2)) volume 0 h ∧
      unitBall d * ∫ r in (0 : ℝ)..h, r ^ (d + 1) * φ (r ^ 2) = 1 by
    obtain ⟨c, φ, h1, hd, h2, h3, h4⟩ := this
    refine ⟨_, _, ?_, h2, ?_⟩
    · rw [getIntegrableKernel, h1, Option.map_some, hI]
      rfl
    · intro x i j
      rw [moment_ball hd hh φ h3, h4]
  rcases hk with ⟨rfl | rfl | rfl, rfl | rfl⟩ | ⟨rfl, rfl⟩
  · refine ⟨3 / h ^ 3 / 2, fun _ => 3 / h ^ 3 / 2, ?_, by norm_num, rfl, ?_, ?_⟩
    · simp [integrableScaling, finiteScaling, hh]
    · exact Continuous.intervalIntegrable (by fun_prop) _ _
    · rw [indicator_integral, unitBall_one]
      field_simp
      norm_num <;> ring
  · refine ⟨8 / Real.pi / h ^ 4 / 2, fun _ => 8 / Real.pi / h ^ 4 / 2, ?_, by norm_num, rfl, ?_, ?_⟩
    · simp [integrableScaling, finiteScaling, hdom2 rfl, hh]
    · exact Continuous.intervalIntegrable (by fun_prop) _ _
    · rw [indicator_integral, unitBall_two]
      field_simp
      norm_num <;> ring
  · refine ⟨2 / h ^ 2 / 2, fun d2 => 2 / h ^ 2 / 2 / √d2, ?_, by norm_num, rfl, ?_, ?_⟩
    · simp [integrableScaling, finiteScaling, hh]
    · exact (Continuous.intervalIntegrable (by fun_prop) _ _ :
        IntervalIntegrable (fun r : ℝ => r ^ 1 * (2 / h ^ 2 / 2)) volume 0 h).congr
          ((peridynamic_congr 1 (by norm_num) hh _).symm.mono uIoc_subset_uIcc)
    · rw [peridynamic_integral 1 (by norm_num) hh, unitBall_one]
      field_simp
      norm_num <;> ring
  · refine ⟨6 / Real.pi / h ^ 3 / 2, fun d2 => 6 / Real.pi / h ^ 3 / 2 / √d2, ?_, by norm_num, rfl, ?_, ?_⟩
    · simp [integrableScaling, finiteScaling, hdom2 rfl, hh]
    · exact (Continuous.intervalIntegrable (by fun_prop) _ _ :
        IntervalIntegrable (fun r : ℝ => r ^ 2 * (6 / Real.pi / h ^ 3 / 2)) volume 0 h).congr
          ((peridynamic_congr 2 (by norm_num) hh _).symm.mono uIoc_subset_uIcc)
    · rw [peridynamic_integral 2 (by norm_num) hh, unitBall_two]
      field_simp
      norm_num <;> ring
  · refine ⟨4 / √Real.pi / (erf 3 - 6 * Real.exp (-9) / √Real.pi) / (h / 3) ^ 3 / 2, fun d2 =>
      4 / √Real.pi / (erf 3 - 6 * Real.exp (-9) / √Real.pi) / (h / 3) ^ 3 / 2 * Real.exp (-d2 * (1 / (h / 3) ^ 2)), ?_,
      by norm_num, rfl, ?_, ?_⟩
    · simp [integrableScaling, finiteScaling, hh]
    · exact Continuous.intervalIntegrable (by fun_prop) _ _
    · have key : ∫ r in (0 : ℝ)..h, r ^ 2 * Real.exp (-r ^ 2 * (1 / (h / 3) ^ 2)) =
          (h / 3) ^ 3 * (√Real.pi / 4 * (erf 3 - 6 * Real.exp (-9) / √Real.pi)) := by
        have e := erf_scale hσ 3
        rw [show 3 * (h / 3) = h by ring] at e
        have e9 : -h ^ 2 * (1 / (h / 3) ^ 2) = -9 := by
          field_simp
          norm_num
        rw [integral_gauss_one (by positivity), e, e9]
        field_simp
        ring
      have hpos := integral_pos_of_sq hh (fun r => Real.exp (-r ^ 2 * (1 / (h / 3) ^ 2))) (by fun_prop)
        fun r => Real.exp_pos _
      rw [key] at hpos
      have hne : erf 3 - 6 * Real.exp (-9) / √Real.pi ≠ 0 := by
        intro h0
        rw [h0] at hpos
        simp at hpos
      have e : ∀ C : ℝ, (∫ r in (0 : ℝ)..h, r ^ (1 + 1) * (C * Real.exp (-r ^ 2 * (1 / (h / 3) ^ 2)))) =
          C * ((h / 3) ^ 3 * (√Real.pi / 4 * (erf 3 - 6 * Real.exp (-9) / √Real.pi))) := by
        intro C
        rw [← key, ← intervalIntegral.integral_const_mul]
        congr 1
        funext r
        ring
      rw [e, unitBall_one]
      generalize erf 3 - 6 * Real.exp (-9) / √Real.pi = D at hne ⊢
      field_simp
  · refine ⟨4 / Real.pi / (1 - 10 * Real.exp (-9)) / (h / 3) ^ 4 / 2, fun d2 =>
      4 / Real.pi / (1 - 10 * Real.exp (-9)) / (h / 3) ^ 4 / 2 * Real.exp (-d2 * (1 / (h / 3) ^ 2)), ?_,
      by norm_num, rfl, ?_, ?_⟩
    · simp [integrableScaling, finiteScaling, hdom2 rfl, hh]
    · exact Continuous.intervalIntegrable (by fun_prop) _ _
    · have hne : (1 - 10 * Real.exp (-9)) ≠ 0 := by
        have h1 : (9 : ℝ) + 1 < Real.exp 9 := Real.add_one_lt_exp (by norm_num)
        have h2 : Real.exp (-9) * Real.exp 9 = 1 := by rw [← Real.exp_add]; norm_num
        have h3 := Real.exp_pos (-9)
        nlinarith
      have e9 : -h ^ 2 * (1 / (h / 3) ^ 2) = -9 := by
        field_simp
        norm_num
      have e : ∀ C : ℝ, (∫ r in (0 : ℝ)..h, r ^ (2 + 1) * (C * Real.exp (-r ^ 2 * (1 / (h / 3) ^ 2)))) =
          C * ((h / 3) ^ 4 / 2 * (1 - 10 * Real.exp (-9))) := by
        intro C
        have := integral_gauss_two (h := h) (c := 1 / (h / 3) ^ 2) (by positivity)
        rw [e9] at this
        have h2 : (h / 3) ^ 4 / 2 * (1 - 10 * Real.exp (-9)) = ∫ r in (0 : ℝ)..h, r ^ 3 * Real.exp (-r ^ 2 * (1 / (h / 3) ^ 2)) := by
          rw [this]
          field_simp
          ring
        rw [h2, ← intervalIntegral.integral_const_mul]
        congr 1
        funext r
        ring
      rw [e, unitBall_two]
      generalize 1 - 10 * Real.exp (-9) = D at hne ⊢
      field_simp
      norm_num <;> ring
  · refine ⟨rate ^ 3 / (2 - Real.exp (-rate * h) * (2 + 2 * rate * h + (rate * h) ^ 2)) / 2, fun d2 =>
      rate ^ 3 / (2 - Real.exp (-rate * h) * (2 + 2 * rate * h + (rate * h) ^ 2)) / 2 * Real.exp (-rate * √d2), ?_,
      by norm_num, rfl, ?_, ?_⟩
    · simp [integrableScaling, finiteScaling, hh]
    · exact Continuous.intervalIntegrable (by fun_prop) _ _
    · have hpos := integral_pos_of_sq hh (fun r => Real.exp (-rate * r)) (by fun_prop) fun r => Real.exp_pos _
      rw [integral_exponential hr.ne'] at hpos
      have hne : 2 - Real.exp (-rate * h) * (2 + 2 * rate * h + (rate * h) ^ 2) ≠ 0 := by
        intro h0
        rw [h0] at hpos
        simp at hpos
      rw [intervalIntegral.integral_congr (exponential_congr hh _ rate), intervalIntegral.integral_const_mul,
        integral_exponential hr.ne', unitBall_one]
      generalize 2 - Real.exp (-rate * h) * (2 + 2 * rate * h + (rate * h) ^ 2) = D at hne ⊢
      field_simp

/-- A case of `second_moment`: the kernel of the Gaussian type with horizon 1 in two dimensions. -/
example : ∃ k γ, getIntegrableKernel 2 .gaussian (some 1) none 1 1 1 = some k ∧ kernelFun k = some γ ∧
    ∀ x i j, moment 2 γ x i j = if i = j then 1 else 0 :=
  second_moment 2 .gaussian none (Or.inl rfl) (by simp) 1 (by norm_num) 1 1 1 (by norm_num)

theorem fractional_congr (d : Nat) {h : ℝ} (hh : 0 < h) (s c : ℝ) :
    EqOn (fun r : ℝ => r ^ (d + 1) * (c * (r ^ 2) ^ (-(d : ℝ) / 2 - s))) (fun r => c * r ^ (1 - 2 * s)) (uIoc 0 h) := by
  intro r hr
  rw [uIoc_of_le hh.le] at hr
  have h0 := hr.1
  simp only
  rw [← Real.rpow_natCast r 2, ← Real.rpow_mul h0.le, ← Real.rpow_natCast r (d + 1), mul_left_comm, ← Real.rpow_add h0]
  congr 2
  push_cast
  ring

/-- Second moments of the normalised fractional kernels of finite horizon. -/
theorem fractional_moment (d : Nat) (hd : d = 1 ∨ d = 2 ∨ d = 3) (s : ℝ) (h0 : 0 < s) (h1 : s < 1) (h : ℝ) (hh : 0 < h) :
    ∃ γ : Point → Point → ℝ,
      (∀ x y, (KernelScaling.getFractionalKernel d s (some h) true false 0 0).eval [1] x y = some [γ x y]) ∧
      ∀ x i j, moment d γ x i j = if i = j then 1 else 0 := by
  have hpos : ∀ h', some h = some h' → 0 < h' := by
    intro h' e
    cases e
    exact hh
  have hd0 : 0 < d := by omega
  obtain ⟨c, hc⟩ : ∃ c, c = KernelScaling.derivativeC d s (some h) true 0 := ⟨_, rfl⟩
  refine ⟨within (Kernels.ball2 d h) fun d2 => c * d2 ^ (-(d : ℝ) / 2 - s), ?_, ?_⟩
  · intro x y
    have e := KernelScaling.kernel_fac d hd (some h) true false hpos h0 h1 x y (by omega : 0 ≤ 2)
    unfold KernelScaling.FractionalKernel.eval
    rw [e, Option.bind_some]
    simp only [KernelScaling.getFractionalKernel, if_true, KernelScaling.valueOf, KernelScaling.inside, KernelScaling.bfac,
      KernelScaling.scalingOf, KernelScaling.expo, Bool.false_eq_true, if_false, within, Kernels.ball2, hc]
    split <;> simp_all
  · intro x i j
    have hI : IntervalIntegrable (fun r => c * r ^ (1 - 2 * s)) volume 0 h :=
      (intervalIntegral.intervalIntegrable_rpow' (by linarith)).const_mul c
    rw [moment_ball hd0 hh (fun d2 => c * d2 ^ (-(d : ℝ) / 2 - s)) (hI.congr (fractional_congr d hh s c).symm)]
    congr 1
    have e : ∫ r in (0 : ℝ)..h, r ^ (d + 1) * (c * (r ^ 2) ^ (-(d : ℝ) / 2 - s)) = ∫ r in (0 : ℝ)..h, c * r ^ (1 - 2 * s) := by
      rw [intervalIntegral.integral_of_le hh.le, intervalIntegral.integral_of_le hh.le]
      refine setIntegral_congr_fun measurableSet_Ioc ?_
      have := fractional_congr d hh s c
      rwa [uIoc_of_le hh.le] at this
    rw [e, intervalIntegral.integral_const_mul, integral_rpow (Or.inl (by linarith)),
      Real.zero_rpow (by linarith), sub_zero, unitBall_eq hd0, hc]
    simp only [KernelScaling.derivativeC, if_true]
    rw [show (1 / 2 : ℝ) * d = d / 2 by ring, Real.Gamma_add_one (by positivity), ← Real.rpow_natCast h 2, ← Real.rpow_mul hh.le]
    have e1 : Real.pi ^ ((d : ℝ) / 2) = √Real.pi ^ d := by
      rw [Real.sqrt_eq_rpow, ← Real.rpow_natCast, ← Real.rpow_mul Real.pi_pos.le]
      congr 1
      ring
    have e2 : h ^ (((2 : ℕ) : ℝ) * (s - 1)) * h ^ (1 - 2 * s + 1) = 1 := by
      rw [← Real.rpow_add hh]
      rw [show ((2 : ℕ) : ℝ) * (s - 1) + (1 - 2 * s + 1) = 0 by push_cast; ring, Real.rpow_zero]
    rw [e1]
    have hG : Real.Gamma ((d : ℝ) / 2) ≠ 0 := (Real.Gamma_pos_of_pos (by positivity)).ne'
    have hp : √Real.pi ^ d ≠ 0 := by positivity
    have hdne : (d : ℝ) ≠ 0 := by positivity
    have hs : 1 - 2 * s + 1 ≠ 0 := by linarith
    calc _ = (h ^ (((2 : ℕ) : ℝ) * (s - 1)) * h ^ (1 - 2 * s + 1)) * ((2 - 2 * s) / (1 - 2 * s + 1)) := by
          field_simp
      _ = 1 := by
          rw [e2, one_mul, show 2 - 2 * s = 1 - 2 * s + 1 by ring, div_self hs]

theorem full_shift (d : Nat) (φ : ℝ → ℝ) (x : Point) (z : EuclideanSpace ℝ (Fin d)) :
    within (Kernels.fullSpace d) φ x (shift x z) = (fun r : ℝ => φ (r ^ 2)) ‖z‖ := by
  simp [within, Kernels.fullSpace, dist2_shift]

/-- Second moment of the normalised exponential kernel of infinite horizon. -/
theorem exponential_moment (variance rate a : ℝ) (hr : 0 < rate) :
    ∃ k γ, getIntegrableKernel 1 .exponential none none variance rate a = some k ∧ kernelFun k = some γ ∧
      ∀ x i j, moment 1 γ x i j = if i = j then 1 else 0 := by
  refine ⟨_, within (Kernels.fullSpace 1) fun d2 => rate ^ 3 / 2 / 2 * Real.exp (-rate * √d2), rfl, rfl, ?_⟩
  intro x i j
  unfold moment
  simp only [full_shift]
  have hcong : EqOn (fun r : ℝ => r ^ (1 + 1) * (rate ^ 3 / 2 / 2 * Real.exp (-rate * √(r ^ 2))))
      (fun r => rate ^ 3 / 2 / 2 * (r ^ ((3 : ℝ) - 1) * Real.exp (-(rate * r)))) (Ioi 0) := by
    intro r hr
    have hr : 0 < r := hr
    simp only
    rw [Real.sqrt_sq hr.le, show ((3 : ℝ) - 1) = ((2 : ℕ) : ℝ) by norm_num, Real.rpow_natCast]
    ring_nf
  have hint : IntegrableOn (fun r : ℝ => r ^ ((3 : ℝ) - 1) * Real.exp (-(rate * r))) (Ioi 0) := by
    by_contra hcon
    have := integral_undef hcon
    rw [Real.integral_rpow_mul_exp_neg_mul_Ioi (by norm_num) hr] at this
    have h1 : 0 < (1 / rate) ^ (3 : ℝ) * Real.Gamma 3 :=
      mul_pos (by positivity) (Real.Gamma_pos_of_pos (by norm_num))
    linarith
  rw [moment_radial (d := 1) (by norm_num) (fun r => rate ^ 3 / 2 / 2 * Real.exp (-rate * √(r ^ 2)))
    ((integrableOn_congr_fun hcong measurableSet_Ioi).mpr (hint.const_mul _))]
  congr 1
  rw [setIntegral_congr_fun measurableSet_Ioi hcong, integral_const_mul,
    Real.integral_rpow_mul_exp_neg_mul_Ioi (by norm_num) hr, unitBall_one]
  have hG : Real.Gamma 3 = 2 := by
    rw [show (3 : ℝ) = 2 + 1 by norm_num, Real.Gamma_add_one (by norm_num), Real.Gamma_two]
    norm_num
  rw [hG, show (3 : ℝ) = ((3 : ℕ) : ℝ) by norm_num, Real.rpow_natCast]
  field_simp

/-- The mass of the normalised Gaussian kernels of infinite horizon: in one dimension twice the kernel is a probability
density, in two dimensions the mass is proportional to the variance. -/
theorem gaussian_mass_partial (d : Nat) (hd : d = 1 ∨ d = 2) (variance rate a : ℝ) (hv : 0 < variance) :
    ∃ k γ, getIntegrableKernel d .gaussian none none variance rate a = some k ∧ kernelFun k = some γ ∧
      ∀ x, mass d γ x = if d = 1 then 1 / 2 else variance / 2 := by
  have hpi := Real.pi_pos
  rcases hd with rfl | rfl
  · refine ⟨_, within (Kernels.fullSpace 1) fun d2 => 1 / √(2 * Real.pi * variance) / 2 *
      Real.exp (-d2 * ((1 / 2) / variance ^ 1)), rfl, rfl, ?_⟩
    intro x
    unfold mass
    simp only [full_shift]
    rw [mass_radial (d := 1) (by norm_num) fun r => 1 / √(2 * Real.pi * variance) / 2 *
      Real.exp (-r ^ 2 * ((1 / 2) / variance ^ 1))]
    have e : (fun r : ℝ => r ^ (1 - 1) * (1 / √(2 * Real.pi * variance) / 2 * Real.exp (-r ^ 2 * ((1 / 2) / variance ^ 1)))) =
        fun r => 1 / √(2 * Real.pi * variance) / 2 * Real.exp (-((1 / 2) / variance) * r ^ 2) := by
      funext r
      simp only [Nat.sub_self, pow_zero, one_mul, pow_one]
      ring_nf
    rw [e, integral_const_mul, integral_gaussian_Ioi, unitBall_one,
      show Real.pi / (1 / 2 / variance) = 2 * Real.pi * variance by field_simp]
    have : √(2 * Real.pi * variance) ≠ 0 := (Real.sqrt_pos.mpr (by positivity)).ne'
    simp only [if_true]
    field_simp
    norm_num
  · refine ⟨_, within (Kernels.fullSpace 2) fun d2 => 1 / (2 * Real.pi * variance) / 2 *
      Real.exp (-d2 * ((1 / 2) / variance ^ 2)), rfl, rfl, ?_⟩
    intro x
    unfold mass
    simp only [full_shift]
    rw [mass_radial (d := 2) (by norm_num) fun r => 1 / (2 * Real.pi * variance) / 2 *
      Real.exp (-r ^ 2 * ((1 / 2) / variance ^ 2))]
    have hb : 0 < (1 / 2 : ℝ) / variance ^ 2 := by positivity
    have e : (fun r : ℝ => r ^ (2 - 1) * (1 / (2 * Real.pi * variance) / 2 * Real.exp (-r ^ 2 * ((1 / 2) / variance ^ 2)))) =
        fun r => 1 / (2 * Real.pi * variance) / 2 * (r * Real.exp (-((1 / 2) / variance ^ 2) * r ^ 2)) := by
      funext r
      rw [show -r ^ 2 * ((1 / 2) / variance ^ 2) = -((1 / 2) / variance ^ 2) * r ^ 2 by ring]
      ring
    have hi : ∫ r in Ioi (0 : ℝ), r * Real.exp (-((1 / 2) / variance ^ 2) * r ^ 2) = (2 * ((1 / 2) / variance ^ 2))⁻¹ := by
      have := integral_rpow_mul_exp_neg_mul_rpow (p := 2) (q := 1) (by norm_num) (by norm_num) hb
      simp only [Real.rpow_one] at this
      rw [show ∫ r in Ioi (0 : ℝ), r * Real.exp (-((1 / 2) / variance ^ 2) * r ^ 2) =
        ∫ r in Ioi (0 : ℝ), r * Real.exp (-((1 / 2) / variance ^ 2) * r ^ (2 : ℝ)) by norm_num, this]
      rw [show (-(1 + 1) / 2 : ℝ) = -1 by norm_num, Real.rpow_neg_one, show ((1 + 1) / 2 : ℝ) = 1 by norm_num,
        Real.Gamma_one]
      field_simp
    rw [e, integral_const_mul, hi, unitBall_two, if_neg (by norm_num)]
    field_simp
    norm_num

/-- In two dimensions the mass of a normalised Gaussian kernel of infinite horizon depends on the variance. -/
theorem gaussian_fails : ∃ k γ, getIntegrableKernel 2 .gaussian none none 2 1 1 = some k ∧ kernelFun k = some γ ∧
    ∀ x, mass 2 γ x ≠ 1 / 2 := by
  obtain ⟨k, γ, h1, h2, h3⟩ := gaussian_mass_partial 2 (Or.inr rfl) 2 1 1 (by norm_num)
  refine ⟨k, γ, h1, h2, fun x => ?_⟩
  rw [h3]
  norm_num

/-- The characteristic function of the interval [-1, 1]. -/
noncomputable def ind (t : ℝ) : ℝ := if t ^ 2 ≤ 1 then 1 else 0

theorem integral_ind (n : Nat) : ∫ t, t ^ n * ind t = ∫ t in (-1 : ℝ)..1, t ^ n := by
  rw [intervalIntegral.integral_of_le (by norm_num), ← integral_Icc_eq_integral_Ioc, ← integral_indicator measurableSet_Icc]
  congr 1
  funext t
  have : t ^ 2 ≤ 1 ↔ t ∈ Icc (-1 : ℝ) 1 := by
    rw [sq_le_one_iff_abs_le_one, abs_le]
    rfl
  by_cases h : t ∈ Icc (-1 : ℝ) 1
  · rw [indicator_of_mem h, ind, if_pos (this.mpr h), mul_one]
  · rw [indicator_of_notMem h, ind, if_neg (fun c => h (this.mp c)), mul_zero]

/-- On the square (`ballInf`) the normalised indicator kernel has the second moment 1/2. -/
theorem square_fails : ∃ k γ, getIntegrableKernel 2 .indicator (some 1) (some .ballInf) 1 1 1 = some k ∧
    kernelFun k = some γ ∧ ∀ x, moment 2 γ x 0 0 = 1 / 2 := by
  have h1 : integrableScaling .indicator .ballInf 2 (some 1) 1 1 = some (3 / 4 / (1 : ℝ) ^ 4 / 2) := by
    simp [integrableScaling, finiteScaling]
  have h2 : getIntegrableKernel 2 .indicator (some 1) (some .ballInf) 1 1 1 =
      some { ballKernel 2 .indicator 1 (3 / 4 / (1 : ℝ) ^ 4 / 2) 0 with interaction := Kernels.ballInf 2 1 } := by
    rw [getIntegrableKernel]
    simp only [getDomain]
    rw [h1, Option.map_some]
    rfl
  refine ⟨_, within (Kernels.ballInf 2 1) fun _ => 3 / 4 / (1 : ℝ) ^ 4 / 2, h2, rfl, ?_⟩
  intro x
  unfold moment
  rw [← (PiLp.volume_preserving_toLp (Fin 2)).integral_comp (MeasurableEquiv.toLp 2 (Fin 2 → ℝ)).measurableEmbedding]
  have e : ∀ z : Fin 2 → ℝ, (WithLp.toLp 2 z : EuclideanSpace ℝ (Fin 2)) 0 * (WithLp.toLp 2 z : EuclideanSpace ℝ (Fin 2)) 0 *
      within (Kernels.ballInf 2 1) (fun _ => 3 / 4 / (1 : ℝ) ^ 4 / 2) x (shift x (WithLp.toLp 2 z)) =
      3 / 8 * ∏ i : Fin 2, (![fun t => t ^ 2 * ind t, fun t => t ^ 0 * ind t] : Fin 2 → ℝ → ℝ) i (z i) := by
    intro z
    have hd : distMax2 2 x (shift x (WithLp.toLp 2 z : EuclideanSpace ℝ (Fin 2))) = max (z 0 ^ 2) (z 1 ^ 2) := by
      simp [distMax2, shift, List.range_succ, sq_nonneg]
    simp only [within, Kernels.ballInf, hd, Fin.prod_univ_two, ind]
    by_cases h0 : z 0 ^ 2 ≤ 1 <;> by_cases h1 : z 1 ^ 2 ≤ 1 <;> simp [-sq_le_one_iff_abs_le_one, h0, h1] <;> ring
  simp only [e]
  rw [integral_const_mul, integral_fintype_prod_volume_eq_prod, Fin.prod_univ_two]
  simp only [Matrix.cons_val_zero, Matrix.cons_val_one]
  rw [integral_ind, integral_ind, integral_pow, integral_pow]
  norm_num

end PyNucleus.Props.C74
