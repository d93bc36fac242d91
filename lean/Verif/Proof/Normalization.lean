import Mathlib.Analysis.SpecialFunctions.Integrals.Basic
import Mathlib.Analysis.SpecialFunctions.Gaussian.GaussianIntegral
import Mathlib.MeasureTheory.Integral.IntegralEqImproper
import Mathlib.MeasureTheory.Measure.Lebesgue.Integral
import Verif.Model.Normalization
import Verif.Proof.Moments

/-!
Second moments of kernels on balls, and the one dimensional integrals they need.
-/

namespace PyNucleus.Normalization

open MeasureTheory Set Kernels Moments

theorem dist2_shift (d : Nat) (x : Point) (z : EuclideanSpace ℝ (Fin d)) : dist2 d x (shift x z) = ‖z‖ ^ 2 := by
  have key : ∀ n (a : ℝ), (List.range n).foldl (fun d2 i => d2 + (x i - shift x z i) ^ 2) a =
      a + ∑ i ∈ Finset.range n, (x i - shift x z i) ^ 2 := by
    intro n
    induction n with
    | zero => intro a; simp
    | succ n ih =>
      intro a
      rw [List.range_succ, List.foldl_append, ih, Finset.sum_range_succ]
      simp [add_assoc]
  rw [dist2, key, zero_add, norm_sq, Finset.sum_range]
  refine Finset.sum_congr rfl fun i _ => ?_
  simp only [shift, i.isLt, dite_true, Fin.eta]
  ring

open Classical in
theorem within_shift (d : Nat) (h : ℝ) (φ : ℝ → ℝ) (x : Point) (z : EuclideanSpace ℝ (Fin d)) :
    within (ball2 d h) φ x (shift x z) = (fun r : ℝ => if r ^ 2 ≤ h * h then φ (r ^ 2) else 0) ‖z‖ := by
  simp only [within, ball2, dist2_shift]
  split <;> split <;> simp_all

theorem ball_indicator {h : ℝ} (hh : 0 < h) (g φ : ℝ → ℝ) (r : ℝ) (hr : r ∈ Ioi (0 : ℝ)) :
    g r * (if r ^ 2 ≤ h * h then φ (r ^ 2) else 0) = (Iic h).indicator (fun r => g r * φ (r ^ 2)) r := by
  have hr : 0 < r := hr
  have : r ^ 2 ≤ h * h ↔ r ≤ h := by
    rw [← sq]
    exact pow_le_pow_iff_left₀ hr.le hh.le (by norm_num)
  by_cases hc : r ≤ h
  · rw [if_pos (this.mpr hc), indicator_of_mem (show r ∈ Iic h from hc)]
  · rw [if_neg (fun h' => hc (this.mp h')), indicator_of_notMem (show r ∉ Iic h from hc), mul_zero]

/-- Second moments of a radial kernel on a ball. -/
theorem moment_ball {d : Nat} (hd : 0 < d) {h : ℝ} (hh : 0 < h) (φ : ℝ → ℝ)
    (hI : IntervalIntegrable (fun r => r ^ (d + 1) * φ (r ^ 2)) volume 0 h) (x : Point) (i j : Fin d) :
    moment d (within (ball2 d h) φ) x i j =
      if i = j then unitBall d * ∫ r in (0 : ℝ)..h, r ^ (d + 1) * φ (r ^ 2) else 0 := by
  unfold moment
  have e : ∀ z : EuclideanSpace ℝ (Fin d), z i * z j * within (ball2 d h) φ x (shift x z) =
      z i * z j * (fun r : ℝ => if r ^ 2 ≤ h * h then φ (r ^ 2) else 0) ‖z‖ := by
    intro z
    rw [within_shift]
  simp only [e]
  have hset : Ioi (0 : ℝ) ∩ Iic h = Ioc 0 h := rfl
  have hint : IntegrableOn (fun r => r ^ (d + 1) * (fun r : ℝ => if r ^ 2 ≤ h * h then φ (r ^ 2) else 0) r) (Ioi 0) := by
    rw [integrableOn_congr_fun (g := (Iic h).indicator fun r => r ^ (d + 1) * φ (r ^ 2))
      (fun r hr => ball_indicator hh (fun r => r ^ (d + 1)) φ r hr) measurableSet_Ioi]
    rw [IntegrableOn, integrable_indicator_iff measurableSet_Iic, IntegrableOn, Measure.restrict_restrict measurableSet_Iic,
      inter_comm, hset]
    exact (intervalIntegrable_iff_integrableOn_Ioc_of_le hh.le).mp hI
  rw [moment_radial hd _ hint i j]
  congr 2
  rw [setIntegral_congr_fun measurableSet_Ioi (g := (Iic h).indicator fun r => r ^ (d + 1) * φ (r ^ 2))
    (fun r hr => ball_indicator hh (fun r => r ^ (d + 1)) φ r hr), setIntegral_indicator measurableSet_Iic, hset,
    intervalIntegral.integral_of_le hh.le]

/-! ### Integrals -/

theorem integral_gauss_two {h c : ℝ} (hc : c ≠ 0) :
    ∫ r in (0 : ℝ)..h, r ^ 3 * Real.exp (-r ^ 2 * c) =
      1 / (2 * c ^ 2) - Real.exp (-h ^ 2 * c) * (h ^ 2 / (2 * c) + 1 / (2 * c ^ 2)) := by
  have hderiv : ∀ r : ℝ, HasDerivAt (fun r : ℝ => -(Real.exp (-r ^ 2 * c) * (r ^ 2 / (2 * c) + 1 / (2 * c ^ 2))))
      (r ^ 3 * Real.exp (-r ^ 2 * c)) r := by
    intro r
    have h1 : HasDerivAt (fun r : ℝ => -r ^ 2 * c) (-(2 * r) * c) r := by
      have := ((hasDerivAt_pow 2 r).neg).mul_const c
      refine this.congr_deriv ?_
      norm_num
    have h2 : HasDerivAt (fun r : ℝ => r ^ 2 / (2 * c) + 1 / (2 * c ^ 2)) (2 * r / (2 * c)) r := by
      have := ((hasDerivAt_pow 2 r).div_const (2 * c)).add_const (1 / (2 * c ^ 2))
      refine this.congr_deriv ?_
      norm_num
    refine (h1.exp.mul h2).neg.congr_deriv ?_
    field_simp
    ring
  rw [intervalIntegral.integral_eq_sub_of_hasDerivAt (fun r _ => hderiv r) (Continuous.intervalIntegrable (by fun_prop) _ _)]
  simp
  ring

theorem integral_gauss_one {h c : ℝ} (hc : c ≠ 0) :
    ∫ r in (0 : ℝ)..h, r ^ 2 * Real.exp (-r ^ 2 * c) =
      1 / (2 * c) * (∫ r in (0 : ℝ)..h, Real.exp (-r ^ 2 * c)) - h / (2 * c) * Real.exp (-h ^ 2 * c) := by
  have hderiv : ∀ r : ℝ, HasDerivAt (fun r : ℝ => -(r / (2 * c) * Real.exp (-r ^ 2 * c)))
      (r ^ 2 * Real.exp (-r ^ 2 * c) - 1 / (2 * c) * Real.exp (-r ^ 2 * c)) r := by
    intro r
    have h1 : HasDerivAt (fun r : ℝ => -r ^ 2 * c) (-(2 * r) * c) r := by
      have := ((hasDerivAt_pow 2 r).neg).mul_const c
      refine this.congr_deriv ?_
      norm_num
    refine (((hasDerivAt_id r).div_const (2 * c)).mul h1.exp).neg.congr_deriv ?_
    simp only [id]
    field_simp
    ring
  have hcont : Continuous fun r : ℝ => r ^ 2 * Real.exp (-r ^ 2 * c) := by fun_prop
  have hcont' : Continuous fun r : ℝ => 1 / (2 * c) * Real.exp (-r ^ 2 * c) := by fun_prop
  have := intervalIntegral.integral_eq_sub_of_hasDerivAt (a := 0) (b := h) (fun r _ => hderiv r)
    ((hcont.sub hcont').intervalIntegrable _ _)
  rw [intervalIntegral.integral_sub (hcont.intervalIntegrable _ _) (hcont'.intervalIntegrable _ _),
    intervalIntegral.integral_const_mul] at this
  simp at this
  simp
  linarith

theorem integral_exponential {h a : ℝ} (ha : a ≠ 0) :
    ∫ r in (0 : ℝ)..h, r ^ 2 * Real.exp (-a * r) =
      (2 - Real.exp (-a * h) * (2 + 2 * a * h + (a * h) ^ 2)) / a ^ 3 := by
  have hderiv : ∀ r : ℝ, HasDerivAt (fun r : ℝ => -(Real.exp (-a * r) * (2 + 2 * a * r + (a * r) ^ 2)) / a ^ 3)
      (r ^ 2 * Real.exp (-a * r)) r := by
    intro r
    have h1 : HasDerivAt (fun r : ℝ => -a * r) (-a) r := by
      simpa using (hasDerivAt_id r).const_mul (-a)
    have h2 : HasDerivAt (fun r : ℝ => 2 + 2 * a * r + (a * r) ^ 2) (2 * a + 2 * (a * r) * a) r := by
      have e1 : HasDerivAt (fun r : ℝ => a * r) a r := by simpa using (hasDerivAt_id r).const_mul a
      have e2 : HasDerivAt (fun r : ℝ => 2 + 2 * a * r) (2 * a) r := by
        simpa using ((hasDerivAt_id r).const_mul (2 * a)).const_add 2
      refine (e2.add (e1.pow 2)).congr_deriv ?_
      simp
    refine ((h1.exp.mul h2).neg.div_const (a ^ 3)).congr_deriv ?_
    field_simp
    ring
  rw [intervalIntegral.integral_eq_sub_of_hasDerivAt (fun r _ => hderiv r) (Continuous.intervalIntegrable (by fun_prop) _ _)]
  simp
  ring

theorem erf_scale {σ : ℝ} (hσ : 0 < σ) (a : ℝ) :
    ∫ r in (0 : ℝ)..a * σ, Real.exp (-r ^ 2 * (1 / σ ^ 2)) = σ * (√Real.pi / 2 * erf a) := by
  have h1 := intervalIntegral.integral_comp_div (a := 0) (b := a * σ) (fun t => Real.exp (-t ^ 2)) hσ.ne'
  have h2 : (fun r : ℝ => Real.exp (-r ^ 2 * (1 / σ ^ 2))) = fun r => Real.exp (-(r / σ) ^ 2) := by
    funext r
    congr 1
    rw [div_pow]
    ring
  rw [h2, h1, zero_div, mul_div_cancel_right₀ _ hσ.ne', smul_eq_mul, erf]
  have : √Real.pi ≠ 0 := (Real.sqrt_pos.mpr Real.pi_pos).ne'
  field_simp

theorem integral_pos_of_sq {h : ℝ} (hh : 0 < h) (f : ℝ → ℝ) (hf : Continuous f) (hpos : ∀ r, 0 < f r) :
    0 < ∫ r in (0 : ℝ)..h, r ^ 2 * f r := by
  refine intervalIntegral.intervalIntegral_pos_of_pos_on (Continuous.intervalIntegrable (by fun_prop) _ _) ?_ hh
  intro r hr
  have := hpos r
  have h0 := hr.1
  positivity

end PyNucleus.Normalization
