import Mathlib.Analysis.Calculus.Deriv.Pow
import Mathlib.Analysis.Calculus.Deriv.Mul
import Mathlib.Analysis.Calculus.Deriv.Comp
import Mathlib.Analysis.SpecialFunctions.Trigonometric.Deriv
import Mathlib.Analysis.SpecialFunctions.Trigonometric.DerivHyp
import Mathlib.Analysis.SpecialFunctions.Pow.Deriv
import Mathlib.Analysis.Complex.RealDeriv
import Mathlib.Tactic.Ring
import Mathlib.Tactic.FieldSimp
import Mathlib.Tactic.Linarith
import Verif.Spec.Laplace

/-!
Rules for second derivatives along a coordinate.
-/

namespace PyNucleus.Spec

theorem hasSecond_of {u : (Nat → ℝ) → ℝ} {i : Nat} {x : Nat → ℝ} {v : ℝ} {f g : ℝ → ℝ}
    (h : ∀ t, u (Function.update x i t) = f t) (hf : ∀ᶠ t in nhds (x i), HasDerivAt f (g t) t) (hg : HasDerivAt g v (x i)) :
    HasSecond u i x v := by
  refine ⟨g, ?_, hg⟩
  simp only [h]
  exact hf

theorem hasDerivAt_linear (a t : ℝ) : HasDerivAt (fun t => a * t) a t := by
  simpa using (hasDerivAt_id t).const_mul a

/-- `c sin(a t)` along the coordinate. -/
theorem hasSecond_sin {u : (Nat → ℝ) → ℝ} {i : Nat} {x : Nat → ℝ} (a c : ℝ)
    (h : ∀ t, u (Function.update x i t) = c * Real.sin (a * t)) : HasSecond u i x (-a ^ 2 * (c * Real.sin (a * x i))) := by
  refine hasSecond_of (g := fun t => c * (Real.cos (a * t) * a)) h (.of_forall fun t => ?_) ?_
  · exact (hasDerivAt_linear a t).sin.const_mul c
  · exact (((hasDerivAt_linear a (x i)).cos.mul_const a).const_mul c).congr_deriv (by ring)

/-- `c cos(a t)` along the coordinate. -/
theorem hasSecond_cos {u : (Nat → ℝ) → ℝ} {i : Nat} {x : Nat → ℝ} (a c : ℝ)
    (h : ∀ t, u (Function.update x i t) = c * Real.cos (a * t)) : HasSecond u i x (-a ^ 2 * (c * Real.cos (a * x i))) := by
  refine hasSecond_of (g := fun t => c * (-Real.sin (a * t) * a)) h (.of_forall fun t => ?_) ?_
  · exact (hasDerivAt_linear a t).cos.const_mul c
  · exact (((hasDerivAt_linear a (x i)).sin.neg.mul_const a).const_mul c).congr_deriv (by ring)

theorem hasSecond_const {u : (Nat → ℝ) → ℝ} {i : Nat} {x : Nat → ℝ} (c : ℝ) (h : ∀ t, u (Function.update x i t) = c) :
    HasSecond u i x 0 :=
  hasSecond_of (f := fun _ => c) (g := fun _ => 0) h (.of_forall fun t => hasDerivAt_const t c) (hasDerivAt_const _ _)

/-- `tanh(c ((t - a)² + b)) - 1` along the coordinate. -/
theorem hasSecond_tanh {u : (Nat → ℝ) → ℝ} {i : Nat} {x : Nat → ℝ} (a b c : ℝ)
    (h : ∀ t, u (Function.update x i t) = Real.tanh (c * ((t - a) ^ 2 + b)) - 1) :
    HasSecond u i x (2 * c / Real.cosh (c * ((x i - a) ^ 2 + b)) ^ 2 -
      8 * c ^ 2 * (x i - a) ^ 2 * Real.sinh (c * ((x i - a) ^ 2 + b)) / Real.cosh (c * ((x i - a) ^ 2 + b)) ^ 3) := by
  have hin : ∀ t : ℝ, HasDerivAt (fun t => c * ((t - a) ^ 2 + b)) (c * (2 * (t - a))) t := fun t =>
    ((((hasDerivAt_id t).sub_const a).pow 2).add_const b |>.const_mul c).congr_deriv (by simp)
  have hne : ∀ t : ℝ, Real.cosh (c * ((t - a) ^ 2 + b)) ≠ 0 := fun t => (Real.cosh_pos _).ne'
  refine hasSecond_of (g := fun t => c * (2 * (t - a)) / Real.cosh (c * ((t - a) ^ 2 + b)) ^ 2) h (.of_forall fun t => ?_) ?_
  · have e : (fun t : ℝ => Real.tanh (c * ((t - a) ^ 2 + b)) - 1) =
        fun t => Real.sinh (c * ((t - a) ^ 2 + b)) / Real.cosh (c * ((t - a) ^ 2 + b)) - 1 := by
      funext t
      rw [Real.tanh_eq_sinh_div_cosh]
    rw [e]
    refine (((hin t).sinh.div (hin t).cosh (hne t)).sub_const 1).congr_deriv ?_
    have := Real.cosh_sq (c * ((t - a) ^ 2 + b))
    have hne := hne t
    congr 1
    linear_combination c * (2 * (t - a)) * this
  · have h1 : HasDerivAt (fun t => c * (2 * (t - a))) (c * (2 * 1)) (x i) :=
      (((hasDerivAt_id (x i)).sub_const a).const_mul 2).const_mul c
    refine (h1.div ((hin (x i)).cosh.pow 2) (pow_ne_zero 2 (hne (x i)))).congr_deriv ?_
    have hne := hne (x i)
    simp only [Nat.cast_ofNat, Nat.add_one_sub_one, pow_one, Pi.pow_apply]
    field_simp
    ring

/-- `((t - a)² + b)^p` along the coordinate. -/
theorem hasSecond_power {u : (Nat → ℝ) → ℝ} {i : Nat} {x : Nat → ℝ} (a b p : ℝ) (hb : 0 < (x i - a) ^ 2 + b)
    (h : ∀ t, u (Function.update x i t) = ((t - a) ^ 2 + b) ^ p) :
    HasSecond u i x (2 * p * ((x i - a) ^ 2 + b) ^ (p - 1) +
      4 * p * (p - 1) * (x i - a) ^ 2 * ((x i - a) ^ 2 + b) ^ (p - 1 - 1)) := by
  have hin : ∀ t : ℝ, HasDerivAt (fun t => (t - a) ^ 2 + b) (2 * (t - a)) t := fun t =>
    ((((hasDerivAt_id t).sub_const a).pow 2).add_const b).congr_deriv (by simp)
  have hev : ∀ᶠ t in nhds (x i), 0 < (t - a) ^ 2 + b :=
    (hin (x i)).continuousAt.eventually (lt_mem_nhds hb)
  refine hasSecond_of (g := fun t => 2 * (t - a) * p * ((t - a) ^ 2 + b) ^ (p - 1)) h ?_ ?_
  · filter_upwards [hev] with t ht
    exact (hin t).rpow_const (Or.inl ht.ne')
  · have h1 : HasDerivAt (fun t => 2 * (t - a) * p) (2 * 1 * p) (x i) :=
      (((hasDerivAt_id (x i)).sub_const a).const_mul 2).mul_const p
    refine (h1.mul ((hin (x i)).rpow_const (p := p - 1) (Or.inl hb.ne'))).congr_deriv ?_
    ring

/-- `t^p` along the coordinate. -/
theorem hasSecond_rpow {u : (Nat → ℝ) → ℝ} {i : Nat} {x : Nat → ℝ} (p : ℝ) (hx : 0 < x i)
    (h : ∀ t, u (Function.update x i t) = t ^ p) : HasSecond u i x (p * (p - 1) * x i ^ (p - 2)) := by
  refine hasSecond_of (g := fun t => p * t ^ (p - 1)) h ?_ ?_
  · filter_upwards [lt_mem_nhds hx] with t ht
    exact Real.hasDerivAt_rpow_const (Or.inl ht.ne')
  · refine ((Real.hasDerivAt_rpow_const (p := p - 1) (Or.inl hx.ne')).const_mul p).congr_deriv ?_
    rw [show p - 1 - 1 = p - 2 by ring]
    ring

/-- Imaginary parts of holomorphic functions along a line with the direction `d`. -/
theorem hasSecond_im {u : (Nat → ℝ) → ℝ} {i : Nat} {x : Nat → ℝ} (F G H : ℂ → ℂ) (d : ℂ) (z : ℝ → ℂ)
    (hz : ∀ t, HasDerivAt z d t) (U : Set ℂ) (hU : IsOpen U) (hzU : z (x i) ∈ U) (hF : ∀ w ∈ U, HasDerivAt F (G w) w)
    (hG : ∀ w ∈ U, HasDerivAt G (H w) w) (h : ∀ᶠ t in nhds (x i), u (Function.update x i t) = (F (z t)).im) :
    HasSecond u i x (H (z (x i)) * d * d).im := by
  have hev : ∀ᶠ t in nhds (x i), z t ∈ U := (hz (x i)).continuousAt.eventually (hU.mem_nhds hzU)
  refine ⟨fun t => (G (z t) * d).im, ?_, ?_⟩
  · filter_upwards [hev, h.eventually_nhds] with t ht ht'
    have h1 := (hF (z t) ht).comp t (hz t)
    have h2 : HasDerivAt (fun t => ((F ∘ z) t).im) (G (z t) * d).im t :=
      Complex.imCLM.hasFDerivAt.comp_hasDerivAt t h1
    exact h2.congr_of_eventuallyEq ht'
  · have h1 := ((hG (z (x i)) hzU).comp (x i) (hz (x i))).mul_const d
    exact Complex.imCLM.hasFDerivAt.comp_hasDerivAt (x i) h1

end PyNucleus.Spec
