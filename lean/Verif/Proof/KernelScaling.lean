import Mathlib.Analysis.SpecialFunctions.Complex.Analytic
import Mathlib.Analysis.SpecialFunctions.Gamma.Deriv
import Mathlib.Analysis.SpecialFunctions.Gamma.Beta
import Mathlib.Analysis.SpecialFunctions.Pow.Deriv
import Mathlib.Analysis.Complex.CauchyIntegral
import Verif.Model.KernelScaling

/-!
Derivatives of the scalings of fractional kernels with respect to the fractional order.
-/

namespace PyNucleus.KernelScaling

open Kernels

theorem analyticAt_Gamma {x : ℝ} (hx : ∀ m : ℕ, x ≠ -m) : AnalyticAt ℝ Real.Gamma x := by
  have hx' : ∀ m : ℕ, (x : ℂ) ≠ -m := by
    intro m h
    apply hx m
    exact_mod_cast h
  have h1 : AnalyticAt ℂ (fun z => (Complex.Gamma z)⁻¹) (x : ℂ) := Complex.differentiable_one_div_Gamma.analyticAt _
  have h2 : AnalyticAt ℂ (fun z => ((Complex.Gamma z)⁻¹)⁻¹) (x : ℂ) := h1.inv (inv_ne_zero (Complex.Gamma_ne_zero hx'))
  simp only [inv_inv] at h2
  exact h2.re_ofReal

theorem hasDerivAt_Gamma {x : ℝ} (hx : ∀ m : ℕ, x ≠ -m) :
    HasDerivAt Real.Gamma (Real.Gamma x * digamma x) x := by
  have h := (analyticAt_Gamma hx).differentiableAt.hasDerivAt
  have hne := Real.Gamma_ne_zero hx
  rw [digamma, mul_div_cancel₀ _ hne]
  exact h

theorem hasDerivAt_digamma {x : ℝ} (hx : ∀ m : ℕ, x ≠ -m) : HasDerivAt digamma (polygamma1 x) x := by
  have h := ((analyticAt_Gamma hx).deriv.div (analyticAt_Gamma hx) (Real.Gamma_ne_zero hx)).differentiableAt
  exact DifferentiableAt.hasDerivAt h

theorem digamma_add_one {x : ℝ} (hx : ∀ m : ℕ, x ≠ -m) : digamma (x + 1) = digamma x + 1 / x := by
  have hx0 : x ≠ 0 := by simpa using hx 0
  have hne := Real.Gamma_ne_zero hx
  have hx1 : ∀ m : ℕ, x + 1 ≠ -m := by
    intro m h
    apply hx (m + 1)
    push_cast
    linarith
  have hne1 := Real.Gamma_ne_zero hx1
  have h1 : HasDerivAt (fun t => Real.Gamma (t + 1)) (Real.Gamma (x + 1) * digamma (x + 1)) x := by
    have := (hasDerivAt_Gamma hx1).comp x ((hasDerivAt_id x).add_const 1)
    simpa [Function.comp_def] using this
  have h2 : HasDerivAt (fun t => t * Real.Gamma t) (1 * Real.Gamma x + x * (Real.Gamma x * digamma x)) x :=
    (hasDerivAt_id x).mul (hasDerivAt_Gamma hx)
  have hev : (fun t => Real.Gamma (t + 1)) =ᶠ[nhds x] fun t => t * Real.Gamma t := by
    filter_upwards [isOpen_ne.mem_nhds hx0] with t ht using Real.Gamma_add_one ht
  have h3 := h1.unique (h2.congr_of_eventuallyEq hev)
  rw [Real.Gamma_add_one hx0] at h3
  field_simp at h3 ⊢
  linarith

theorem pos_ne_neg {x : ℝ} (hx : 0 < x) (m : ℕ) : x ≠ -m := by
  have : (0 : ℝ) ≤ m := Nat.cast_nonneg m
  intro h
  linarith

theorem neg_ne_neg {s : ℝ} (h0 : 0 < s) (h1 : s < 1) (m : ℕ) : -s ≠ -m := by
  intro h
  have h : s = m := by linarith
  have hm : (m : ℝ) < 1 := by linarith
  have hm' : m < 1 := by exact_mod_cast hm
  have : m = 0 := by omega
  subst this
  simp at h
  linarith

/-- The factor `1/s` of boundary kernels. -/
noncomputable def bfac (boundary : Bool) (s : ℝ) : ℝ := if boundary then 1 / s else 1

theorem hasDerivAt_digamma_shift (d : Nat) {s : ℝ} (h0 : 0 < s) :
    HasDerivAt (fun t => digamma (t + (1 / 2) * d)) (polygamma1 (s + (1 / 2) * d)) s := by
  have hd : (0 : ℝ) ≤ (1 / 2) * d := by positivity
  have := (hasDerivAt_digamma (pos_ne_neg (by linarith : 0 < s + (1 / 2) * (d : ℝ)))).comp s
    ((hasDerivAt_id s).add_const ((1 / 2) * (d : ℝ)))
  simpa [Function.comp_def] using this

theorem hasDerivAt_digamma_neg {s : ℝ} (h0 : 0 < s) (h1 : s < 1) :
    HasDerivAt (fun t => digamma (-t)) (-polygamma1 (-s)) s := by
  have := (hasDerivAt_digamma (neg_ne_neg h0 h1)).comp s (hasDerivAt_neg s)
  simpa [Function.comp_def] using this

theorem hasDerivAt_digamma_one_sub {s : ℝ} (h1 : s < 1) :
    HasDerivAt (fun t => digamma (1 - t)) (-polygamma1 (1 - s)) s := by
  have := (hasDerivAt_digamma (pos_ne_neg (by linarith : 0 < 1 - s))).comp s ((hasDerivAt_id s).const_sub 1)
  simpa [Function.comp_def] using this

theorem hasDerivAt_finite (H K : ℝ) (hH : 0 < H) (s : ℝ) (hs : s < 1) :
    HasDerivAt (fun t => (2 - 2 * t) * H ^ (t - 1) * K)
      ((2 - 2 * s) * H ^ (s - 1) * K * (-1 / (1 - s) + Real.log H)) s := by
  have h1 : HasDerivAt (fun t : ℝ => 2 - 2 * t) (-2) s := by
    have := ((hasDerivAt_id s).const_mul 2).const_sub 2
    simpa using this
  have h2 : HasDerivAt (fun t : ℝ => H ^ (t - 1)) (H ^ (s - 1) * Real.log H) s := by
    have := ((hasDerivAt_id s).sub_const 1).const_rpow hH
    simp only [id] at this
    refine this.congr_deriv ?_
    ring
  have h := (h1.mul h2).mul_const K
  refine h.congr_deriv ?_
  have : (1 - s) ≠ 0 := by linarith
  field_simp

theorem hasDerivAt_infinite (d : Nat) (K s : ℝ) (h0 : 0 < s) (h1 : s < 1) :
    HasDerivAt (fun t => (2 : ℝ) ^ (2 * t) * Real.Gamma (t + (1 / 2) * d) * K / Real.Gamma (1 - t))
      ((2 : ℝ) ^ (2 * s) * Real.Gamma (s + (1 / 2) * d) * K / Real.Gamma (1 - s) *
        (Real.log 4 + digamma (s + (1 / 2) * d) + digamma (1 - s))) s := by
  have hd : (0 : ℝ) ≤ (1 / 2) * d := by positivity
  have e1 : HasDerivAt (fun t : ℝ => (2 : ℝ) ^ (2 * t)) ((2 : ℝ) ^ (2 * s) * Real.log 4) s := by
    have := ((hasDerivAt_id s).const_mul 2).const_rpow (by norm_num : (0 : ℝ) < 2)
    simp only [id] at this
    refine this.congr_deriv ?_
    have : Real.log 4 = 2 * Real.log 2 := by
      rw [show (4 : ℝ) = 2 ^ 2 by norm_num, Real.log_pow]
      norm_num
    rw [this]
    ring
  have e2 : HasDerivAt (fun t => Real.Gamma (t + (1 / 2) * d))
      (Real.Gamma (s + (1 / 2) * d) * digamma (s + (1 / 2) * d)) s := by
    have := (hasDerivAt_Gamma (pos_ne_neg (by linarith : 0 < s + (1 / 2) * (d : ℝ)))).comp s
      ((hasDerivAt_id s).add_const ((1 / 2) * (d : ℝ)))
    simpa [Function.comp_def] using this
  have e3 : HasDerivAt (fun t => Real.Gamma (1 - t)) (-(Real.Gamma (1 - s) * digamma (1 - s))) s := by
    have := (hasDerivAt_Gamma (pos_ne_neg (by linarith : 0 < 1 - s))).comp s ((hasDerivAt_id s).const_sub 1)
    simpa [Function.comp_def] using this
  have hne : Real.Gamma (1 - s) ≠ 0 := (Real.Gamma_pos_of_pos (by linarith)).ne'
  refine (((e1.mul e2).mul_const K).div e3 hne).congr_deriv ?_
  simp only [Pi.mul_apply]
  field_simp
  ring

theorem digamma_one_sub {s : ℝ} (h0 : 0 < s) (h1 : s < 1) : digamma (1 - s) = digamma (-s) - 1 / s := by
  have := digamma_add_one (neg_ne_neg h0 h1)
  rw [show -s + 1 = 1 - s by ring] at this
  rw [this]
  field_simp
  ring

/-- Logarithmic derivative of the scaling of a kernel or of its boundary kernel. -/
theorem hasDerivAt_C (d : Nat) (horizon : Option ℝ) (normalized boundary : Bool) (hh : ∀ h, horizon = some h → 0 < h)
    {s : ℝ} (h0 : 0 < s) (h1 : s < 1) :
    HasDerivAt (fun t => bfac boundary t * derivativeC d t horizon normalized 0)
      (bfac boundary s * derivativeC d s horizon normalized 0 * derivativeFac d s horizon normalized boundary) s := by
  have hs : s ≠ 0 := h0.ne'
  have hs1 : 1 - s ≠ 0 := by linarith
  have hinv : HasDerivAt (fun t : ℝ => 1 / t) (-1 / s ^ 2) s := by
    have := hasDerivAt_inv hs
    simp only [one_div]
    refine this.congr_deriv ?_
    field_simp
  cases normalized with
  | false =>
    cases boundary with
    | false =>
      simp only [bfac, derivativeC, derivativeFac, Bool.false_eq_true, if_false, Bool.not_false, if_true, mul_zero]
      exact hasDerivAt_const _ _
    | true =>
      simp only [bfac, derivativeC, derivativeFac, Bool.false_eq_true, if_false, Bool.not_true, if_true]
      refine (hinv.mul_const (1 / 2)).congr_deriv ?_
      field_simp
  | true =>
    cases horizon with
    | some h =>
      have hpos := hh h rfl
      have hH : 0 < h ^ 2 := by positivity
      have key := hasDerivAt_finite (h ^ 2)
        (d * Real.Gamma ((1 / 2) * d) / Real.pi ^ ((1 / 2) * (d : ℝ)) * (1 / 2)) hH s h1
      cases boundary with
      | false =>
        simp only [bfac, derivativeC, derivativeFac, Bool.false_eq_true, if_false, Bool.not_false, if_true, one_mul]
        refine (key.congr_of_eventuallyEq ?_).congr_deriv ?_
        · filter_upwards with t
          ring
        · ring
      | true =>
        simp only [bfac, derivativeC, derivativeFac, Bool.false_eq_true, if_false, Bool.not_true, if_true]
        refine ((hinv.mul key).congr_of_eventuallyEq ?_).congr_deriv ?_
        · filter_upwards with t
          simp only [Pi.mul_apply]
          ring
        · field_simp
          ring
    | none =>
      have key := hasDerivAt_infinite d (Real.pi ^ (-(1 / 2) * (d : ℝ)) * (1 / 2)) s h0 h1
      cases boundary with
      | false =>
        simp only [bfac, derivativeC, derivativeFac, Bool.false_eq_true, if_false, Bool.not_false, if_true, one_mul,
          true_or]
        refine (((hasDerivAt_id s).mul key).congr_of_eventuallyEq ?_).congr_deriv ?_
        · filter_upwards with t
          simp only [Pi.mul_apply, id]
          ring
        · rw [digamma_one_sub h0 h1]
          simp only [id]
          field_simp
          ring
      | true =>
        simp only [bfac, derivativeC, derivativeFac, Bool.false_eq_true, if_false, Bool.not_true, if_true, true_or]
        refine (key.congr_of_eventuallyEq ?_).congr_deriv ?_
        · filter_upwards [isOpen_ne.mem_nhds hs] with t ht
          have ht' : t ≠ 0 := ht
          field_simp
        · field_simp

theorem hasDerivAt_fac (d : Nat) (horizon : Option ℝ) (normalized boundary : Bool)
    {s : ℝ} (h0 : 0 < s) (h1 : s < 1) :
    HasDerivAt (fun t => derivativeFac d t horizon normalized boundary)
      ((hessianFac d s horizon normalized boundary).1 - derivativeFac d s horizon normalized boundary ^ 2) s := by
  have hs : s ≠ 0 := h0.ne'
  have hs1 : 1 - s ≠ 0 := by linarith
  have hinv : HasDerivAt (fun t : ℝ => -1 / t) (1 / s ^ 2) s := by
    have := (hasDerivAt_inv hs).const_mul (-1)
    simp only [div_eq_mul_inv]
    refine this.congr_deriv ?_
    field_simp
  have hinv1 : HasDerivAt (fun t : ℝ => -1 / (1 - t)) (-1 / (1 - s) ^ 2) s := by
    have h2 : HasDerivAt (fun t : ℝ => 1 - t) (-1) s := (hasDerivAt_id s).const_sub 1
    have := (h2.inv hs1).const_mul (-1)
    simp only [div_eq_mul_inv]
    refine this.congr_deriv ?_
    field_simp
  cases normalized with
  | false =>
    cases boundary with
    | false =>
      simp only [hessianFac, derivativeFac, Bool.false_eq_true, if_false, Bool.not_false, if_true]
      refine (hasDerivAt_const _ _).congr_deriv ?_
      norm_num
    | true =>
      simp only [hessianFac, derivativeFac, Bool.false_eq_true, if_false, Bool.not_true]
      refine hinv.congr_deriv ?_
      field_simp
      norm_num
  | true =>
    cases horizon with
    | some h =>
      cases boundary with
      | false =>
        simp only [hessianFac, derivativeFac, Bool.not_false, if_true]
        refine (hinv1.add_const _).congr_deriv ?_
        field_simp
        ring
      | true =>
        simp only [hessianFac, derivativeFac, Bool.false_eq_true, if_false, Bool.not_true, if_true]
        refine (((hinv1.add hinv).add_const (Real.log (h ^ 2))).congr_of_eventuallyEq ?_).congr_deriv ?_
        · filter_upwards with t
          simp only [Pi.add_apply]
          ring
        · field_simp
          ring
    | none =>
      cases boundary with
      | false =>
        simp only [hessianFac, derivativeFac, Bool.not_false, if_true]
        refine (((hasDerivAt_digamma_shift d h0).const_add (Real.log 4)).add (hasDerivAt_digamma_neg h0 h1)).congr_deriv ?_
        ring
      | true =>
        simp only [hessianFac, derivativeFac, Bool.false_eq_true, if_false, Bool.not_true, if_true]
        refine (((hasDerivAt_digamma_shift d h0).const_add (Real.log 4)).add (hasDerivAt_digamma_one_sub h1)).congr_deriv ?_
        ring

theorem hessianFac_snd (d : Nat) (s : ℝ) (horizon : Option ℝ) (normalized boundary : Bool) :
    (hessianFac d s horizon normalized boundary).2 = -2 * derivativeFac d s horizon normalized boundary := by
  cases normalized <;> cases boundary <;> cases horizon <;> simp [hessianFac, derivativeFac] <;> ring

/-- Differentiation of `c(s) u^(e-s)` when `a` is the logarithmic derivative of `c`. -/
theorem hasDerivAt_first {c a : ℝ → ℝ} {s u e w : ℝ} (hu : 0 < u) (hc : HasDerivAt c (c s * a s) s) :
    HasDerivAt (fun t => w * (c t * u ^ (e - t))) (w * (c s * (-Real.log u + a s) * u ^ (e - s))) s := by
  have h2 : HasDerivAt (fun t : ℝ => u ^ (e - t)) (-(u ^ (e - s) * Real.log u)) s := by
    have := ((hasDerivAt_id s).const_sub e).const_rpow hu
    simp only [id] at this
    refine this.congr_deriv ?_
    ring
  refine ((hc.mul h2).const_mul w).congr_deriv ?_
  ring

theorem hasDerivAt_second {c a : ℝ → ℝ} {s u e w a' : ℝ} (hu : 0 < u) (hc : HasDerivAt c (c s * a s) s)
    (ha : HasDerivAt a (a' - a s ^ 2) s) :
    HasDerivAt (fun t => w * (c t * (-Real.log u + a t) * u ^ (e - t)))
      (w * (c s * (Real.log u ^ 2 + a' + -2 * a s * Real.log u) * u ^ (e - s))) s := by
  have h2 : HasDerivAt (fun t : ℝ => u ^ (e - t)) (-(u ^ (e - s) * Real.log u)) s := by
    have := ((hasDerivAt_id s).const_sub e).const_rpow hu
    simp only [id] at this
    refine this.congr_deriv ?_
    ring
  refine (((hc.mul (ha.const_add (-Real.log u))).mul h2).const_mul w).congr_deriv ?_
  simp only [Pi.mul_apply]
  ring

/-- The exponent of a kernel and of a boundary kernel. -/
noncomputable def expo (d : Nat) (boundary : Bool) : ℝ := if boundary then (1 - (d : ℝ)) / 2 else -(d : ℝ) / 2

open Classical in
/-- Whether the points interact. -/
noncomputable def inside (d : Nat) (horizon : Option ℝ) (x y : Point) : ℝ :=
  match horizon with
  | none => 1
  | some h => if dist2 d x y ≤ h * h then 1 else 0

/-- Value of an untempered kernel. -/
theorem fac_eq (k : FractionalKernel) (hd : k.dim = 1 ∨ k.dim = 2 ∨ k.dim = 3) (ht : k.tempered = 0)
    (hphi : k.phi = if k.boundary then some (1 / k.s) else none) (x y : Point) {v : ℝ}
    (hv : k.scalingPrePhi.eval k.dim k.s k.horizon (dist2 k.dim x y) = some v) :
    k.fac x y = some (inside k.dim k.horizon x y *
      (bfac k.boundary k.s * v * dist2 k.dim x y ^ (expo k.dim k.boundary - k.s))) := by
  unfold FractionalKernel.fac
  rw [hv, Option.bind_some]
  cases hb : k.boundary with
  | false =>
    rw [hb] at hphi
    simp only [Bool.false_eq_true, if_false] at hphi
    cases hh : k.horizon with
    | none => simp [kernelFun, fractionalFun, hd, ht, hphi, Kernel.scaling, inside, bfac, expo]
    | some h =>
      simp only [kernelFun, fractionalFun, hd, ht, hphi, Kernel.scaling, inside, bfac, expo, within, defaultInteraction,
        ball2, if_true, Bool.false_eq_true, if_false, Option.map_some, one_mul]
      split <;> simp_all
  | true =>
    rw [hb] at hphi
    simp only [if_true] at hphi
    cases hh : k.horizon with
    | none => simp [kernelFun, fractionalBoundaryFun, hd, ht, hphi, Kernel.scaling, inside, bfac, expo]
    | some h =>
      simp only [kernelFun, fractionalBoundaryFun, hd, ht, hphi, Kernel.scaling, inside, bfac, expo, within,
        defaultInteraction, ball2, if_true, Option.map_some]
      split <;> simp_all

theorem pi_inv (d : Nat) : Real.pi ^ (-(1 / 2) * (d : ℝ)) = (Real.pi ^ ((1 / 2) * (d : ℝ)))⁻¹ := by
  rw [neg_mul, Real.rpow_neg Real.pi_pos.le]

theorem laplacian_eq (d : Nat) (horizon : Option ℝ) (hh : ∀ h, horizon = some h → 0 < h) {s : ℝ} (h0 : 0 < s)
    (h1 : s < 1) : laplacianValue d s horizon 0 = some (derivativeC d s horizon true 0) := by
  have hs : ¬(1 < s ∧ s < 2) := by rintro ⟨h, -⟩; linarith
  have hc : ¬((∃ h, horizon = some h ∧ h ≤ 0) ∨ s ≤ 0 ∨ 1 ≤ s) := by
    rintro (⟨h, hh', h2⟩ | h | h)
    · exact absurd (hh h hh') (not_lt.mpr h2)
    · linarith
    · linarith
  unfold laplacianValue
  simp only [hs, if_false, hc]
  cases horizon with
  | none =>
    simp only [derivativeC, if_true, true_or, pi_inv]
    rw [Option.some.injEq]
    ring
  | some h =>
    simp only [derivativeC, if_true]
    have hp := hh h rfl
    rw [← Real.rpow_natCast h 2, ← Real.rpow_mul hp.le, show ((2 : ℕ) : ℝ) * (s - 1) = 2 * s - 2 by push_cast; ring]

/-- The value of the scaling of the kernel that `getFractionalKernel` returns. -/
noncomputable def scalingOf (d : Nat) (horizon : Option ℝ) (normalized boundary : Bool) (u : ℝ) (order : Nat) (s : ℝ) : ℝ :=
  match order with
  | 0 => derivativeC d s horizon normalized 0
  | 1 => derivativeC d s horizon normalized 0 * (-Real.log u + derivativeFac d s horizon normalized boundary)
  | _ => derivativeC d s horizon normalized 0 *
      (Real.log u ^ 2 + (hessianFac d s horizon normalized boundary).1 +
        -2 * derivativeFac d s horizon normalized boundary * Real.log u)

theorem scaling_eval (d : Nat) (horizon : Option ℝ) (normalized boundary : Bool) (hh : ∀ h, horizon = some h → 0 < h)
    {s : ℝ} (h0 : 0 < s) (h1 : s < 1) (u : ℝ) {order : Nat} (ho : order ≤ 2) :
    (getFractionalKernel d s horizon normalized boundary order 0).scalingPrePhi.eval d s horizon u =
      some (scalingOf d horizon normalized boundary u order s) := by
  rcases order with _ | _ | _ | order
  · cases normalized with
    | false => simp [getFractionalKernel, Scaling.eval, scalingOf, derivativeC]
    | true => simp [getFractionalKernel, Scaling.eval, scalingOf, laplacian_eq d horizon hh h0 h1]
  · simp [getFractionalKernel, Scaling.eval, scalingOf, derivativeValue]
  · simp [getFractionalKernel, Scaling.eval, scalingOf, derivativeValue, hessianFac_snd]
  · omega

/-- The value of the kernel that `getFractionalKernel` returns. -/
noncomputable def valueOf (d : Nat) (horizon : Option ℝ) (normalized boundary : Bool) (x y : Point) (order : Nat) (s : ℝ) :
    ℝ :=
  inside d horizon x y * (bfac boundary s * scalingOf d horizon normalized boundary (dist2 d x y) order s *
    dist2 d x y ^ (expo d boundary - s))

theorem kernel_fac (d : Nat) (hd : d = 1 ∨ d = 2 ∨ d = 3) (horizon : Option ℝ) (normalized boundary : Bool)
    (hh : ∀ h, horizon = some h → 0 < h) {s : ℝ} (h0 : 0 < s) (h1 : s < 1) (x y : Point) {order : Nat} (ho : order ≤ 2) :
    (getFractionalKernel d s horizon normalized boundary order 0).fac x y =
      some (valueOf d horizon normalized boundary x y order s) :=
  fac_eq _ hd rfl rfl x y (scaling_eval d horizon normalized boundary hh h0 h1 _ ho)

theorem valueOf_deriv (d : Nat) (horizon : Option ℝ) (normalized boundary : Bool)
    (hh : ∀ h, horizon = some h → 0 < h) {s : ℝ} (h0 : 0 < s) (h1 : s < 1) (x y : Point) (hu : 0 < dist2 d x y) :
    HasDerivAt (valueOf d horizon normalized boundary x y 0) (valueOf d horizon normalized boundary x y 1 s) s ∧
      HasDerivAt (valueOf d horizon normalized boundary x y 1) (valueOf d horizon normalized boundary x y 2 s) s := by
  have hc := hasDerivAt_C d horizon normalized boundary hh h0 h1
  constructor
  · have := hasDerivAt_first (e := expo d boundary) (w := inside d horizon x y) hu
      (c := fun t => bfac boundary t * derivativeC d t horizon normalized 0)
      (a := fun t => derivativeFac d t horizon normalized boundary) hc
    refine this.congr_deriv ?_
    simp only [valueOf, scalingOf]
    ring
  · have := hasDerivAt_second (e := expo d boundary) (w := inside d horizon x y) hu
      (c := fun t => bfac boundary t * derivativeC d t horizon normalized 0)
      (a := fun t => derivativeFac d t horizon normalized boundary) hc (hasDerivAt_fac d horizon normalized boundary h0 h1)
    refine (this.congr_of_eventuallyEq ?_).congr_deriv ?_
    · filter_upwards with t
      simp only [valueOf, scalingOf]
      ring
    · simp only [valueOf, scalingOf]
      ring

theorem variableC_eq (d : Nat) (hd : d = 1 ∨ d = 2 ∨ d = 3) (s : ℝ) (horizon : Option ℝ) (normalized : Bool) :
    variableC d s horizon normalized = some (derivativeC d s horizon normalized 0) := by
  cases normalized with
  | false => simp [variableC, derivativeC]
  | true =>
    cases horizon with
    | none => simp [variableC, derivativeC]
    | some h =>
      have hpi := Real.pi_pos.ne'
      rcases hd with rfl | rfl | rfl
      · have : Real.Gamma (1 / 2) / Real.pi ^ ((1 / 2 : ℝ)) = 1 := by
          rw [Real.Gamma_one_half_eq, Real.sqrt_eq_rpow]
          exact div_self (Real.rpow_pos_of_pos Real.pi_pos _).ne'
        simp only [variableC, derivativeC, if_true, Nat.cast_one, mul_one, Option.some.injEq]
        rw [mul_div_assoc, this, mul_one]
      · simp only [variableC, derivativeC, if_true, Option.some.injEq, Nat.cast_ofNat, OfNat.ofNat_ne_one, if_false]
        rw [show (1 / 2 : ℝ) * 2 = 1 by norm_num, Real.Gamma_one, Real.rpow_one, mul_one]
      · have h3 : Real.Gamma ((1 / 2 : ℝ) * 3) = (1 / 2) * √Real.pi := by
          rw [show (1 / 2 : ℝ) * 3 = 1 / 2 + 1 by norm_num, Real.Gamma_add_one (by norm_num), Real.Gamma_one_half_eq]
        have h4 : Real.pi ^ ((1 / 2 : ℝ) * 3) = Real.pi * √Real.pi := by
          rw [show (1 / 2 : ℝ) * 3 = 1 + 1 / 2 by norm_num, Real.rpow_add Real.pi_pos, Real.rpow_one, Real.sqrt_eq_rpow]
        have h5 : √Real.pi ≠ 0 := (Real.sqrt_pos.mpr Real.pi_pos).ne'
        simp only [variableC, derivativeC, if_true, Option.some.injEq, Nat.cast_ofNat, if_false, show ¬(3 = 1) by omega,
          show ¬(3 = 2) by omega]
        rw [h3, h4]
        field_simp

theorem variableFirst_eq (d : Nat) (s : ℝ) (horizon : Option ℝ) (normalized boundary : Bool)
    (hh : ∀ h, horizon = some h → 0 < h) {u : ℝ} (hu : 0 < u) :
    variableFirst d s horizon normalized boundary u = -Real.log u + derivativeFac d s horizon normalized boundary := by
  have h4 : Real.log (1 / 4 * u) = Real.log u - Real.log 4 := by
    rw [show (1 / 4 * u) = u / 4 by ring, Real.log_div hu.ne' (by norm_num)]
  cases normalized with
  | false =>
    cases boundary <;> simp [variableFirst, derivativeFac]
    ring
  | true =>
    cases horizon with
    | none =>
      cases boundary <;> simp only [variableFirst, derivativeFac, if_true, Bool.not_true, Bool.not_false, Bool.false_eq_true,
        if_false, h4] <;> ring
    | some h =>
      have hp := hh h rfl
      cases boundary <;> simp only [variableFirst, derivativeFac, if_true, Bool.not_true, Bool.not_false, Bool.false_eq_true,
        if_false, Real.log_div hu.ne' (by positivity : h ^ 2 ≠ 0)] <;> ring

theorem variable_fac (d : Nat) (hd : d = 1 ∨ d = 2 ∨ d = 3) (horizon : Option ℝ) (normalized boundary : Bool)
    (hh : ∀ h, horizon = some h → 0 < h) (s : ℝ) (x y : Point) (hu : 0 < dist2 d x y) {order : Nat} (ho : order ≤ 2) :
    (getVariableKernel d s horizon normalized boundary order 0).fac x y =
      some (valueOf d horizon normalized boundary x y order s) := by
  refine fac_eq _ hd rfl rfl x y ?_
  show variableValue d s horizon normalized boundary order (dist2 d x y) = _
  unfold variableValue
  rw [variableC_eq d hd, Option.bind_some]
  rcases order with _ | _ | _ | order
  · rfl
  · simp [scalingOf, variableFirst_eq d s horizon normalized boundary hh hu]
  · simp [scalingOf, hessianFac_snd]
  · omega

end PyNucleus.KernelScaling
