import Mathlib.Analysis.SpecialFunctions.Pow.Deriv
import Mathlib.Analysis.SpecialFunctions.ImproperIntegrals
import Mathlib.Analysis.SpecialFunctions.Gamma.Basic
import Mathlib.MeasureTheory.Integral.IntervalIntegral.FundThmCalculus
import Mathlib.Analysis.SpecialFunctions.Log.Deriv
import Verif.Model.Kernels
import Verif.Spec.Kernels

/-! Divergence of radial fields and derivatives of the boundary kernels. -/

namespace PyNucleus.Kernels

open Interaction Filter Topology

theorem dist2_eq (d : Nat) (x y : Point) : dist2 d x y = euclid2 d x y := by
  unfold dist2 euclid2
  induction d with
  | zero => simp
  | succ d ih => rw [List.range_succ, List.foldl_append, ih, Finset.sum_range_succ]; rfl

theorem euclid2_nonneg (d : Nat) (x y : Point) : 0 ≤ euclid2 d x y := Finset.sum_nonneg fun _ _ => sq_nonneg _

theorem euclid2_comm (d : Nat) (x y : Point) : euclid2 d x y = euclid2 d y x :=
  Finset.sum_congr rfl fun _ _ => by ring

theorem euclid2_update (d : Nat) (x y : Point) (i : Nat) (hi : i < d) (t : ℝ) :
    euclid2 d x (Function.update y i t) = euclid2 d x y + ((x i - t) ^ 2 - (x i - y i) ^ 2) := by
  unfold euclid2
  have e : ∀ j, (x j - Function.update y i t j) ^ 2 = (x j - y j) ^ 2 + (if j = i then (x i - t) ^ 2 - (x i - y i) ^ 2 else 0) := by
    intro j
    by_cases h : j = i
    · subst h; simp
    · simp [h]
  rw [Finset.sum_congr rfl fun j _ => e j, Finset.sum_add_distrib, Finset.sum_ite_eq', if_pos (Finset.mem_range.mpr hi)]

/-- Divergence of a radial field. -/
theorem radial (d : Nat) (Γ : Point → Point → ℝ) (g : ℝ → ℝ) (g' : ℝ) (x y : Point) (hD : euclid2 d x y ≠ 0)
    (hΓ : ∀ᶠ u in 𝓝 (euclid2 d x y), ∀ z, euclid2 d x z = u → Γ x z = g u) (hg : HasDerivAt g g' (euclid2 d x y)) :
    HasDivergence d (flux d Γ x) y ((2 * euclid2 d x y * g' + (d - 1) * g (euclid2 d x y)) / distance d x y) := by
  have pos : 0 < euclid2 d x y := lt_of_le_of_ne (euclid2_nonneg d x y) (Ne.symm hD)
  have rpos : 0 < distance d x y := Real.sqrt_pos.mpr pos
  have rsq : distance d x y * distance d x y = euclid2 d x y := Real.mul_self_sqrt pos.le
  set D := euclid2 d x y with hDdef
  set r := distance d x y with hr
  refine ⟨fun i => (g' * (2 * (y i - x i))) * ((y i - x i) / r) +
      g D * ((1 * r - (y i - x i) * ((2 * (y i - x i)) / (2 * r))) / r ^ 2), ?_, ?_⟩
  · intro i hi
    have hE : HasDerivAt (fun t => D + ((x i - t) ^ 2 - (x i - y i) ^ 2)) (2 * (y i - x i)) (y i) := by
      have h1 : HasDerivAt (fun t : ℝ => x i - t) (-1) (y i) := by simpa using (hasDerivAt_id (y i)).const_sub (x i)
      have h2 := ((h1.pow 2).sub_const ((x i - y i) ^ 2)).const_add D
      refine h2.congr_deriv ?_
      simp only [Nat.cast_ofNat]
      ring
    have at0 : D + ((x i - y i) ^ 2 - (x i - y i) ^ 2) = D := by ring
    have hs : HasDerivAt (fun t => √(D + ((x i - t) ^ 2 - (x i - y i) ^ 2))) ((2 * (y i - x i)) / (2 * r)) (y i) := by
      have := hE.sqrt (by rw [at0]; exact hD)
      rwa [at0] at this
    have hgc : HasDerivAt (fun t => g (D + ((x i - t) ^ 2 - (x i - y i) ^ 2))) (g' * (2 * (y i - x i))) (y i) := by
      have hg2 : HasDerivAt g g' (D + ((x i - y i) ^ 2 - (x i - y i) ^ 2)) := by rw [at0]; exact hg
      exact hg2.comp (y i) hE
    have hq := ((hasDerivAt_id (y i)).sub_const (x i)).div hs (by rw [at0]; exact rpos.ne')
    have hm := hgc.mul hq
    rw [at0] at hm
    have hev : (fun t => flux d Γ x (Function.update y i t) i) =ᶠ[𝓝 (y i)]
        ((fun t => g (D + ((x i - t) ^ 2 - (x i - y i) ^ 2))) *
          ((fun t => id t - x i) / fun t => √(D + ((x i - t) ^ 2 - (x i - y i) ^ 2)))) := by
      have hc : Tendsto (fun t => D + ((x i - t) ^ 2 - (x i - y i) ^ 2)) (𝓝 (y i)) (𝓝 D) := by
        have := hE.continuousAt
        unfold ContinuousAt at this
        dsimp only at this
        rwa [at0] at this
      filter_upwards [hc.eventually hΓ] with t ht
      have e := euclid2_update d x y i hi t
      simp only [flux, distance, Pi.mul_apply, Pi.div_apply, Function.update_self, id]
      rw [ht _ e, e]
    refine (hm.congr_of_eventuallyEq hev).congr_deriv ?_
    simp only [Pi.div_apply, id]
    rw [at0]
    rfl
  · have e : ∀ i, (g' * (2 * (y i - x i))) * ((y i - x i) / r) + g D * ((1 * r - (y i - x i) * ((2 * (y i - x i)) / (2 * r))) / r ^ 2) =
        (2 * g' / r - g D / r ^ 3) * (x i - y i) ^ 2 + g D / r := by
      intro i
      have := rpos.ne'
      field_simp
      ring
    rw [Finset.sum_congr rfl fun i _ => e i, Finset.sum_add_distrib, ← Finset.mul_sum, Finset.sum_const, Finset.card_range, nsmul_eq_mul]
    change (2 * g' / r - g D / r ^ 3) * D + _ = _
    rw [← rsq]
    have := rpos.ne'
    field_simp
    ring

theorem HasDivergence.unique {d : Nat} {F : Point → Nat → ℝ} {y : Point} {v w : ℝ} (hv : HasDivergence d F y v) (hw : HasDivergence d F y w) : v = w := by
  obtain ⟨g, hg, rfl⟩ := hv
  obtain ⟨h, hh, rfl⟩ := hw
  exact Finset.sum_congr rfl fun i hi => (hg i (Finset.mem_range.mp hi)).unique (hh i (Finset.mem_range.mp hi))

/-- Derivative of the incomplete gamma function. -/
theorem hasDerivAt_gammainc (a x : ℝ) (ha : 0 < a) (hx : 0 < x) : HasDerivAt (gammainc a) (-(x ^ (a - 1) * Real.exp (-x))) x := by
  have hint : MeasureTheory.IntegrableOn (fun t : ℝ => t ^ (a - 1) * Real.exp (-t)) (Set.Ioi 0) := by
    refine (Real.GammaIntegral_convergent ha).congr_fun (fun t _ => ?_) measurableSet_Ioi
    ring
  have hev : gammainc a =ᶠ[𝓝 x] fun u => (∫ t in Set.Ioi (0 : ℝ), t ^ (a - 1) * Real.exp (-t)) - ∫ t in (0 : ℝ)..u, t ^ (a - 1) * Real.exp (-t) := by
    filter_upwards [lt_mem_nhds hx] with u hu
    have h1 := intervalIntegral.integral_interval_add_Ioi hint (hint.mono_set (Set.Ioi_subset_Ioi hu.le))
    unfold gammainc
    rw [← h1]
    ring
  have hcont : ContinuousAt (fun t : ℝ => t ^ (a - 1) * Real.exp (-t)) x :=
    (Real.continuousAt_rpow_const x (a - 1) (Or.inl hx.ne')).mul (Real.continuous_exp.comp continuous_neg).continuousAt
  have hii : IntervalIntegrable (fun t : ℝ => t ^ (a - 1) * Real.exp (-t)) MeasureTheory.volume 0 x :=
    (intervalIntegrable_iff_integrableOn_Ioc_of_le hx.le).mpr (hint.mono_set Set.Ioc_subset_Ioi_self)
  have hmeas : StronglyMeasurableAtFilter (fun t : ℝ => t ^ (a - 1) * Real.exp (-t)) (𝓝 x) MeasureTheory.volume := by
    refine ContinuousAt.stronglyMeasurableAtFilter (s := Set.Ioi 0) isOpen_Ioi (fun t ht => ?_) x hx
    exact (Real.continuousAt_rpow_const t (a - 1) (Or.inl (ne_of_gt ht))).mul (Real.continuous_exp.comp continuous_neg).continuousAt
  have hd := (intervalIntegral.integral_hasDerivAt_right hii hmeas hcont).const_sub (∫ t in Set.Ioi (0 : ℝ), t ^ (a - 1) * Real.exp (-t))
  exact hd.congr_of_eventuallyEq hev

/-- Inside and outside of the ball the default interaction is constant. -/
theorem within_default (d : Nat) (horizon : Option ℝ) (x y : Point) (hh : ∀ h, horizon = some h → euclid2 d x y ≠ h * h) :
    (∀ᶠ u in 𝓝 (euclid2 d x y), ∀ z, ∀ F : ℝ → ℝ, euclid2 d x z = u → within (defaultInteraction d horizon) F x z = F u) ∨
    (∀ᶠ u in 𝓝 (euclid2 d x y), ∀ z, ∀ F : ℝ → ℝ, euclid2 d x z = u → within (defaultInteraction d horizon) F x z = 0) := by
  cases horizon with
  | none =>
    left
    refine Eventually.of_forall fun u z F h => ?_
    simp [within, defaultInteraction, fullSpace, dist2_eq, h]
  | some h =>
    rcases lt_or_gt_of_ne (hh h rfl) with hl | hl
    · left
      filter_upwards [gt_mem_nhds hl] with u hu z F hz
      simp [within, defaultInteraction, ball2, dist2_eq, hz, hu.le]
    · right
      filter_upwards [lt_mem_nhds hl] with u hu z F hz
      simp [within, defaultInteraction, ball2, dist2_eq, hz, not_le.mpr hu]

/-- The relation of two kernels restricted to the default domain. -/
theorem divergence_within (d : Nat) (horizon : Option ℝ) (f g : ℝ → ℝ) (x y : Point) (c : ℝ)
    (hfg : ∃ g', HasDerivAt g g' (euclid2 d x y) ∧ 2 * euclid2 d x y * g' + (d - 1) * g (euclid2 d x y) = c * √(euclid2 d x y) * f (euclid2 d x y))
    (hD : euclid2 d x y ≠ 0) (hh : ∀ h, horizon = some h → euclid2 d x y ≠ h * h) :
    HasDivergence d (flux d (within (defaultInteraction d horizon) g) x) y (c * within (defaultInteraction d horizon) f x y) := by
  have pos : 0 < euclid2 d x y := lt_of_le_of_ne (euclid2_nonneg d x y) (Ne.symm hD)
  have rpos : 0 < √(euclid2 d x y) := Real.sqrt_pos.mpr pos
  obtain ⟨g', hg, he⟩ := hfg
  rcases within_default d horizon x y hh with h1 | h1
  · rw [h1.self_of_nhds y f rfl]
    have := radial d _ g g' x y hD (h1.mono fun u hu z hz => hu z g hz) hg
    rw [he] at this
    have e : c * √(euclid2 d x y) * f (euclid2 d x y) / distance d x y = c * f (euclid2 d x y) := by
      unfold distance
      field_simp
    rwa [e] at this
  · rw [h1.self_of_nhds y f rfl]
    have := radial d (within (defaultInteraction d horizon) g) (fun _ => 0) 0 x y hD
      (h1.mono fun u hu z hz => hu z g hz) (hasDerivAt_const _ _)
    simpa using this

/-- Powers. -/
theorem power_relation (d : Nat) (C s u : ℝ) (hs : s ≠ 0) (hu : 0 < u) :
    ∃ g', HasDerivAt (fun v : ℝ => 1 / s * C * v ^ ((1 - (d : ℝ)) / 2 - s)) g' u ∧
      2 * u * g' + (d - 1) * (1 / s * C * u ^ ((1 - (d : ℝ)) / 2 - s)) = -2 * √u * (C * u ^ (-(d : ℝ) / 2 - s)) := by
  refine ⟨_, (Real.hasDerivAt_rpow_const (Or.inl hu.ne')).const_mul _, ?_⟩
  have e1 : u ^ ((1 - (d : ℝ)) / 2 - s - 1) * u = u ^ ((1 - (d : ℝ)) / 2 - s) := by
    rw [← Real.rpow_add_one hu.ne']; ring_nf
  have e2 : √u * u ^ (-(d : ℝ) / 2 - s) = u ^ ((1 - (d : ℝ)) / 2 - s) := by
    rw [Real.sqrt_eq_rpow, ← Real.rpow_add hu]; ring_nf
  have : 2 * u * (1 / s * C * (((1 - (d : ℝ)) / 2 - s) * u ^ ((1 - (d : ℝ)) / 2 - s - 1))) =
      2 * (1 / s * C * ((1 - (d : ℝ)) / 2 - s)) * (u ^ ((1 - (d : ℝ)) / 2 - s - 1) * u) := by ring
  rw [this, e1]
  have : -2 * √u * (C * u ^ (-(d : ℝ) / 2 - s)) = -2 * C * (√u * u ^ (-(d : ℝ) / 2 - s)) := by ring
  rw [this, e2]
  field_simp
  ring

/-- Linear functions of the distance. -/
theorem linear_relation (C u : ℝ) (d : Nat) (hu : 0 < u) :
    ∃ g', HasDerivAt (fun v => C * √v) g' u ∧ 2 * u * g' + (d - 1) * (C * √u) = d * √u * C := by
  have h : 0 < √u := Real.sqrt_pos.mpr hu
  have h2 : √u * √u = u := Real.mul_self_sqrt hu.le
  refine ⟨_, (Real.hasDerivAt_sqrt hu.ne').const_mul C, ?_⟩
  have : 2 * u * (C * (1 / (2 * √u))) = C * √u := by
    nth_rw 1 [← h2]
    field_simp
  rw [this]
  ring

/-- The logarithm. -/
theorem log_relation (C u : ℝ) (hu : 0 < u) :
    ∃ g', HasDerivAt (fun v => -2 * C * (1 / 2) * Real.log v) g' u ∧ 2 * u * g' + (((1 : Nat) : ℝ) - 1) * (-2 * C * (1 / 2) * Real.log u) = -2 * √u * (C / √u) := by
  have h : 0 < √u := Real.sqrt_pos.mpr hu
  refine ⟨_, (Real.hasDerivAt_log hu.ne').const_mul _, ?_⟩
  have := hu.ne'
  field_simp
  simp
  ring

theorem const_relation (C u : ℝ) (hu : 0 < u) :
    ∃ g', HasDerivAt (fun _ : ℝ => -2 * C) g' u ∧ 2 * u * g' + (((2 : Nat) : ℝ) - 1) * (-2 * C) = -2 * √u * (C / √u) := by
  have h : 0 < √u := Real.sqrt_pos.mpr hu
  refine ⟨0, hasDerivAt_const _ _, ?_⟩
  field_simp
  norm_num

theorem gammainc_one (x : ℝ) : gammainc 1 x = Real.exp (-x) := by
  unfold gammainc
  rw [← integral_exp_neg_Ioi]
  simp

theorem gaussian1_relation (C e u : ℝ) (he : 0 < e) (hu : 0 < u) :
    ∃ g', HasDerivAt (fun v => C * √(1 / (v * e)) * gammainc (1 / 2) (v * e) * √v) g' u ∧
      2 * u * g' + (((1 : Nat) : ℝ) - 1) * (C * √(1 / (u * e)) * gammainc (1 / 2) (u * e) * √u) = -2 * √u * (C * Real.exp (-u * e)) := by
  have hue : 0 < u * e := mul_pos hu he
  have hu' : 0 < √u := Real.sqrt_pos.mpr hu
  have he' : 0 < √e := Real.sqrt_pos.mpr he
  have hev : (fun v => C * √(1 / (v * e)) * gammainc (1 / 2) (v * e) * √v) =ᶠ[𝓝 u] fun v => C / √e * gammainc (1 / 2) (v * e) := by
    filter_upwards [lt_mem_nhds hu] with v hv
    have hv' : 0 < √v := Real.sqrt_pos.mpr hv
    rw [Real.sqrt_div zero_le_one, Real.sqrt_one, Real.sqrt_mul hv.le]
    field_simp
  have hd := ((hasDerivAt_gammainc (1 / 2) (u * e) (by norm_num) hue).comp u ((hasDerivAt_id u).mul_const e)).const_mul (C / √e)
  refine ⟨_, hd.congr_of_eventuallyEq hev, ?_⟩
  have e1 : (u * e) ^ ((1 : ℝ) / 2 - 1) = 1 / (√u * √e) := by
    rw [← Real.sqrt_mul hu.le, Real.sqrt_eq_rpow, one_div (_ ^ _), ← Real.rpow_neg hue.le]
    norm_num
  rw [e1]
  have h2 : √u * √u = u := Real.mul_self_sqrt hu.le
  have h3 : √e * √e = e := Real.mul_self_sqrt he.le
  have e2 : Real.exp (-u * e) = Real.exp (-(u * e)) := by ring_nf
  rw [e2]
  generalize Real.exp (-(u * e)) = X
  simp only [Nat.cast_one, sub_self, zero_mul, add_zero]
  generalize √u = a at *
  generalize √e = b at *
  subst h2 h3
  field_simp

theorem gaussian2_relation (C e u : ℝ) (he : 0 < e) (hu : 0 < u) :
    ∃ g', HasDerivAt (fun v => C * (1 / (v * e)) * gammainc 1 (v * e) * √v) g' u ∧
      2 * u * g' + (((2 : Nat) : ℝ) - 1) * (C * (1 / (u * e)) * gammainc 1 (u * e) * √u) = -2 * √u * (C * Real.exp (-u * e)) := by
  have hu' : 0 < √u := Real.sqrt_pos.mpr hu
  have hev : (fun v => C * (1 / (v * e)) * gammainc 1 (v * e) * √v) =ᶠ[𝓝 u] fun v => C / e * (Real.exp (-(v * e)) / √v) := by
    filter_upwards [lt_mem_nhds hu] with v hv
    have hv' : 0 < √v := Real.sqrt_pos.mpr hv
    have h2 : √v * √v = v := Real.mul_self_sqrt hv.le
    rw [gammainc_one]
    generalize Real.exp (-(v * e)) = X
    generalize √v = a at *
    subst h2
    field_simp
  have hx : HasDerivAt (fun v : ℝ => Real.exp (-(v * e))) (Real.exp (-(u * e)) * (-(1 * e))) u :=
    (((hasDerivAt_id u).mul_const e).neg).exp
  have hd := (hx.div (Real.hasDerivAt_sqrt hu.ne') hu'.ne').const_mul (C / e)
  refine ⟨_, hd.congr_of_eventuallyEq hev, ?_⟩
  rw [gammainc_one]
  have h2 : √u * √u = u := Real.mul_self_sqrt hu.le
  have e2 : Real.exp (-u * e) = Real.exp (-(u * e)) := by ring_nf
  rw [e2]
  generalize Real.exp (-(u * e)) = X
  generalize √u = a at *
  subst h2
  have := he.ne'
  push_cast
  field_simp
  ring

/-- The exponential kernel has an additional term in dimensions larger than one. -/
theorem exponential_relation (C e u : ℝ) (d : Nat) (he : e ≠ 0) (hu : 0 < u) :
    ∃ g', HasDerivAt (fun v => 2 * C * Real.exp (-e * √v) / e) g' u ∧
      2 * u * g' + (d - 1) * (2 * C * Real.exp (-e * √u) / e) = √u * (-2 * (C * Real.exp (-e * √u)) + (d - 1) * (2 * C * Real.exp (-e * √u) / e) / √u) := by
  have hu' : 0 < √u := Real.sqrt_pos.mpr hu
  have hx : HasDerivAt (fun v : ℝ => Real.exp (-e * √v)) (Real.exp (-e * √u) * (-e * (1 / (2 * √u)))) u :=
    ((Real.hasDerivAt_sqrt hu.ne').const_mul (-e)).exp
  refine ⟨_, (hx.const_mul (2 * C)).div_const e, ?_⟩
  have h2 : √u * √u = u := Real.mul_self_sqrt hu.le
  generalize Real.exp (-e * √u) = X
  generalize √u = a at *
  subst h2
  field_simp

theorem fractional_fun (k : Kernel) (hk : k.kind = .fractional) (hb : k.boundary = false) (hd : k.dim = 1 ∨ k.dim = 2 ∨ k.dim = 3)
    (ht : k.tempered = 0) (hi : k.interaction = defaultInteraction k.dim k.horizon) :
    kernelFun k = some (within (defaultInteraction k.dim k.horizon) fun v => k.scaling * v ^ (-(k.dim : ℝ) / 2 - k.s)) := by
  unfold kernelFun fractionalFun
  rw [if_pos hk, hb, if_pos hd]
  cases h : k.horizon with
  | none =>
    simp only [ht, Bool.false_eq_true, if_false, if_true]
    congr 1
    funext x y
    simp [within, defaultInteraction, fullSpace]
  | some a => simp only [ht, hi, h, Bool.false_eq_true, if_false, if_true]

theorem fractional_boundary (k : Kernel) (hk : k.kind = .fractional) (hd : k.dim = 1 ∨ k.dim = 2 ∨ k.dim = 3) :
    kernelFun k.getBoundaryKernel = some (within (defaultInteraction k.dim k.horizon) fun v => 1 / k.s * k.scaling * v ^ ((1 - (k.dim : ℝ)) / 2 - k.s)) := by
  unfold kernelFun fractionalBoundaryFun Kernel.getBoundaryKernel
  rw [if_pos hk, if_pos hk, if_pos rfl, if_pos hd, if_pos rfl]
  cases h : k.horizon with
  | none =>
    simp only
    congr 1
    funext x y
    simp [within, defaultInteraction, fullSpace, Kernel.scaling]
  | some a => rfl

theorem integrable_fun (k : Kernel) (hk : k.kind ≠ .fractional) (hb : k.boundary = false) : kernelFun k = integrableFun k := by
  unfold kernelFun
  rw [if_neg hk, hb]
  rfl

theorem integrable_boundary (k : Kernel) (hk : k.kind ≠ .fractional) : kernelFun k.getBoundaryKernel =
    integrableBoundaryFun { k with boundary := true, interaction := defaultInteraction k.dim k.horizon, scalingPrePhi := k.scaling } := by
  unfold kernelFun Kernel.getBoundaryKernel
  rw [if_neg hk, if_neg hk, if_pos rfl]

theorem default_dist (d : Nat) (horizon : Option ℝ) (x y : Point) : (defaultInteraction d horizon x y).2 = euclid2 d x y := by
  cases horizon <;> simp [defaultInteraction, fullSpace, ball2, dist2_eq]

theorem within_congr (I : Interaction) (f g : ℝ → ℝ) (x y : Point) (h : f (I x y).2 = g (I x y).2) : within I f x y = within I g x y := by
  unfold within; rw [h]

end PyNucleus.Kernels
