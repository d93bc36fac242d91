import Verif.Proof.Kernels

/-!
C72: a boundary kernel belongs to its kernel by Gauss' theorem.

`getBoundaryKernel` returns "the kernel that corresponds to the elimination of a subdomain via Gauss theorem": the field of
strength Γ(x, z) directed from x to z has divergence −2 γ(x, z) in z, so that −2 ∫ γ over a subdomain is the flux
through its boundary. (The factor 2 is that of pairs of a cell and the exterior in the bilinear form.)
-/

namespace PyNucleus.Props.C72

open PyNucleus PyNucleus.Kernels PyNucleus.Interaction

/-- The boundary kernel belongs to the kernel: everywhere except on the diagonal and at the horizon. -/
def Gauss (k : Kernel) : Prop :=
  ∃ γ Γ, kernelFun k = some γ ∧ kernelFun k.getBoundaryKernel = some Γ ∧
    ∀ x y, euclid2 k.dim x y ≠ 0 → (∀ h, k.horizon = some h → euclid2 k.dim x y ≠ h * h) → HasDivergence k.dim (flux k.dim Γ x) y (-2 * γ x y)

/-- Fractional kernels in one, two and three dimensions, of finite and infinite horizon. -/
theorem fractional (k : Kernel) (hk : k.kind = .fractional) (hb : k.boundary = false) (hd : k.dim = 1 ∨ k.dim = 2 ∨ k.dim = 3) (hs : k.s ≠ 0)
    (ht : k.tempered = 0) (hi : k.interaction = defaultInteraction k.dim k.horizon) : Gauss k := by
  refine ⟨_, _, fractional_fun k hk hb hd ht hi, fractional_boundary k hk hd, fun x y h0 hh => ?_⟩
  exact divergence_within k.dim k.horizon _ _ x y (-2)
    (power_relation k.dim k.scaling k.s _ hs (lt_of_le_of_ne (euclid2_nonneg k.dim x y) (Ne.symm h0))) h0 hh

/-- Indicator, peridynamic, Gaussian and exponential kernels of unit factor `phi`; full statement: `Gauss k` for all kernels with a
boundary kernel. Missing are exponential kernels in two and three dimensions, polynomial kernels and other factors `phi`, for
which it is false (`exponential_fails`, `polynomial_fails`, `phi_fails`). -/
theorem integrable_partial (k : Kernel) (hb : k.boundary = false) (hi : k.interaction = defaultInteraction k.dim k.horizon)
    (hp : k.phi = none ∨ k.phi = some 1)
    (hk : ((k.kind = .indicator ∨ k.kind = .peridynamic ∨ k.kind = .gaussian ∧ 0 < k.exponent) ∧ (k.dim = 1 ∨ k.dim = 2)) ∨
      (k.kind = .exponential ∧ k.exponent ≠ 0 ∧ k.dim = 1)) : Gauss k := by
  obtain ⟨kind, d, boundary, horizon, I, s, C, phi, lam, e, p⟩ := k
  simp only at hb hi hp hk
  subst hb hi
  have hC : ∀ K : Kernel, K.phi = phi → K.scaling = K.scalingPrePhi := by
    intro K hK
    unfold Kernel.scaling
    rw [hK]
    rcases hp with rfl | rfl <;> simp
  have run : ∀ f g : ℝ → ℝ, (∀ u, 0 < u → ∃ g', HasDerivAt g g' u ∧ 2 * u * g' + (d - 1) * g u = -2 * √u * f u) → ∀ x y, euclid2 d x y ≠ 0 →
      (∀ h, horizon = some h → euclid2 d x y ≠ h * h) →
      HasDivergence d (flux d (within (defaultInteraction d horizon) g) x) y (-2 * within (defaultInteraction d horizon) f x y) :=
    fun f g hfg x y h0 hh => divergence_within d horizon f g x y (-2) (hfg _ (lt_of_le_of_ne (euclid2_nonneg d x y) (Ne.symm h0))) h0 hh
  have lin : ∀ (n : Nat) (c : ℝ), (fun x y => within (defaultInteraction n horizon) (fun _ => c * √(dist2 n x y)) x y) =
      within (defaultInteraction n horizon) fun v => c * √v := by
    intro n c
    funext x y
    exact within_congr _ _ _ x y (by rw [default_dist, dist2_eq])
  rcases hk with ⟨h1 | h1 | ⟨h1, he⟩, h2 | h2⟩ | ⟨h1, he, h2⟩ <;> subst h1 h2 <;>
    refine ⟨_, _, integrable_fun _ (by simp) rfl, integrable_boundary _ (by simp), ?_⟩ <;> simp only [hC]
  · rw [lin]
    refine run _ _ fun u hu => ?_
    obtain ⟨g', hg, h⟩ := linear_relation (-C * 2) u 1 hu
    exact ⟨g', hg, by rw [h]; push_cast; ring⟩
  · rw [lin]
    refine run _ _ fun u hu => ?_
    obtain ⟨g', hg, h⟩ := linear_relation (-C) u 2 hu
    exact ⟨g', hg, by rw [h]; push_cast; ring⟩
  · exact run _ _ fun u hu => log_relation C u hu
  · exact run _ _ fun u hu => const_relation C u hu
  · exact run _ _ fun u hu => gaussian1_relation C e u he hu
  · exact run _ _ fun u hu => gaussian2_relation C e u he hu
  · refine run _ _ fun u hu => ?_
    obtain ⟨g', hg, h⟩ := exponential_relation C e u 1 he hu
    exact ⟨g', hg, by rw [h]; push_cast; ring⟩

/-- A fractional kernel of order 1/2 in the plane. -/
noncomputable def halfLaplacian : Kernel := ⟨.fractional, 2, false, none, fullSpace 2, 1 / 2, 3, none, 0, 0, 0⟩

example : Gauss halfLaplacian := fractional halfLaplacian rfl rfl (Or.inr (Or.inl rfl)) (by norm_num [halfLaplacian]) rfl rfl

/-- A Gaussian kernel of horizon 2 in the plane. -/
noncomputable def bell : Kernel := ⟨.gaussian, 2, false, some 2, ball2 2 2, 0, 3, some 1, 0, 5, 0⟩

example : Gauss bell := integrable_partial bell rfl rfl (Or.inr rfl) (Or.inl ⟨Or.inr (Or.inr ⟨rfl, by norm_num [bell]⟩), Or.inr rfl⟩)

/-- The divergence for the exponential kernel in all dimensions: there is an additional term. -/
theorem exponential_divergence (k : Kernel) (hk : k.kind = .exponential) (hb : k.boundary = false) (hd : k.dim = 1 ∨ k.dim = 2 ∨ k.dim = 3)
    (hi : k.interaction = defaultInteraction k.dim k.horizon) (hp : k.phi = none) (he : k.exponent ≠ 0) :
    ∃ γ Γ, kernelFun k = some γ ∧ kernelFun k.getBoundaryKernel = some Γ ∧ ∀ x y, euclid2 k.dim x y ≠ 0 →
      (∀ h, k.horizon = some h → euclid2 k.dim x y < h * h) →
      γ x y = k.scaling * Real.exp (-k.exponent * distance k.dim x y) ∧
      HasDivergence k.dim (flux k.dim Γ x) y (-2 * γ x y + (k.dim - 1) * Γ x y / distance k.dim x y) := by
  obtain ⟨kind, d, boundary, horizon, I, s, C, phi, lam, e, p⟩ := k
  simp only at hk hb hd hi hp he
  subst hk hb hi hp
  have f1 : kernelFun ⟨.exponential, d, false, horizon, defaultInteraction d horizon, s, C, none, lam, e, p⟩ =
      some (within (defaultInteraction d horizon) fun d2 => C * Real.exp (-e * √d2)) := by
    rw [integrable_fun _ (by simp) rfl]
    rcases hd with rfl | rfl | rfl <;> rfl
  have f2 : kernelFun (Kernel.getBoundaryKernel ⟨.exponential, d, false, horizon, defaultInteraction d horizon, s, C, none, lam, e, p⟩) =
      some (within (defaultInteraction d horizon) fun d2 => 2 * C * Real.exp (-e * √d2) / e) := by
    rw [integrable_boundary _ (by simp)]
    rcases hd with rfl | rfl | rfl <;> rfl
  refine ⟨_, _, f1, f2, fun x y h0 hh => ?_⟩
  have pos : 0 < euclid2 d x y := lt_of_le_of_ne (euclid2_nonneg d x y) (Ne.symm h0)
  have rpos : 0 < √(euclid2 d x y) := Real.sqrt_pos.mpr pos
  have hin : ∀ F : ℝ → ℝ, within (defaultInteraction d horizon) F x y = F (euclid2 d x y) := by
    intro F
    cases horizon with
    | none => simp [within, defaultInteraction, fullSpace, dist2_eq]
    | some h => simp [within, defaultInteraction, ball2, dist2_eq, (hh h rfl).le]
  refine ⟨by rw [hin]; rfl, ?_⟩
  obtain ⟨g', hg, h⟩ := exponential_relation C e (euclid2 d x y) d he pos
  rcases within_default d horizon x y (fun h e => (hh h e).ne) with h1 | h1
  · have := radial d _ _ g' x y h0 (h1.mono fun u hu z hz => hu z _ hz) hg
    rw [h] at this
    rw [hin, hin]
    unfold distance at this ⊢
    dsimp only at this ⊢
    rwa [mul_div_cancel_left₀ _ rpos.ne'] at this
  · have h2 := h1.self_of_nhds y (fun _ => 1) rfl
    rw [hin] at h2
    norm_num at h2

/-- The exponential kernel in the plane. -/
noncomputable def decay : Kernel := ⟨.exponential, 2, false, none, fullSpace 2, 0, 1, none, 0, 1, 0⟩

/-- The unit vector. -/
def unitVector : Point := fun i => if i = 0 then 1 else 0

theorem euclid2_unit : euclid2 2 (fun _ => 0) unitVector = 1 := by
  simp [euclid2, unitVector]

/-- The boundary kernel of exponential kernels in the plane does not belong to the kernel. -/
theorem exponential_fails : ¬ ∀ k : Kernel, k.kind = .exponential → k.boundary = false → (k.dim = 1 ∨ k.dim = 2 ∨ k.dim = 3) →
    k.interaction = defaultInteraction k.dim k.horizon → k.phi = none → k.exponent ≠ 0 → Gauss k := by
  intro H
  obtain ⟨γ, Γ, h1, h2, h3⟩ := H decay rfl rfl (Or.inr (Or.inl rfl)) rfl rfl (by norm_num [decay])
  obtain ⟨γ', Γ', h1', h2', h3'⟩ := exponential_divergence decay rfl rfl (Or.inr (Or.inl rfl)) rfl rfl (by norm_num [decay])
  obtain rfl : γ = γ' := Option.some.inj (h1.symm.trans h1')
  obtain rfl : Γ = Γ' := Option.some.inj (h2.symm.trans h2')
  have e : euclid2 decay.dim (fun _ => 0) unitVector = 1 := euclid2_unit
  have hn : euclid2 decay.dim (fun _ => 0) unitVector ≠ 0 := by rw [e]; norm_num
  have a := h3 (fun _ => 0) unitVector hn (by intro h hh; cases hh)
  have b := (h3' (fun _ => 0) unitVector hn (by intro h hh; cases hh)).2
  have c := a.unique b
  have hd : distance decay.dim (fun _ => 0) unitVector = 1 := by unfold distance; rw [e]; simp
  have hΓ : Γ (fun _ => 0) unitVector = 2 * Real.exp (-1) := by
    have : kernelFun decay.getBoundaryKernel = some (within (fullSpace 2) fun d2 => 2 * 1 * Real.exp (-1 * √d2) / 1) := by
      rw [integrable_boundary _ (by simp [decay])]
      rfl
    rw [h2] at this
    rw [Option.some.inj this]
    simp [within, fullSpace, dist2_eq, euclid2_unit]
  rw [hd, hΓ] at c
  have := Real.exp_pos (-1)
  have hdim : ((decay.dim : Nat) : ℝ) = 2 := by norm_num [decay]
  rw [hdim] at c
  norm_num at c

/-- The boundary kernel of polynomial kernels does not belong to the kernel. -/
theorem polynomial_fails : ¬ ∀ k : Kernel, k.kind = .polynomial → k.boundary = false → k.dim = 1 →
    k.interaction = defaultInteraction k.dim k.horizon → k.phi = none → k.exponent ≠ 0 → Gauss k := by
  intro H
  obtain ⟨γ, Γ, h1, h2, h3⟩ := H ⟨.polynomial, 1, false, none, fullSpace 1, 0, 1, none, 0, 1, 0⟩ rfl rfl rfl rfl rfl (by norm_num)
  rw [integrable_fun _ (by simp) rfl] at h1
  rw [integrable_boundary _ (by simp)] at h2
  obtain rfl := Option.some.inj h1
  obtain rfl := Option.some.inj h2
  have e : euclid2 1 (fun _ => 0) unitVector = 1 := by simp [euclid2, unitVector]
  have a := h3 (fun _ => 0) unitVector (by simp only; rw [e]; norm_num) (by intro h hh; cases hh)
  have hg : HasDerivAt (fun v : ℝ => (1 : ℝ) * (-(1 : ℝ) ^ 2 / (2 * √v) + (1 : ℝ) ^ 3 / 2 / ((1 : ℝ) ^ 2 + v))) (1 / 8) 1 := by
    have s1 := (Real.hasDerivAt_sqrt (x := 1) one_ne_zero).const_mul 2
    have s2 := (hasDerivAt_const (1 : ℝ) (-(1 : ℝ) ^ 2)).div s1 (by simp)
    have s3 := (hasDerivAt_const (1 : ℝ) ((1 : ℝ) ^ 3 / 2)).div ((hasDerivAt_id (1 : ℝ)).const_add ((1 : ℝ) ^ 2)) (by norm_num)
    refine ((s2.add s3).const_mul 1).congr_deriv ?_
    rw [Real.sqrt_one]
    norm_num [id]
  have b := radial 1 (within (fullSpace 1) fun v : ℝ => (1 : ℝ) * (-(1 : ℝ) ^ 2 / (2 * √v) + (1 : ℝ) ^ 3 / 2 / ((1 : ℝ) ^ 2 + v)))
    (fun v : ℝ => (1 : ℝ) * (-(1 : ℝ) ^ 2 / (2 * √v) + (1 : ℝ) ^ 3 / 2 / ((1 : ℝ) ^ 2 + v))) _ (fun _ => 0) unitVector
    (by rw [e]; norm_num) (Filter.Eventually.of_forall fun u z hz => by simp [within, fullSpace, dist2_eq, hz]) (by rw [e]; exact hg)
  have c := HasDivergence.unique a b
  simp [within, fullSpace, dist2_eq, e, distance, Kernel.scaling] at c
  norm_num at c

/-- With a factor `phi`, which is applied twice, the boundary kernel does not belong to the kernel. -/
theorem phi_fails : ¬ ∀ k : Kernel, k.kind = .indicator → k.boundary = false → k.dim = 1 →
    k.interaction = defaultInteraction k.dim k.horizon → Gauss k := by
  intro H
  obtain ⟨γ, Γ, h1, h2, h3⟩ := H ⟨.indicator, 1, false, some 2, ball2 1 2, 0, 1, some 3, 0, 1, 0⟩ rfl rfl rfl rfl
  rw [integrable_fun _ (by simp) rfl] at h1
  rw [integrable_boundary _ (by simp)] at h2
  obtain rfl := Option.some.inj h1
  obtain rfl := Option.some.inj h2
  have e : euclid2 1 (fun _ => 0) unitVector = 1 := by simp [euclid2, unitVector]
  have a := h3 (fun _ => 0) unitVector (by simp only; rw [e]; norm_num) (by
    intro h hh; cases hh; simp only; rw [e]; norm_num)
  obtain ⟨g', hg, h⟩ := linear_relation (-(3 * (3 * 1)) * 2) 1 1 one_pos
  have b := radial 1 (fun x y => within (ball2 1 2) (fun _ => -(3 * (3 * 1)) * 2 * √(dist2 1 x y)) x y) _ _ (fun _ => 0) unitVector
    (by rw [e]; norm_num) (by
      rw [e]
      filter_upwards [gt_mem_nhds (show (1 : ℝ) < 4 by norm_num)] with u hu z hz
      have : u ≤ 2 * 2 := by linarith
      simp only [within, ball2, dist2_eq, hz, if_pos this]
      rw [if_pos one_ne_zero]) (by rw [e]; exact hg)
  have c := HasDivergence.unique a b
  rw [e, h] at c
  have h4 : (1 : ℝ) ≤ 2 * 2 := by norm_num
  simp [within, ball2, dist2_eq, e, distance, Kernel.scaling, h4] at c
  norm_num at c

/-- The boundary kernel of a tempered kernel is not tempered. -/
theorem tempered_fails : ¬ ∀ k : Kernel, k.kind = .fractional → k.boundary = false → (k.dim = 1 ∨ k.dim = 2 ∨ k.dim = 3) → k.s ≠ 0 →
    k.horizon = none → k.interaction = defaultInteraction k.dim k.horizon → Gauss k := by
  intro H
  obtain ⟨γ, Γ, h1, h2, h3⟩ := H { halfLaplacian with tempered := 1 } rfl rfl (Or.inr (Or.inl rfl)) (by norm_num [halfLaplacian]) rfl rfl
  obtain ⟨γ', Γ', h1', h2', h3'⟩ := fractional halfLaplacian rfl rfl (Or.inr (Or.inl rfl)) (by norm_num [halfLaplacian]) rfl rfl
  obtain rfl : Γ = Γ' := Option.some.inj (h2.symm.trans h2')
  have e : euclid2 halfLaplacian.dim (fun _ => 0) unitVector = 1 := euclid2_unit
  have hn : euclid2 halfLaplacian.dim (fun _ => 0) unitVector ≠ 0 := by rw [e]; norm_num
  have c := HasDivergence.unique (h3 (fun _ => 0) unitVector hn (by intro h hh; cases hh)) (h3' (fun _ => 0) unitVector hn (by intro h hh; cases hh))
  have v1 : γ (fun _ => 0) unitVector = 3 * Real.exp (-1) := by
    have : kernelFun { halfLaplacian with tempered := 1 } = some fun x y =>
        if (1 : ℝ) = 0 then 3 * dist2 2 x y ^ (-((2 : Nat) : ℝ) / 2 - 1 / 2)
        else 3 * dist2 2 x y ^ (-((2 : Nat) : ℝ) / 2 - 1 / 2) * Real.exp (-1 * √(dist2 2 x y)) := rfl
    rw [h1] at this
    rw [Option.some.inj this]
    simp [dist2_eq, euclid2_unit]
  have v2 : γ' (fun _ => 0) unitVector = 3 := by
    have : kernelFun halfLaplacian = some (within (fullSpace 2) fun v => 3 * v ^ (-((2 : Nat) : ℝ) / 2 - 1 / 2)) :=
      fractional_fun halfLaplacian rfl rfl (Or.inr (Or.inl rfl)) rfl rfl
    rw [h1'] at this
    rw [Option.some.inj this]
    simp [within, fullSpace, dist2_eq, euclid2_unit]
  rw [v1, v2] at c
  have : Real.exp (-1) < 1 := by rw [← Real.exp_zero]; exact Real.exp_lt_exp.mpr (by norm_num)
  linarith

/-- The point (1, 1). -/
def corner : Point := fun _ => 1

theorem distMax2_corner : distMax2 2 (fun _ => 0) corner = 1 := by
  simp [distMax2, corner, List.range_succ]

theorem euclid2_corner : euclid2 2 (fun _ => 0) corner = 2 := by
  simp [euclid2, corner]

/-- A kernel on squares gets a boundary kernel on discs, which does not belong to it. -/
theorem interaction_fails : ¬ ∀ k : Kernel, k.kind = .indicator → k.boundary = false → k.dim = 2 → k.phi = none →
    (∃ h, k.horizon = some h ∧ k.interaction = ballInf k.dim h) → Gauss k := by
  intro H
  obtain ⟨γ, Γ, h1, h2, h3⟩ := H ⟨.indicator, 2, false, some 1, ballInf 2 1, 0, 1, none, 0, 1, 0⟩ rfl rfl rfl rfl ⟨1, rfl, rfl⟩
  rw [integrable_fun _ (by simp) rfl] at h1
  rw [integrable_boundary _ (by simp)] at h2
  obtain rfl := Option.some.inj h1
  obtain rfl := Option.some.inj h2
  have e := euclid2_corner
  have a := h3 (fun _ => 0) corner (by simp only; rw [e]; norm_num) (by
    intro h hh; cases hh; simp only; rw [e]; norm_num)
  have b := radial 2 (fun x y => within (ball2 2 1) (fun _ => -1 * √(dist2 2 x y)) x y) (fun _ => 0) 0 (fun _ => 0) corner
    (by rw [e]; norm_num) (by
      rw [e]
      filter_upwards [lt_mem_nhds (show (1 : ℝ) < 2 by norm_num)] with u hu z hz
      have : ¬ u ≤ 1 := by linarith
      simp [within, ball2, dist2_eq, hz, this]) (hasDerivAt_const _ _)
  have c := HasDivergence.unique a b
  simp [within, ballInf, distMax2_corner, Kernel.scaling] at c

/-- Value of fractional kernels and of their boundary kernels: a power of the distance with exponent `singularityValue`, restricted to the
interaction domain. -/
theorem value (k : Kernel) (hk : k.kind = .fractional) (hd : k.dim = 1 ∨ k.dim = 2 ∨ k.dim = 3) (ht : k.tempered = 0)
    (hi : ∀ x y, (k.interaction x y).2 = euclid2 k.dim x y) :
    ∃ γ, kernelFun k = some γ ∧ ∀ x y,
      ((k.horizon = none ∨ (k.interaction x y).1 ≠ 0) → γ x y = k.scaling * distance k.dim x y ^ k.singularityValue) ∧
      (k.horizon ≠ none → (k.interaction x y).1 = 0 → γ x y = 0) := by
  have pw : ∀ x y (a : ℝ), euclid2 k.dim x y ^ a = distance k.dim x y ^ (2 * a) := by
    intro x y a
    unfold distance
    rw [Real.sqrt_eq_rpow, ← Real.rpow_mul (euclid2_nonneg _ _ _)]
    ring_nf
  have sv : k.singularityValue = if k.boundary then 1 - (k.dim : ℝ) - 2 * k.s else -(k.dim : ℝ) - 2 * k.s := by
    unfold Kernel.singularityValue; rw [hk]
  rw [sv]
  unfold kernelFun
  rw [if_pos hk]
  by_cases hb : k.boundary = true
  · rw [if_pos hb]
    unfold fractionalBoundaryFun
    rw [if_pos hd, if_pos ht]
    have e : 2 * ((1 - (k.dim : ℝ)) / 2 - k.s) = 1 - k.dim - 2 * k.s := by ring
    cases h : k.horizon with
    | none => exact ⟨_, rfl, fun x y => ⟨fun _ => by simp only [if_pos hb]; rw [dist2_eq, pw, e], fun h => absurd rfl h⟩⟩
    | some a =>
      refine ⟨_, rfl, fun x y => ⟨fun h => ?_, fun _ h0 => by simp [within, h0]⟩⟩
      have h := h.resolve_left (by simp)
      simp only [within, if_pos h, if_pos hb, hi]
      rw [pw, e]
  · rw [if_neg hb]
    unfold fractionalFun
    rw [if_pos hd]
    have e : 2 * (-(k.dim : ℝ) / 2 - k.s) = -k.dim - 2 * k.s := by ring
    cases h : k.horizon with
    | none => exact ⟨_, rfl, fun x y => ⟨fun _ => by simp only [if_neg hb, if_pos ht]; rw [dist2_eq, pw, e], fun h => absurd rfl h⟩⟩
    | some a =>
      simp only [if_pos ht]
      refine ⟨_, rfl, fun x y => ⟨fun h => ?_, fun _ h0 => by simp [within, h0]⟩⟩
      have h := h.resolve_left (by simp)
      simp only [within, if_pos h, if_neg hb, hi]
      rw [pw, e]

example : ∃ γ, kernelFun halfLaplacian = some γ ∧ γ (fun _ => 0) corner = 3 * (√2) ^ (-3 : ℝ) := by
  obtain ⟨γ, h, hv⟩ := value halfLaplacian rfl (Or.inr (Or.inl rfl)) rfl (fun x y => by simp [halfLaplacian, fullSpace, dist2_eq])
  refine ⟨γ, h, ?_⟩
  rw [(hv _ _).1 (Or.inl rfl)]
  have : halfLaplacian.singularityValue = -3 := by norm_num [Kernel.singularityValue, halfLaplacian]
  rw [this]
  unfold distance
  have e : euclid2 halfLaplacian.dim (fun _ => 0) corner = 2 := euclid2_corner
  rw [e]
  rfl

/-- On squares the kernel of finite horizon is a power of the distance in the maximum norm instead. -/
theorem value_fails : ¬ ∀ k : Kernel, k.kind = .fractional → k.boundary = false → k.dim = 2 → k.tempered = 0 →
    (∃ h, k.horizon = some h ∧ k.interaction = ballInf k.dim h) →
    ∃ γ, kernelFun k = some γ ∧ ∀ x y, (k.interaction x y).1 ≠ 0 → γ x y = k.scaling * distance k.dim x y ^ k.singularityValue := by
  intro H
  obtain ⟨γ, h, hv⟩ := H ⟨.fractional, 2, false, some 2, ballInf 2 2, 1 / 2, 1, none, 0, 1, 0⟩ rfl rfl rfl rfl ⟨2, rfl, rfl⟩
  have : kernelFun ⟨.fractional, 2, false, some 2, ballInf 2 2, 1 / 2, 1, none, 0, 1, 0⟩ =
      some (within (ballInf 2 2) fun d2 => 1 * d2 ^ (-((2 : Nat) : ℝ) / 2 - 1 / 2)) := by
    simp [kernelFun, fractionalFun, Kernel.scaling]
  rw [h] at this
  obtain rfl := Option.some.inj this
  have h1 : (1 : ℝ) ≤ 2 * 2 := by norm_num
  have c := hv (fun _ => 0) corner (by simp [ballInf, distMax2_corner, h1])
  simp only [within, ballInf, distMax2_corner, if_pos h1, Kernel.scaling, Kernel.singularityValue, distance, euclid2_corner] at c
  have hlt : (√2 : ℝ) ^ (-((2 : Nat) : ℝ) - 2 * (1 / 2)) < 1 :=
    Real.rpow_lt_one_of_one_lt_of_neg (by rw [Real.lt_sqrt zero_le_one]; norm_num) (by norm_num)
  simp only [Bool.false_eq_true, if_false] at c
  rw [if_pos one_ne_zero, Real.one_rpow, one_mul, one_mul] at c
  rw [← c] at hlt
  exact absurd hlt (lt_irrefl _)

/-- The kernels are symmetric when the interaction domain is. -/
theorem symmetric (k : Kernel) (hi : ∀ x y, k.interaction x y = k.interaction y x) (γ : Point → Point → ℝ) (h : kernelFun k = some γ) (x y : Point) :
    γ x y = γ y x := by
  have w : ∀ f : ℝ → ℝ, within k.interaction f x y = within k.interaction f y x := by
    intro f; unfold within; rw [hi]
  have dd : ∀ d, dist2 d x y = dist2 d y x := by intro d; rw [dist2_eq, dist2_eq, euclid2_comm]
  unfold kernelFun fractionalFun fractionalBoundaryFun integrableFun integrableBoundaryFun at h
  repeat' (split at h)
  all_goals first
    | cases h; exact w _
    | cases h; simp only [dd]; done
    | cases h; simp only [dd]; exact w _
    | cases h

example (γ : Point → Point → ℝ) (h : kernelFun halfLaplacian = some γ) : γ unitVector corner = γ corner unitVector :=
  symmetric halfLaplacian (fun x y => by simp [halfLaplacian, fullSpace, dist2_eq, euclid2_comm]) γ h _ _

/-- A kernel of finite horizon vanishes outside of the interaction domain. -/
theorem vanishes (k : Kernel) (hh : k.horizon ≠ none) (hk : k.kind ≠ .logInverseDistance ∧ k.kind ≠ .monomial) (γ : Point → Point → ℝ)
    (h : kernelFun k = some γ) (x y : Point) (h0 : (k.interaction x y).1 = 0) : γ x y = 0 := by
  have w : ∀ f : ℝ → ℝ, within k.interaction f x y = 0 := by
    intro f; unfold within; rw [if_neg (by simp [h0])]
  unfold kernelFun fractionalFun fractionalBoundaryFun integrableFun integrableBoundaryFun at h
  repeat' (split at h)
  all_goals first
    | exact absurd ‹k.horizon = none› hh
    | exact absurd ‹k.kind = _› hk.1
    | exact absurd ‹k.kind = _› hk.2
    | cases h; exact w _
    | cases h

example (γ : Point → Point → ℝ) (h : kernelFun bell = some γ) : γ (fun _ => 0) (fun _ => 2) = 0 := by
  refine vanishes bell (by simp [bell]) ⟨by simp [bell], by simp [bell]⟩ γ h _ _ ?_
  have e : euclid2 2 (fun _ => (0 : ℝ)) (fun _ => 2) = 8 := by norm_num [euclid2]
  norm_num [bell, ball2, dist2_eq, e]

example : ∃ Γ, kernelFun decay.getBoundaryKernel = some Γ := by
  obtain ⟨_, Γ, _, h, _⟩ := exponential_divergence decay rfl rfl (Or.inr (Or.inl rfl)) rfl rfl (by norm_num [decay])
  exact ⟨Γ, h⟩

end PyNucleus.Props.C72
