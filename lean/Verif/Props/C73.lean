import Mathlib.Data.List.GetD
import Verif.Proof.KernelScaling

/-!
C73: kernels of derivatives with respect to the fractional order.
-/

namespace PyNucleus.Props.C73

open Kernels KernelScaling

theorem eval_one (k : FractionalKernel) (x y : Point) {v : ℝ} (h : k.fac x y = some v) (ho : k.derivative ≤ 2) :
    k.eval [1] x y = some [v] := by
  unfold FractionalKernel.eval
  rw [h, Option.bind_some]
  have : k.derivative = 0 ∨ k.derivative = 1 ∨ k.derivative = 2 := by omega
  rcases this with h | h | h <;> simp [h]

theorem dist2_pos {d : Nat} {x y : Point} (h : dist2 d x y ≠ 0) : 0 < dist2 d x y := by
  have key : ∀ (l : List Nat) (a : ℝ), 0 ≤ a → 0 ≤ l.foldl (fun d2 i => d2 + (x i - y i) ^ 2) a := by
    intro l
    induction l with
    | nil => exact fun a h => h
    | cons i l ih => exact fun a h => ih _ (by positivity)
  exact lt_of_le_of_ne (key _ 0 le_rfl) (Ne.symm h)

theorem eval_eq (k : FractionalKernel) (grad : List ℝ) (x y : Point) {v : ℝ} (h : k.fac x y = some v) :
    k.eval grad x y = if k.derivative = 0 then some [v]
      else if k.derivative = 1 then some (grad.map fun g => g * v)
      else if k.derivative = 2 then some (grad.flatMap fun gi => grad.map fun gj => v * gi * gj)
      else none := by
  unfold FractionalKernel.eval
  rw [h, Option.bind_some]

/-- The kernels that `getFractionalKernel` returns for the derivatives 1 and 2 are the first and second derivative of the
kernel with respect to the order: for interior and boundary kernels, normalised or not, of finite and infinite horizon. -/
theorem derivative (d : Nat) (hd : d = 1 ∨ d = 2 ∨ d = 3) (horizon : Option ℝ) (hh : ∀ h, horizon = some h → 0 < h)
    (normalized boundary : Bool) (x y : Point) (hxy : dist2 d x y ≠ 0) :
    ∃ f : Nat → ℝ → ℝ, ∀ s, 0 < s → s < 1 →
      (∀ order ≤ 2, (getFractionalKernel d s horizon normalized boundary order 0).eval [1] x y = some [f order s]) ∧
        HasDerivAt (f 0) (f 1 s) s ∧ HasDerivAt (f 1) (f 2 s) s := by
  refine ⟨valueOf d horizon normalized boundary x y, fun s h0 h1 => ⟨fun order ho => ?_, ?_⟩⟩
  · exact eval_one _ x y (kernel_fac d hd horizon normalized boundary hh h0 h1 x y ho) ho
  · exact valueOf_deriv d horizon normalized boundary hh h0 h1 x y (dist2_pos hxy)

/-- A derivative that does not vanish: second derivative of an unnormalised kernel at two points of distance 2. -/
example : (getFractionalKernel 1 (1 / 2) none false false 2 0).eval [1] (fun _ => 0) (fun _ => 2) =
    some [(1 / 2) * Real.log 4 ^ 2 * (1 / 4)] := by
  have hu : dist2 1 (fun _ => 0) (fun _ => 2) = 4 := by norm_num [dist2]
  have e := kernel_fac 1 (Or.inl rfl) none false false (by simp) (s := 1 / 2) (by norm_num) (by norm_num) (fun _ => 0)
    (fun _ => 2) (le_refl 2)
  rw [eval_one _ _ _ e (le_refl 2)]
  simp only [valueOf, inside, bfac, scalingOf, derivativeC, derivativeFac, hessianFac, expo, hu, Bool.false_eq_true, if_false,
    Bool.not_false, if_true]
  have : (4 : ℝ) ^ (-((1 : ℕ) : ℝ) / 2 - 1 / 2) = 1 / 4 := by
    rw [show (-((1 : ℕ) : ℝ) / 2 - 1 / 2) = -1 by norm_num, Real.rpow_neg_one]
    norm_num
  rw [this]
  norm_num

/-- The scaling for variable orders gives the same kernels as the one for constant orders. -/
theorem variable_eq (d : Nat) (hd : d = 1 ∨ d = 2 ∨ d = 3) (horizon : Option ℝ) (hh : ∀ h, horizon = some h → 0 < h)
    (normalized boundary : Bool) (x y : Point) (hxy : dist2 d x y ≠ 0) (grad : List ℝ) (s : ℝ) (h0 : 0 < s) (h1 : s < 1)
    (order : Nat) (ho : order ≤ 2) :
    ∃ v, (getVariableKernel d s horizon normalized boundary order 0).eval grad x y = some v ∧
      (getFractionalKernel d s horizon normalized boundary order 0).eval grad x y = some v := by
  have e1 := variable_fac d hd horizon normalized boundary hh s x y (dist2_pos hxy) ho
  have e2 := kernel_fac d hd horizon normalized boundary hh h0 h1 x y ho
  unfold FractionalKernel.eval
  rw [e1, e2, Option.bind_some, Option.bind_some]
  have : order = 0 ∨ order = 1 ∨ order = 2 := by omega
  rcases this with rfl | rfl | rfl <;> simp [getVariableKernel, getFractionalKernel]

/-- Chain rule: when `grad` are the partial derivatives of an order with respect to its parameters `θ`, the entries of the
derivative kernel are the partial derivatives of the kernel. -/
theorem gradient (d : Nat) (hd : d = 1 ∨ d = 2 ∨ d = 3) (horizon : Option ℝ) (hh : ∀ h, horizon = some h → 0 < h)
    (normalized boundary : Bool) (x y : Point) (hxy : dist2 d x y ≠ 0) (order : (Nat → ℝ) → ℝ) (θ : Nat → ℝ)
    (h0 : 0 < order θ) (h1 : order θ < 1) (grad : List ℝ)
    (hg : ∀ i (hi : i < grad.length), HasDerivAt (fun t => order (Function.update θ i t)) grad[i] (θ i)) :
    ∃ vec : List ℝ, (getVariableKernel d (order θ) horizon normalized boundary 1 0).eval grad x y = some vec ∧
      vec.length = grad.length ∧
      ∀ i (hi : i < vec.length), ∃ f : ℝ → ℝ,
        (∀ t, (getVariableKernel d (order (Function.update θ i t)) horizon normalized boundary 0 0).eval grad x y =
          some [f t]) ∧ HasDerivAt f vec[i] (θ i) := by
  have hu := dist2_pos hxy
  refine ⟨grad.map fun g => g * valueOf d horizon normalized boundary x y 1 (order θ), ?_, by simp, ?_⟩
  · unfold FractionalKernel.eval
    rw [variable_fac d hd horizon normalized boundary hh _ x y hu (by omega : 1 ≤ 2), Option.bind_some]
    simp [getVariableKernel]
  · intro i hi
    rw [List.length_map] at hi
    refine ⟨fun t => valueOf d horizon normalized boundary x y 0 (order (Function.update θ i t)), fun t => ?_, ?_⟩
    · unfold FractionalKernel.eval
      rw [variable_fac d hd horizon normalized boundary hh _ x y hu (by omega : 0 ≤ 2), Option.bind_some]
      simp [getVariableKernel]
    · have hv := (valueOf_deriv d horizon normalized boundary hh h0 h1 x y hu).1
      have hθ : order (Function.update θ i (θ i)) = order θ := by rw [Function.update_eq_self]
      rw [← hθ] at hv
      have := hv.comp (θ i) (hg i hi)
      rw [List.getElem_map]
      refine this.congr_deriv ?_
      rw [hθ]
      ring

/-- When the order is an affine function of its parameters, which is the case for all orders of the code that have a
gradient, the entries of the Hessian kernel are the partial derivatives of the entries of the derivative kernel. -/
theorem hessian (d : Nat) (hd : d = 1 ∨ d = 2 ∨ d = 3) (horizon : Option ℝ) (hh : ∀ h, horizon = some h → 0 < h)
    (normalized boundary : Bool) (x y : Point) (hxy : dist2 d x y ≠ 0) (order : (Nat → ℝ) → ℝ) (θ : Nat → ℝ)
    (h0 : 0 < order θ) (h1 : order θ < 1) (grad : List ℝ)
    (hg : ∀ j (hj : j < grad.length) t, order (Function.update θ j t) = order θ + grad[j] * (t - θ j)) :
    ∃ mat : List ℝ, (getVariableKernel d (order θ) horizon normalized boundary 2 0).eval grad x y = some mat ∧
      mat.length = grad.length * grad.length ∧
      ∀ i < grad.length, ∀ j < grad.length, ∃ f : ℝ → List ℝ,
        (∀ t, (getVariableKernel d (order (Function.update θ j t)) horizon normalized boundary 1 0).eval grad x y =
          some (f t)) ∧ HasDerivAt (fun t => (f t).getD i 0) (mat.getD (i * grad.length + j) 0) (θ j) := by
  have hu := dist2_pos hxy
  refine ⟨grad.flatMap fun gi => grad.map fun gj => valueOf d horizon normalized boundary x y 2 (order θ) * gi * gj,
    ?_, ?_, ?_⟩
  · unfold FractionalKernel.eval
    rw [variable_fac d hd horizon normalized boundary hh _ x y hu (by omega : 2 ≤ 2), Option.bind_some]
    simp [getVariableKernel]
  · simp [List.length_flatMap]
  · intro i hi j hj
    refine ⟨fun t => grad.map fun g => g * valueOf d horizon normalized boundary x y 1 (order (Function.update θ j t)),
      fun t => ?_, ?_⟩
    · unfold FractionalKernel.eval
      rw [variable_fac d hd horizon normalized boundary hh _ x y hu (by omega : 1 ≤ 2), Option.bind_some]
      simp [getVariableKernel]
    · have hmat : ∀ (c : ℝ) (l : List ℝ) (i : Nat), i < l.length →
          (l.flatMap fun gi => grad.map fun gj => c * gi * gj).getD (i * grad.length + j) 0 =
            c * l.getD i 0 * grad.getD j 0 := by
        intro c l
        induction l with
        | nil => intro i hi; simp at hi
        | cons a l ih =>
          intro i hi
          rw [List.flatMap_cons]
          cases i with
          | zero =>
            rw [Nat.zero_mul, Nat.zero_add, List.getD_append _ _ _ _ (by simpa using hj), List.getD_eq_getElem _ _ (by simpa using hj),
              List.getD_eq_getElem _ _ hj]
            simp
          | succ i =>
            rw [List.getD_append_right _ _ _ _ (by rw [List.length_map, Nat.succ_mul]; omega), List.length_map,
              show (i + 1) * grad.length + j - grad.length = i * grad.length + j by rw [Nat.succ_mul]; omega,
              ih i (by simpa using hi)]
            simp
      rw [hmat _ _ _ hi]
      have hv := (valueOf_deriv d horizon normalized boundary hh h0 h1 x y hu).2
      have hθ : order (Function.update θ j (θ j)) = order θ := by rw [Function.update_eq_self]
      have hs : HasDerivAt (fun t => order (Function.update θ j t)) grad[j] (θ j) := by
        have e : (fun t => order (Function.update θ j t)) = fun t => order θ + grad[j] * (t - θ j) := by
          funext t
          exact hg j hj t
        rw [e]
        have := (((hasDerivAt_id (θ j)).sub_const (θ j)).const_mul grad[j]).const_add (order θ)
        simpa using this
      rw [← hθ] at hv
      have := (hv.comp (θ j) hs).const_mul (grad.getD i 0)
      refine (this.congr_of_eventuallyEq ?_).congr_deriv ?_
      · filter_upwards with t
        rw [List.getD_eq_getElem _ _ (by simpa using hi), List.getD_eq_getElem _ _ hi, List.getElem_map]
        rfl
      · rw [hθ, List.getD_eq_getElem _ _ hj]
        ring

/-- The hypotheses of `gradient` and `hessian` hold for an order that is a mean of two parameters (`linearStep`). -/
example : ∃ (order : (Nat → ℝ) → ℝ) (θ : Nat → ℝ) (grad : List ℝ), grad = [3 / 4, 1 / 4] ∧
    order θ = 7 / 16 ∧
    (∀ j (hj : j < grad.length) t, order (Function.update θ j t) = order θ + grad[j] * (t - θ j)) ∧
    ∀ i (hi : i < grad.length), HasDerivAt (fun t => order (Function.update θ i t)) grad[i] (θ i) := by
  have haff : ∀ j (hj : j < [(3 : ℝ) / 4, 1 / 4].length) t,
      (fun v : Nat → ℝ => 3 / 4 * v 0 + 1 / 4 * v 1) (Function.update (fun i => if i = 0 then 1 / 2 else 1 / 4) j t) =
        (fun v : Nat → ℝ => 3 / 4 * v 0 + 1 / 4 * v 1) (fun i => if i = 0 then 1 / 2 else 1 / 4) +
          [(3 : ℝ) / 4, 1 / 4][j] * (t - (fun i => if i = 0 then 1 / 2 else 1 / 4) j) := by
    intro j hj t
    have hj : j < 2 := hj
    have : j = 0 ∨ j = 1 := by omega
    rcases this with rfl | rfl
    · norm_num [Function.update]
      ring
    · norm_num [Function.update]
      ring
  refine ⟨fun v => 3 / 4 * v 0 + 1 / 4 * v 1, fun i => if i = 0 then 1 / 2 else 1 / 4, [3 / 4, 1 / 4], rfl, by norm_num,
    haff, ?_⟩
  intro i hi
  have e := funext (haff i hi)
  rw [e]
  have := (((hasDerivAt_id ((fun i => if i = 0 then 1 / 2 else 1 / 4 : Nat → ℝ) i)).sub_const
    ((fun i => if i = 0 then 1 / 2 else 1 / 4 : Nat → ℝ) i)).const_mul [(3 : ℝ) / 4, 1 / 4][i]).const_add
      ((fun v : Nat → ℝ => 3 / 4 * v 0 + 1 / 4 * v 1) (fun i => if i = 0 then 1 / 2 else 1 / 4))
  simpa using this

/-- `getDerivativeKernel` and `getHessianKernel` of the kernels of `getFractionalKernel`. -/
theorem getDerivativeKernel_partial (d : Nat) (s : ℝ) (horizon : Option ℝ) (normalized : Bool) (order : Nat)
    (ho : order = 1 ∨ order = 2) (x y : Point) (grad : List ℝ) (hd : d = 1 ∨ d = 2 ∨ d = 3) (h0 : 0 < s) (h1 : s < 1)
    (hh : ∀ h, horizon = some h → 0 < h) :
    ∃ k v, (getFractionalKernel d s horizon normalized false 0 0).getDerivativeKernel order = some k ∧
      k.eval grad x y = some v ∧ (getFractionalKernel d s horizon normalized false order 0).eval grad x y = some v := by
  have ho2 : order ≤ 2 := by omega
  have h3 : order ≠ 0 := by omega
  have e2 := kernel_fac d hd horizon normalized false hh h0 h1 x y ho2
  obtain ⟨k, hk, hf, ho'⟩ : ∃ k, (getFractionalKernel d s horizon normalized false 0 0).getDerivativeKernel order = some k ∧
      k.fac x y = some (valueOf d horizon normalized false x y order s) ∧ k.derivative = order := by
    cases normalized with
    | true =>
      have : (getFractionalKernel d s horizon true false 0 0).getDerivativeKernel order =
          some (getFractionalKernel d s horizon true false order 0) := by
        simp [FractionalKernel.getDerivativeKernel, FractionalKernel.derivativeScaling, FractionalKernel.scaling,
          getFractionalKernel, h3]
      exact ⟨_, this, e2, rfl⟩
    | false =>
      have : (getFractionalKernel d s horizon false false 0 0).getDerivativeKernel order =
          some { getFractionalKernel d s horizon false false order 0 with
            scalingPrePhi := .derivative d s none false false order 0 } := by
        simp [FractionalKernel.getDerivativeKernel, FractionalKernel.derivativeScaling, FractionalKernel.scaling,
          getFractionalKernel]
      refine ⟨_, this, ?_, rfl⟩
      refine fac_eq _ hd rfl rfl x y ?_
      rcases ho with rfl | rfl <;>
        simp [getFractionalKernel, Scaling.eval, derivativeValue, scalingOf, derivativeC, derivativeFac, hessianFac]
  rcases ho with rfl | rfl
  · refine ⟨k, grad.map fun g => g * valueOf d horizon normalized false x y 1 s, hk, ?_, ?_⟩
    · rw [eval_eq k grad x y hf, ho']
      simp
    · rw [eval_eq _ grad x y e2]
      simp [getFractionalKernel]
  · refine ⟨k, grad.flatMap fun gi => grad.map fun gj => valueOf d horizon normalized false x y 2 s * gi * gj, hk, ?_, ?_⟩
    · rw [eval_eq k grad x y hf, ho']
      simp
    · rw [eval_eq _ grad x y e2]
      simp [getFractionalKernel]

/-- The boundary kernel of a derivative kernel is the derivative of the boundary kernel. -/
theorem boundary_of_derivative (d : Nat) (s : ℝ) (horizon : Option ℝ) (normalized : Bool) (order : Nat) (ho : order ≠ 0) :
    (getFractionalKernel d s horizon normalized false order 0).getBoundaryKernel =
      some (getFractionalKernel d s horizon normalized true order 0) := by
  simp [FractionalKernel.getBoundaryKernel, FractionalKernel.scaling, getFractionalKernel, ho]

/-- `getDerivativeKernel` of a normalised boundary kernel is not its derivative: the product of `1/s` and the normalisation
has the type `constantTwoPoint`, for which the scaling 1/2 is used. -/
theorem boundary_fails : ∃ k : FractionalKernel,
    (getFractionalKernel 1 (1 / 2) (some 2) true true 0 0).getDerivativeKernel 1 = some k ∧
      k.eval [1] (fun _ => 0) (fun _ => 1) ≠
        (getFractionalKernel 1 (1 / 2) (some 2) true true 1 0).eval [1] (fun _ => 0) (fun _ => 1) := by
  have hpos : ∀ h, (some (2 : ℝ)) = some h → 0 < h := by
    intro h hh
    cases hh
    norm_num
  have hu : dist2 1 (fun _ => 0) (fun _ => 1) = 1 := by norm_num [dist2]
  have hl := laplacian_eq 1 (some 2) hpos (s := 1 / 2) (by norm_num) (by norm_num)
  have hk : (getFractionalKernel 1 (1 / 2) (some 2) true true 0 0).getDerivativeKernel 1 =
      some { getFractionalKernel 1 (1 / 2) (some 2) true true 1 0 with
        scalingPrePhi := .derivative 1 (1 / 2) none false true 1 0 } := by
    simp only [FractionalKernel.getDerivativeKernel, FractionalKernel.derivativeScaling, FractionalKernel.scaling,
      getFractionalKernel, if_true, hl, Option.map_some]
  refine ⟨_, hk, ?_⟩
  have e1 := kernel_fac 1 (Or.inl rfl) (some 2) true true hpos (s := 1 / 2) (by norm_num) (by norm_num) (fun _ => 0)
    (fun _ => 1) (by omega : 1 ≤ 2)
  have e2 := fac_eq { getFractionalKernel 1 (1 / 2) (some 2) true true 1 0 with
        scalingPrePhi := .derivative 1 (1 / 2) none false true 1 0 } (Or.inl rfl) rfl rfl (fun _ => 0) (fun _ => 1)
    (v := (1 / 2) * (-Real.log 1 + -1 / (1 / 2)))
    (by simp [Scaling.eval, derivativeValue, getFractionalKernel, hu, derivativeC, derivativeFac])
  rw [eval_one _ _ _ e1 (by simp [getFractionalKernel]), eval_one _ _ _ e2 (by simp [getFractionalKernel])]
  intro h
  have h := List.head_eq_of_cons_eq (Option.some.inj h)
  have hC : derivativeC 1 (1 / 2) (some 2) true 0 = 1 / 4 := by
    have := variableC_eq 1 (Or.inl rfl) (1 / 2) (some 2) true
    simp only [variableC, if_true] at this
    rw [← Option.some.inj this, show ((1 : ℝ) / 2 - 1) = -(1 / 2) by norm_num, Real.rpow_neg (by norm_num), ← Real.sqrt_eq_rpow,
      Real.sqrt_sq (by norm_num)]
    norm_num
  simp only [valueOf, scalingOf, hu, Real.one_rpow, Real.log_one, hC, getFractionalKernel, bfac, if_true, derivativeFac,
    Bool.not_true, Bool.false_eq_true, if_false] at h
  have hin : inside 1 (some 2) (fun _ => 0) (fun _ => 1) = 1 := by
    simp only [inside, hu]
    norm_num
  rw [hin] at h
  have hlog : 0 < Real.log (2 ^ 2) := Real.log_pos (by norm_num)
  norm_num at h
  norm_num at hlog
  linarith

/-- A kernel with the scaling `constantTwoPoint(1)`: the derivative kernel is half of the derivative. -/
theorem scaling_fails : ∃ (k : ℝ → FractionalKernel) (f : ℝ → ℝ) (k' : FractionalKernel) (g : ℝ),
    (∀ s, k s = { getFractionalKernel 1 s none false false 0 0 with scalingPrePhi := .const 1 }) ∧
      (∀ s, (k s).eval [1] (fun _ => 0) (fun _ => 2) = some [f s]) ∧ (k (1 / 2)).getDerivativeKernel 1 = some k' ∧
      k'.eval [1] (fun _ => 0) (fun _ => 2) = some [g] ∧ ¬HasDerivAt f g (1 / 2) := by
  have hu : dist2 1 (fun _ => 0) (fun _ => 2) = 4 := by norm_num [dist2]
  refine ⟨fun s => { getFractionalKernel 1 s none false false 0 0 with scalingPrePhi := .const 1 },
    fun s => 1 * (1 * (4 : ℝ) ^ (-(1 : ℝ) / 2 - s)), { getFractionalKernel 1 (1 / 2) none false false 1 0 with
      scalingPrePhi := .derivative 1 (1 / 2) none false false 1 0 },
    1 * (1 * ((1 / 2) * (-Real.log 4 + 0)) * (4 : ℝ) ^ (-(1 : ℝ) / 2 - 1 / 2)), fun s => rfl, ?_, ?_, ?_, ?_⟩
  · intro s
    have e := fac_eq { getFractionalKernel 1 s none false false 0 0 with scalingPrePhi := .const 1 } (Or.inl rfl) rfl rfl
      (fun _ => 0) (fun _ => 2) (v := 1) rfl
    rw [eval_one _ _ _ e (by simp [getFractionalKernel])]
    simp [getFractionalKernel, inside, bfac, expo, hu]
  · simp [FractionalKernel.getDerivativeKernel, FractionalKernel.derivativeScaling, FractionalKernel.scaling,
      getFractionalKernel]
  · have e := fac_eq { getFractionalKernel 1 (1 / 2) none false false 1 0 with
      scalingPrePhi := .derivative 1 (1 / 2) none false false 1 0 } (Or.inl rfl) rfl rfl (fun _ => 0) (fun _ => 2)
      (v := (1 / 2) * (-Real.log 4 + 0))
      (by simp [Scaling.eval, derivativeValue, getFractionalKernel, hu, derivativeC, derivativeFac])
    rw [eval_one _ _ _ e (by simp [getFractionalKernel])]
    simp [getFractionalKernel, inside, bfac, expo, hu]
  · intro h
    have h2 := hasDerivAt_first (c := fun _ => (1 : ℝ)) (a := fun _ => 0) (s := 1 / 2) (u := 4) (e := -(1 : ℝ) / 2) (w := 1)
      (by norm_num) (by simpa using hasDerivAt_const (1 / 2 : ℝ) (1 : ℝ))
    have h3 := h.unique h2
    have hlog : 0 < Real.log 4 := Real.log_pos (by norm_num)
    have hp : 0 < (4 : ℝ) ^ (-(1 : ℝ) / 2 - 1 / 2) := by positivity
    nlinarith [mul_pos hlog hp]

/-- The duplication formula, differentiated. -/
theorem digamma_double {x : ℝ} (hx : ∀ m : ℕ, x ≠ -m) (hx2 : ∀ m : ℕ, x + 1 / 2 ≠ -m) (hx3 : ∀ m : ℕ, 2 * x ≠ -m) :
    2 * digamma (2 * x) = digamma x + digamma (x + 1 / 2) + 2 * Real.log 2 := by
  have h1 := hasDerivAt_Gamma hx
  have h2 : HasDerivAt (fun t => Real.Gamma (t + 1 / 2)) (Real.Gamma (x + 1 / 2) * digamma (x + 1 / 2)) x := by
    have := (hasDerivAt_Gamma hx2).comp x ((hasDerivAt_id x).add_const (1 / 2))
    simpa [Function.comp_def] using this
  have h3 : HasDerivAt (fun t => Real.Gamma (2 * t)) (Real.Gamma (2 * x) * digamma (2 * x) * 2) x := by
    have := (hasDerivAt_Gamma hx3).comp x ((hasDerivAt_id x).const_mul 2)
    simpa [Function.comp_def] using this
  have h4 : HasDerivAt (fun t : ℝ => (2 : ℝ) ^ (1 - 2 * t)) ((2 : ℝ) ^ (1 - 2 * x) * (-2 * Real.log 2)) x := by
    have := (((hasDerivAt_id x).const_mul 2).const_sub 1).const_rpow (by norm_num : (0 : ℝ) < 2)
    simp only [id] at this
    refine this.congr_deriv ?_
    ring
  have hl := h1.mul h2
  have hr := (h3.mul h4).mul_const (√Real.pi)
  have heq : (Real.Gamma * fun t => Real.Gamma (t + 1 / 2)) =
      fun t => ((fun t => Real.Gamma (2 * t)) * fun t : ℝ => (2 : ℝ) ^ (1 - 2 * t)) t * √Real.pi := by
    funext t
    simp only [Pi.mul_apply]
    exact Real.Gamma_mul_Gamma_add_half t
  rw [heq] at hl
  have hu := hl.unique hr
  have hne := mul_ne_zero (Real.Gamma_ne_zero hx) (Real.Gamma_ne_zero hx2)
  have hx' := Real.Gamma_mul_Gamma_add_half x
  have e : Real.Gamma x * Real.Gamma (x + 1 / 2) * (digamma x + digamma (x + 1 / 2)) =
      Real.Gamma x * Real.Gamma (x + 1 / 2) * (2 * digamma (2 * x) - 2 * Real.log 2) := by
    calc _ = _ := by
          rw [show Real.Gamma x * Real.Gamma (x + 1 / 2) * (digamma x + digamma (x + 1 / 2)) =
            Real.Gamma x * digamma x * Real.Gamma (x + 1 / 2) + Real.Gamma x * (Real.Gamma (x + 1 / 2) * digamma (x + 1 / 2)) by
              ring, hu]
      _ = Real.Gamma (2 * x) * (2 : ℝ) ^ (1 - 2 * x) * √Real.pi * (2 * digamma (2 * x) - 2 * Real.log 2) := by ring
      _ = _ := by rw [← hx']
  have := mul_left_cancel₀ hne e
  linarith

/-- Normalised tempered kernels of infinite horizon: the kernel for the derivative 1 is not the derivative. -/
theorem tempered_fails : ∃ (f : ℝ → ℝ) (g : ℝ),
    (∀ s, 0 < s → s < 1 / 2 →
      (getFractionalKernel 2 s none true false 0 1).eval [1] (fun _ => 0) (fun i => if i = 0 then 1 else 0) = some [f s]) ∧
      (getFractionalKernel 2 (1 / 4) none true false 1 1).eval [1] (fun _ => 0) (fun i => if i = 0 then 1 else 0) = some [g] ∧
      ¬HasDerivAt f g (1 / 4) := by
  have hu : dist2 2 (fun _ => 0) (fun i => if i = 0 then 1 else 0) = 1 := by norm_num [dist2, List.range_succ]
  have hpi := Real.pi_pos
  have hexp := Real.exp_pos (-1 : ℝ)
  refine ⟨fun s => 1 / |Real.Gamma (-2 * s)| * (1 / Real.pi * (1 / 2) * (1 / 2) * Real.exp (-1)),
    1 / |Real.Gamma (-2 * (1 / 4))| * (1 / Real.pi * (1 / 2) * (1 / 2) * Real.exp (-1)) *
      (Real.log 4 + digamma (1 / 4 + 1) + digamma (-(1 / 4))), ?_, ?_, ?_⟩
  · intro s h0 h1
    have hs : ¬(1 < s ∧ s < 2) := by rintro ⟨h, -⟩; linarith
    have hs' : ¬(s ≤ 0 ∨ 1 ≤ s) := by rintro (h | h) <;> linarith
    have hs2 : s ≠ 1 / 2 := by linarith
    have hl : laplacianValue 2 s none 1 =
        some (1 / |Real.Gamma (-2 * s)| / Real.pi * (1 / 2) * (1 / 2)) := by
      simp only [laplacianValue, hs, if_false, hs', reduceCtorEq, false_and, exists_false, one_ne_zero, hs2,
        or_self, Nat.cast_ofNat]
      rw [show (1 / 2 : ℝ) * 2 = 1 by norm_num, Real.Gamma_one, Real.rpow_one]
    have e : (getFractionalKernel 2 s none true false 0 1).fac (fun _ => 0) (fun i => if i = 0 then 1 else 0) =
        some (1 / |Real.Gamma (-2 * s)| * (1 / Real.pi * (1 / 2) * (1 / 2) * Real.exp (-1))) := by
      simp only [FractionalKernel.fac, getFractionalKernel, if_true, Scaling.eval, hl, Option.bind_some, kernelFun,
        fractionalFun, Bool.false_eq_true, if_false, one_ne_zero, hu, Kernel.scaling, Option.map_some, Real.one_rpow,
        Real.sqrt_one, or_true, true_or, OfNat.ofNat_ne_one]
      congr 1
      ring_nf
    exact eval_one _ _ _ e (by simp [getFractionalKernel])
  · have e : (getFractionalKernel 2 (1 / 4) none true false 1 1).fac (fun _ => 0) (fun i => if i = 0 then 1 else 0) =
        some (1 / |Real.Gamma (-2 * (1 / 4))| * (1 / Real.pi * (1 / 2) * (1 / 2) * Real.exp (-1)) *
          (Real.log 4 + digamma (1 / 4 + 1) + digamma (-(1 / 4)))) := by
      have h4 : ¬((1 : ℝ) / 4 = 1 / 2) := by norm_num
      simp only [FractionalKernel.fac, getFractionalKernel, if_true, Scaling.eval, derivativeValue, derivativeC,
        derivativeFac, Option.bind_some, kernelFun, Bool.not_false, h4,
        fractionalFun, Bool.false_eq_true, if_false, one_ne_zero, hu, Kernel.scaling, Option.map_some, Real.one_rpow,
        Real.sqrt_one, or_true, true_or, OfNat.ofNat_ne_one, or_self, Real.log_one, Nat.cast_ofNat]
      rw [show (1 / 2 : ℝ) * 2 = 1 by norm_num, Real.Gamma_one, Real.rpow_one]
      congr 1
      ring_nf
    exact eval_one _ _ _ e (by simp [getFractionalKernel])
  · intro h
    have hn : ∀ m : ℕ, (-2 * (1 / 4 : ℝ)) ≠ -m := by
      intro m hm
      have h2 : (1 : ℝ) = 2 * m := by linarith
      have h3 : (1 : ℕ) = 2 * m := by exact_mod_cast h2
      omega
    have hneg : Real.Gamma (-2 * (1 / 4)) < 0 := by
      have h2 := Real.Gamma_add_one (s := -(1 / 2)) (by norm_num)
      rw [show (-(1 / 2 : ℝ) + 1) = 1 / 2 by norm_num] at h2
      have h3 := Real.Gamma_pos_of_pos (by norm_num : (0 : ℝ) < 1 / 2)
      rw [show (-2 * (1 / 4 : ℝ)) = -(1 / 2) by norm_num]
      linarith
    have hG : HasDerivAt (fun t => Real.Gamma (-2 * t)) (Real.Gamma (-2 * (1 / 4)) * digamma (-2 * (1 / 4)) * -2) (1 / 4) := by
      have := (hasDerivAt_Gamma hn).comp (1 / 4 : ℝ) ((hasDerivAt_id (1 / 4 : ℝ)).const_mul (-2))
      simpa [Function.comp_def] using this
    have hev : ∀ᶠ t in nhds (1 / 4 : ℝ), Real.Gamma (-2 * t) < 0 := hG.continuousAt.eventually_lt_const hneg
    have hf : HasDerivAt (fun s => 1 / |Real.Gamma (-2 * s)| * (1 / Real.pi * (1 / 2) * (1 / 2) * Real.exp (-1)))
        (1 / |Real.Gamma (-2 * (1 / 4))| * (1 / Real.pi * (1 / 2) * (1 / 2) * Real.exp (-1)) * (2 * digamma (-2 * (1 / 4))))
        (1 / 4) := by
      have h3 := ((hG.neg).inv (by linarith : -Real.Gamma (-2 * (1 / 4)) ≠ 0)).mul_const
        (1 / Real.pi * (1 / 2) * (1 / 2) * Real.exp (-1))
      refine (h3.congr_of_eventuallyEq ?_).congr_deriv ?_
      · filter_upwards [hev] with t ht
        rw [abs_of_neg ht]
        simp
      · rw [abs_of_neg hneg]
        have := hneg.ne
        simp only [Pi.neg_apply]
        field_simp
    have h5 := h.unique hf
    have hA : 0 < 1 / |Real.Gamma (-2 * (1 / 4))| * (1 / Real.pi * (1 / 2) * (1 / 2) * Real.exp (-1)) := by
      have : 0 < |Real.Gamma (-2 * (1 / 4))| := abs_pos.mpr hneg.ne
      positivity
    have h6 := mul_left_cancel₀ hA.ne' h5
    have hd := digamma_double (x := -(1 / 4)) (neg_ne_neg (by norm_num) (by norm_num))
      (pos_ne_neg (by norm_num)) (by rw [show (2 * -(1 / 4 : ℝ)) = -2 * (1 / 4) by norm_num]; exact hn)
    rw [show (2 * -(1 / 4 : ℝ)) = -2 * (1 / 4) by norm_num, show (-(1 / 4 : ℝ) + 1 / 2) = 1 / 4 by norm_num] at hd
    have h7 := digamma_add_one (x := 1 / 4) (pos_ne_neg (by norm_num))
    have h8 : Real.log 4 = 2 * Real.log 2 := by
      rw [show (4 : ℝ) = 2 ^ 2 by norm_num, Real.log_pow]
      norm_num
    rw [h7, h8] at h6
    have : (1 : ℝ) / (1 / 4) = 4 := by norm_num
    rw [this] at h6
    linarith

end PyNucleus.Props.C73
