import Mathlib.Analysis.SpecialFunctions.Complex.LogDeriv
import Mathlib.Analysis.SpecialFunctions.Complex.Log
import Mathlib.Tactic.NormNum
import Verif.Model.Solutions
import Verif.Proof.Laplace
import Verif.Proof.KernelScaling

/-!
C77: solutions and right-hand sides of the test problems belong together.
-/

namespace PyNucleus.Props.C77

open Solutions Spec Real

theorem laplacian_one {u : (Nat → ℝ) → ℝ} {x : Nat → ℝ} {a L : ℝ} (h0 : HasSecond u 0 x a) (h : a = L) :
    HasLaplacian 1 u x L :=
  ⟨fun _ => a, fun i hi => by obtain rfl : i = 0 := by omega
                              exact h0, by simpa using h⟩

theorem laplacian_two {u : (Nat → ℝ) → ℝ} {x : Nat → ℝ} {a b L : ℝ} (h0 : HasSecond u 0 x a) (h1 : HasSecond u 1 x b)
    (h : a + b = L) : HasLaplacian 2 u x L := by
  refine ⟨fun i => if i = 0 then a else b, fun i hi => ?_, by simpa [Finset.sum_range_succ] using h⟩
  match i, hi with
  | 0, _ => simpa using h0
  | 1, _ => simpa using h1

theorem laplacian_three {u : (Nat → ℝ) → ℝ} {x : Nat → ℝ} {a b c L : ℝ} (h0 : HasSecond u 0 x a) (h1 : HasSecond u 1 x b)
    (h2 : HasSecond u 2 x c) (h : a + b + c = L) : HasLaplacian 3 u x L := by
  refine ⟨fun i => if i = 0 then a else if i = 1 then b else c, fun i hi => ?_, by simpa [Finset.sum_range_succ] using h⟩
  match i, hi with
  | 0, _ => simpa using h0
  | 1, _ => simpa using h1
  | 2, _ => simpa using h2

/-- Sines and cosines in one dimension: eigenfunctions, and the right-hand side for the first. -/
theorem sin1D (k : Int) (x : Nat → ℝ) : HasLaplacian 1 (solSin1D 1) x (-rhsSin1D x) ∧
    HasLaplacian 1 (solSin1D k) x (-(k * π) ^ 2 * solSin1D k x) ∧
    HasLaplacian 1 (cos1D k) x (-(k * π) ^ 2 * cos1D k x) := by
  have hs : ∀ k : Int, HasSecond (solSin1D k) 0 x (-(k * π) ^ 2 * (1 * sin (k * π * x 0))) := fun k =>
    hasSecond_sin (k * π) 1 (by intro t; simp [solSin1D])
  refine ⟨laplacian_one (hs 1) ?_, laplacian_one (hs k) ?_, laplacian_one (hasSecond_cos (k * π) 1 ?_) ?_⟩
  · simp [rhsSin1D]
  · simp [solSin1D]
  · intro t
    simp [cos1D]
  · simp [cos1D]

/-- Sines in two dimensions. -/
theorem sin2D (k l : Int) (x : Nat → ℝ) : HasLaplacian 2 (solSin2D k l) x (-rhsSin2D k l x) := by
  refine laplacian_two (hasSecond_sin (k * π) (sin (l * π * x 1)) ?_) (hasSecond_sin (l * π) (sin (k * π * x 0)) ?_) ?_
  · intro t
    simp [solSin2D, mul_comm]
  · intro t
    simp [solSin2D]
  · simp only [rhsSin2D]
    ring

/-- Cosines in two dimensions. -/
theorem cos2D_laplacian (x : Nat → ℝ) : HasLaplacian 2 cos2D x (-rhsCos2D x) := by
  refine laplacian_two (hasSecond_cos π (cos (π * x 1)) ?_) (hasSecond_cos π (cos (π * x 0)) ?_) ?_
  · intro t
    simp [cos2D, mul_comm]
  · intro t
    simp [cos2D]
  · simp only [rhsCos2D]
    ring

/-- Sines in three dimensions. -/
theorem sin3D (k l m : Int) (x : Nat → ℝ) : HasLaplacian 3 (solSin3D 1 1 1) x (-rhsSin3D x) ∧
    HasLaplacian 3 (solSin3D k l m) x (-((k * π) ^ 2 + (l * π) ^ 2 + (m * π) ^ 2) * solSin3D k l m x) := by
  have hs : ∀ k l m : Int,
      HasLaplacian 3 (solSin3D k l m) x (-((k * π) ^ 2 + (l * π) ^ 2 + (m * π) ^ 2) * solSin3D k l m x) := by
    intro k l m
    refine laplacian_three (hasSecond_sin (k * π) (sin (l * π * x 1) * sin (m * π * x 2)) ?_)
      (hasSecond_sin (l * π) (sin (k * π * x 0) * sin (m * π * x 2)) ?_)
      (hasSecond_sin (m * π) (sin (k * π * x 0) * sin (l * π * x 1)) ?_) ?_
    · intro t
      simp only [solSin3D, Function.update_self, Function.update_of_ne (show (1 : Nat) ≠ 0 by decide),
        Function.update_of_ne (show (2 : Nat) ≠ 0 by decide)]
      ring
    · intro t
      simp only [solSin3D, Function.update_self, Function.update_of_ne (show (0 : Nat) ≠ 1 by decide),
        Function.update_of_ne (show (2 : Nat) ≠ 1 by decide)]
      ring
    · intro t
      simp only [solSin3D, Function.update_self, Function.update_of_ne (show (0 : Nat) ≠ 2 by decide),
        Function.update_of_ne (show (1 : Nat) ≠ 2 by decide)]
    · simp only [solSin3D]
      ring
  refine ⟨?_, hs k l m⟩
  have e : -rhsSin3D x = -(((1 : Int) * π) ^ 2 + ((1 : Int) * π) ^ 2 + ((1 : Int) * π) ^ 2) * solSin3D 1 1 1 x := by
    simp only [rhsSin3D, solSin3D, Int.cast_one, one_mul]
    ring
  rw [e]
  exact hs 1 1 1

/-- The boundary layer. -/
theorem boundaryLayer (radius c : ℝ) (x : Nat → ℝ) :
    HasLaplacian 2 (solBoundaryLayer radius c) x (-rhsBoundaryLayer radius c x) := by
  have hsq : ∀ a b : ℝ, √(a ^ 2 + b ^ 2) ^ 2 = a ^ 2 + b ^ 2 := fun a b => sq_sqrt (by positivity)
  refine laplacian_two (hasSecond_tanh (1 / 2) ((x 1 - 1 / 2) ^ 2 - radius ^ 2) c ?_)
    (hasSecond_tanh (1 / 2) ((x 0 - 1 / 2) ^ 2 - radius ^ 2) c ?_) ?_
  · intro t
    simp only [solBoundaryLayer, hsq, Function.update_self, Function.update_of_ne (show (1 : Nat) ≠ 0 by decide)]
    rw [show (t - 1 / 2) ^ 2 + ((x 1 - 1 / 2) ^ 2 - radius ^ 2) = (t - 1 / 2) ^ 2 + (x 1 - 1 / 2) ^ 2 - radius ^ 2 by ring]
  · intro t
    simp only [solBoundaryLayer, hsq, Function.update_self, Function.update_of_ne (show (0 : Nat) ≠ 1 by decide)]
    rw [show (t - 1 / 2) ^ 2 + ((x 0 - 1 / 2) ^ 2 - radius ^ 2) = (x 0 - 1 / 2) ^ 2 + (t - 1 / 2) ^ 2 - radius ^ 2 by ring]
  · simp only [rhsBoundaryLayer, hsq]
    rw [show (x 0 - 1 / 2) ^ 2 + ((x 1 - 1 / 2) ^ 2 - radius ^ 2) = (x 0 - 1 / 2) ^ 2 + (x 1 - 1 / 2) ^ 2 - radius ^ 2 by ring,
      show (x 1 - 1 / 2) ^ 2 + ((x 0 - 1 / 2) ^ 2 - radius ^ 2) = (x 0 - 1 / 2) ^ 2 + (x 1 - 1 / 2) ^ 2 - radius ^ 2 by ring]
    have := (cosh_pos (c * ((x 0 - 1 / 2) ^ 2 + (x 1 - 1 / 2) ^ 2 - radius ^ 2))).ne'
    field_simp
    ring

/-- The singularity at an edge. -/
theorem boundarySingularity (alpha : ℝ) (x : Nat → ℝ) (hx : 0 < x 0) :
    HasLaplacian 2 (solBoundarySingularity alpha) x (-rhsBoundarySingularity alpha x) := by
  refine laplacian_two (hasSecond_rpow alpha hx ?_) (hasSecond_const (x 0 ^ alpha) ?_) ?_
  · intro t
    simp [solBoundarySingularity]
  · intro t
    simp [solBoundarySingularity]
  · rw [rhsBoundarySingularity, if_pos hx]
    ring

/-- The singularity at a corner of a cube. -/
theorem fichera (x : Nat → ℝ) (hx : ¬(x 0 = 1 ∧ x 1 = 1 ∧ x 2 = 1)) : HasLaplacian 3 solFichera x (-rhsFichera x) := by
  set q := (x 0 - 1) ^ 2 + (x 1 - 1) ^ 2 + (x 2 - 1) ^ 2 with hq
  have hpos : 0 < q := by
    by_contra h
    apply hx
    have h0 := sq_nonneg (x 0 - 1)
    have h1 := sq_nonneg (x 1 - 1)
    have h2 := sq_nonneg (x 2 - 1)
    refine ⟨?_, ?_, ?_⟩ <;> refine sub_eq_zero.mp (pow_eq_zero_iff (n := 2) (by decide) |>.mp ?_) <;> linarith
  have e0 : (x 0 - 1) ^ 2 + ((x 1 - 1) ^ 2 + (x 2 - 1) ^ 2) = q := by ring
  have e1 : (x 1 - 1) ^ 2 + ((x 0 - 1) ^ 2 + (x 2 - 1) ^ 2) = q := by ring
  have e2 : (x 2 - 1) ^ 2 + ((x 0 - 1) ^ 2 + (x 1 - 1) ^ 2) = q := by ring
  refine laplacian_three (hasSecond_power 1 ((x 1 - 1) ^ 2 + (x 2 - 1) ^ 2) (1 / 4) (by rw [e0]; exact hpos) ?_)
    (hasSecond_power 1 ((x 0 - 1) ^ 2 + (x 2 - 1) ^ 2) (1 / 4) (by rw [e1]; exact hpos) ?_)
    (hasSecond_power 1 ((x 0 - 1) ^ 2 + (x 1 - 1) ^ 2) (1 / 4) (by rw [e2]; exact hpos) ?_) ?_
  · intro t
    simp only [solFichera, Function.update_self, Function.update_of_ne (show (1 : Nat) ≠ 0 by decide),
      Function.update_of_ne (show (2 : Nat) ≠ 0 by decide)]
    congr 1
    ring
  · intro t
    simp only [solFichera, Function.update_self, Function.update_of_ne (show (0 : Nat) ≠ 1 by decide),
      Function.update_of_ne (show (2 : Nat) ≠ 1 by decide)]
    congr 1
    ring
  · intro t
    simp only [solFichera, Function.update_self, Function.update_of_ne (show (0 : Nat) ≠ 2 by decide),
      Function.update_of_ne (show (1 : Nat) ≠ 2 by decide)]
    congr 1
    ring
  · rw [e0, e1, e2, rhsFichera, ← hq]
    have h1 : q ^ (1 / 4 - 1 : ℝ) = q * q ^ (1 / 4 - 1 - 1 : ℝ) := by
      conv_rhs => rw [mul_comm, ← rpow_add_one hpos.ne']
      congr 1
      ring
    rw [show (-(3 / 4) : ℝ) = 1 / 4 - 1 by norm_num, h1, hq]
    ring

/-- The angle of the corner singularity, away from the ray where it jumps. -/
theorem corner_im (x : Nat → ℝ) (hx : (⟨x 1 - 1, -x 0 + 1⟩ : ℂ) ∈ {z : ℂ | -z ∈ Complex.slitPlane}) :
    solCorner x = (Complex.exp (2 / 3 * (Complex.log (-(⟨x 1 - 1, -x 0 + 1⟩ : ℂ)) + π * Complex.I))).im := by
  set z : ℂ := ⟨x 1 - 1, -x 0 + 1⟩ with hz
  have hz0 : -z ≠ 0 := Complex.slitPlane_ne_zero hx
  have habs : √((x 1 - 1) ^ 2 + (-x 0 + 1) ^ 2) = ‖-z‖ := by
    rw [norm_neg, Complex.norm_def, Complex.normSq_apply]
    congr 1
    simp only [hz]
    ring
  have hlog : 2 / 3 * (Complex.log (-z) + π * Complex.I) =
      ((2 / 3 * Real.log ‖-z‖ : ℝ) : ℂ) + ((2 / 3 * (Complex.arg (-z) + π) : ℝ) : ℂ) * Complex.I := by
    conv_lhs => rw [Complex.log]
    push_cast
    ring
  have harg : (if arctan2 (-x 0 + 1) (x 1 - 1) < 0 then arctan2 (-x 0 + 1) (x 1 - 1) + 2 * π
      else arctan2 (-x 0 + 1) (x 1 - 1)) = Complex.arg (-z) + π := by
    have hjump : Complex.arg (-z) ≠ π := Complex.mem_slitPlane_iff_arg.mp hx |>.1
    change (if Complex.arg z < 0 then Complex.arg z + 2 * π else Complex.arg z) = _
    rcases lt_trichotomy z.im 0 with him | him | him
    · rw [if_pos (Complex.arg_neg_iff.mpr him), Complex.arg_neg_eq_arg_add_pi_of_im_neg him]
      ring
    · have hre : z.re < 0 := by
        by_contra h
        rcases Complex.mem_slitPlane_iff.mp hx with h' | h'
        · rw [Complex.neg_re] at h'
          exact h (by linarith)
        · rw [Complex.neg_im, him, neg_zero] at h'
          exact h' rfl
      have h1 : Complex.arg z = π := Complex.arg_eq_pi_iff.mpr ⟨hre, him⟩
      have h2 : Complex.arg (-z) = 0 := by
        rw [Complex.arg_eq_zero_iff]
        exact ⟨by rw [Complex.neg_re]; linarith, by rw [Complex.neg_im, him, neg_zero]⟩
      rw [h1, h2, if_neg (not_lt.mpr pi_pos.le), zero_add]
    · rw [if_neg (not_lt.mpr (Complex.arg_nonneg_iff.mpr him.le)), Complex.arg_neg_eq_arg_sub_pi_of_im_pos him]
      ring
  have key : solCorner x = ‖-z‖ ^ (2 / 3 : ℝ) * sin (2 / 3 * (Complex.arg (-z) + π)) := by
    rw [← harg, ← habs]
    rfl
  rw [key, hlog, Complex.exp_add, ← Complex.ofReal_exp, Complex.im_ofReal_mul, Complex.exp_ofReal_mul_I_im,
    rpow_def_of_pos (norm_pos_iff.mpr hz0), mul_comm (Real.log _)]

/-- The corner singularity is harmonic off the ray where the angle jumps, and vanishes on the two edges of the corner. -/
theorem corner (x : Nat → ℝ) : (¬(x 0 = 1 ∧ 1 ≤ x 1) → HasLaplacian 2 solCorner x 0) ∧
    (x 0 = 1 → 1 ≤ x 1 → solCorner x = 0) ∧ (x 1 = 1 → 1 < x 0 → solCorner x = 0) := by
  refine ⟨fun hx => ?_, fun h0 h1 => ?_, fun h1 h0 => ?_⟩
  · let U : Set ℂ := {z : ℂ | -z ∈ Complex.slitPlane}
    have hU : IsOpen U := Complex.isOpen_slitPlane.preimage continuous_neg
    let F : ℂ → ℂ := fun w => Complex.exp (2 / 3 * (Complex.log (-w) + π * Complex.I))
    let G : ℂ → ℂ := fun w => F w * (2 / 3) / w
    let H : ℂ → ℂ := fun w => F w * (2 / 3) * (2 / 3 - 1) / w ^ 2
    have hne : ∀ w ∈ U, w ≠ 0 := fun w hw => neg_ne_zero.mp (Complex.slitPlane_ne_zero hw)
    have hF : ∀ w ∈ U, HasDerivAt F (G w) w := by
      intro w hw
      have h1 : HasDerivAt (fun w : ℂ => Complex.log (-w)) (-1 / -w) w := ((hasDerivAt_id w).neg).clog hw
      refine (((h1.add_const (π * Complex.I)).const_mul (2 / 3)).cexp).congr_deriv ?_
      have := hne w hw
      simp only [G, F]
      field_simp
    have hG : ∀ w ∈ U, HasDerivAt G (H w) w := by
      intro w hw
      have := hne w hw
      refine (((hF w hw).mul_const (2 / 3)).div (hasDerivAt_id w) this).congr_deriv ?_
      simp only [G, H, id]
      field_simp
    have hmem : (⟨x 1 - 1, -x 0 + 1⟩ : ℂ) ∈ U := by
      change -(⟨x 1 - 1, -x 0 + 1⟩ : ℂ) ∈ Complex.slitPlane
      rw [Complex.mem_slitPlane_iff]
      simp only [Complex.neg_re, Complex.neg_im]
      by_contra h
      push Not at h
      exact hx ⟨by linarith [h.2], by linarith [h.1]⟩
    let z0 : ℝ → ℂ := fun t => ⟨x 1 - 1, -t + 1⟩
    let z1 : ℝ → ℂ := fun t => ⟨t - 1, -x 0 + 1⟩
    have e0 : z0 = fun t : ℝ => (t : ℂ) * (-Complex.I) + ⟨x 1 - 1, 1⟩ := by
      funext t
      apply Complex.ext <;> simp [z0]
    have e1 : z1 = fun t : ℝ => (t : ℂ) * 1 + ⟨-1, -x 0 + 1⟩ := by
      funext t
      apply Complex.ext <;> simp [z1]
      ring
    have d0 : ∀ t, HasDerivAt z0 (-Complex.I) t := by
      intro t
      rw [e0]
      simpa using ((Complex.ofRealCLM.hasDerivAt (x := t)).mul_const (-Complex.I)).add_const (⟨x 1 - 1, 1⟩ : ℂ)
    have d1 : ∀ t, HasDerivAt z1 1 t := by
      intro t
      rw [e1]
      simpa using ((Complex.ofRealCLM.hasDerivAt (x := t)).mul_const (1 : ℂ)).add_const (⟨-1, -x 0 + 1⟩ : ℂ)
    refine laplacian_two (hasSecond_im F G H (-Complex.I) z0 d0 U hU hmem hF hG ?_)
      (hasSecond_im F G H 1 z1 d1 U hU hmem hF hG ?_) ?_
    · have hev : ∀ᶠ t in nhds (x 0), z0 t ∈ U := (d0 (x 0)).continuousAt.eventually (hU.mem_nhds hmem)
      filter_upwards [hev] with t ht
      have := corner_im (Function.update x 0 t) (by simpa [U, z0] using ht)
      rw [this]
      simp [F, z0]
    · have hev : ∀ᶠ t in nhds (x 1), z1 t ∈ U := (d1 (x 1)).continuousAt.eventually (hU.mem_nhds hmem)
      filter_upwards [hev] with t ht
      have := corner_im (Function.update x 1 t) (by simpa [U, z1] using ht)
      rw [this]
      simp [F, z1]
    · have : z0 (x 0) = z1 (x 1) := rfl
      rw [this, mul_assoc, neg_mul_neg, Complex.I_mul_I]
      simp
  · have : Complex.arg ⟨x 1 - 1, -x 0 + 1⟩ = 0 := by
      rw [Complex.arg_eq_zero_iff]
      exact ⟨by simpa using h1, by simp [h0]⟩
    simp [solCorner, arctan2, this]
  · have harg : Complex.arg ⟨x 1 - 1, -x 0 + 1⟩ = -(π / 2) := by
      rw [Complex.arg_eq_neg_pi_div_two_iff]
      exact ⟨by simp [h1], by simpa using h0⟩
    have hneg : -(π / 2) < 0 := by linarith [pi_pos]
    have e : 2 / 3 * (-(π / 2) + 2 * π) = π := by ring
    simp only [solCorner, arctan2, harg, if_pos hneg, e, sin_pi, mul_zero]

theorem hasLaplacian_heat1 (c : ℝ) (x : Nat → ℝ) :
    HasLaplacian 1 (fun x => c * cos (π * x 0)) x (-π ^ 2 * (c * cos (π * x 0))) :=
  laplacian_one (hasSecond_cos π c (by intro t; simp)) rfl

theorem hasLaplacian_heat2 (c : ℝ) (x : Nat → ℝ) :
    HasLaplacian 2 (fun x => c * cos (π * x 0) * cos (π * x 1)) x (-(2 * π ^ 2) * (c * cos (π * x 0) * cos (π * x 1))) := by
  refine laplacian_two (hasSecond_cos π (c * cos (π * x 1)) ?_) (hasSecond_cos π (c * cos (π * x 0)) ?_) ?_
  · intro t
    simp only [Function.update_self, Function.update_of_ne (show (1 : Nat) ≠ 0 by decide)]
    ring
  · intro t
    simp only [Function.update_self, Function.update_of_ne (show (0 : Nat) ≠ 1 by decide)]
  · ring

/-- The heat equation: `u_t - Δu = f`. -/
theorem heat (t : ℝ) (x : Nat → ℝ) :
    (∃ ut L, HasDerivAt (fun t => solHeat1D t x) ut t ∧ HasLaplacian 1 (solHeat1D t) x L ∧ ut - L = rhsHeat1D t x) ∧
      ∃ ut L, HasDerivAt (fun t => solHeat2D t x) ut t ∧ HasLaplacian 2 (solHeat2D t) x L ∧ ut - L = rhsHeat2D t x := by
  refine ⟨⟨_, _, (hasDerivAt_sin t).mul_const _, hasLaplacian_heat1 _ x, ?_⟩,
    ⟨_, _, ((hasDerivAt_sin t).mul_const _).mul_const _, hasLaplacian_heat2 _ x, ?_⟩⟩
  · simp only [rhsHeat1D]
    ring
  · simp only [rhsHeat2D]
    ring

/-- The solution `sin t cos(πx) cos(πy)` and the second component `cos t cos(πx) cos(πy)` of the systems. -/
noncomputable def second (t : ℝ) (x : Nat → ℝ) : ℝ := cos t * cos (π * x 0) * cos (π * x 1)

/-- Time derivatives and Laplacians of both components. -/
theorem components (t : ℝ) (x : Nat → ℝ) :
    (HasDerivAt (fun t => solHeat2D t x) (second t x) t ∧ HasLaplacian 2 (solHeat2D t) x (-(2 * π ^ 2) * solHeat2D t x)) ∧
      HasDerivAt (fun t => second t x) (-solHeat2D t x) t ∧ HasLaplacian 2 (second t) x (-(2 * π ^ 2) * second t x) := by
  refine ⟨⟨((hasDerivAt_sin t).mul_const _).mul_const _, hasLaplacian_heat2 _ x⟩, ?_, hasLaplacian_heat2 _ x⟩
  refine (((hasDerivAt_cos t).mul_const (cos (π * x 0))).mul_const (cos (π * x 1))).congr_deriv ?_
  simp only [solHeat2D]
  ring

/-- Reaction diffusion equations `u_t - Δu = u^k + f` and the system `u_t - Δu = u^k - v^k + f`, `v_t - Δv = v^k - u^k + g`,
with `u = sin t cos(πx) cos(πy)`, `v = cos t cos(πx) cos(πy)`. -/
theorem nonlinear (pow : ℝ → ℝ → ℝ) (k t : ℝ) (x : Nat → ℝ) :
    ∃ ut vt Lu Lv, HasDerivAt (fun t => solHeat2D t x) ut t ∧ HasDerivAt (fun t => second t x) vt t ∧
      HasLaplacian 2 (solHeat2D t) x Lu ∧ HasLaplacian 2 (second t) x Lv ∧
      ut - Lu = pow (solHeat2D t x) k + rhsNonlinear pow k t x ∧
      ut - Lu = pow (solHeat2D t x) k - pow (second t x) k + rhsNonlinearU pow k t x ∧
      vt - Lv = pow (second t x) k - pow (solHeat2D t x) k + rhsNonlinearV pow k t x := by
  obtain ⟨⟨h1, h2⟩, h3, h4⟩ := components t x
  refine ⟨_, _, _, _, h1, h3, h2, h4, ?_, ?_, ?_⟩
  · simp only [rhsNonlinear, solHeat2D, second]
    ring
  · simp only [rhsNonlinearU, solHeat2D, second]
    ring
  · simp only [rhsNonlinearV, solHeat2D, second]
    ring

/-- The Gray-Scott system with the nonlinearity `gray_scott`. -/
theorem grayScott_system (F k Du Dv t : ℝ) (x : Nat → ℝ) :
    ∃ ut vt Lu Lv, HasDerivAt (fun t => solHeat2D t x) ut t ∧ HasDerivAt (fun t => second t x) vt t ∧
      HasLaplacian 2 (solHeat2D t) x Lu ∧ HasLaplacian 2 (second t) x Lv ∧
      ut - Du * Lu = (grayScott F k (solHeat2D t x) (second t x)).1 + rhsGrayScottU F Du t x ∧
      vt - Dv * Lv = (grayScott F k (solHeat2D t x) (second t x)).2 + rhsGrayScottV k F Dv t x := by
  obtain ⟨⟨h1, h2⟩, h3, h4⟩ := components t x
  refine ⟨_, _, _, _, h1, h3, h2, h4, ?_, ?_⟩
  · simp only [rhsGrayScottU, grayScott, solHeat2D, second]
    ring
  · simp only [rhsGrayScottV, grayScott, solHeat2D, second]
    ring

/-- `gray_scott_gradient` is the derivative of `gray_scott` in the direction of the last two inputs, `CahnHilliard_F_prime` is
the derivative of `CahnHilliard_F`. -/
theorem gradients (F k u v unew vnew w : ℝ) :
    HasDerivAt (fun h => (grayScott F k (u + h * unew) (v + h * vnew)).1) (grayScottGradient F k u v unew vnew).1 0 ∧
      HasDerivAt (fun h => (grayScott F k (u + h * unew) (v + h * vnew)).2) (grayScottGradient F k u v unew vnew).2 0 ∧
      HasDerivAt cahnHilliard (cahnHilliardPrime w) w := by
  have hu : HasDerivAt (fun h => u + h * unew) (1 * unew) 0 := ((hasDerivAt_id (0 : ℝ)).mul_const unew).const_add u
  have hv : HasDerivAt (fun h => v + h * vnew) (1 * vnew) 0 := ((hasDerivAt_id (0 : ℝ)).mul_const vnew).const_add v
  refine ⟨?_, ?_, ?_⟩
  · refine ((hu.neg.mul (hv.pow 2)).add ((hu.const_sub 1).const_mul F)).congr_deriv ?_
    simp [grayScottGradient]
    ring
  · refine ((hu.mul (hv.pow 2)).sub (hv.const_mul (F + k))).congr_deriv ?_
    simp [grayScottGradient]
    ring
  · refine (((((hasDerivAt_id w).pow 2).const_sub 1).pow 2).const_mul (1 / 4)).congr_deriv ?_
    simp [cahnHilliardPrime]
    ring

/-- `solFractionalDerivative` is the derivative of `solFractional` with respect to the order, off the sphere. -/
theorem derivative_partial (s : ℝ) (hs : 0 < s) (dim : Nat) (radius : ℝ) (hr : 0 < radius) (x : Nat → ℝ)
    (hx : norm2 dim x ≠ radius ^ 2) : ∃ D, solFractionalDerivative s dim radius x = some D ∧
      HasDerivAt (fun s => solFractional s dim radius x) D s := by
  have hR : 0 < radius ^ 2 := by positivity
  by_cases hle : norm2 dim x ≤ radius ^ 2
  · refine ⟨_, by simp only [solFractionalDerivative, if_neg hx, if_pos hle]; rfl, ?_⟩
    simp only [solFractional, if_pos hle]
    have hq : 0 < 1 - norm2 dim x / radius ^ 2 := by
      rw [sub_pos, div_lt_one hR]
      exact lt_of_le_of_ne hle hx
    have h1 : HasDerivAt (fun s : ℝ => (radius ^ 2) ^ s) ((radius ^ 2) ^ s * log (radius ^ 2)) s :=
      ((hasDerivAt_id s).const_rpow hR).congr_deriv (by simp only [id]; ring)
    have h2 : HasDerivAt (fun s : ℝ => (2 : ℝ) ^ (-2 * s)) (2 ^ (-2 * s) * log 2 * -2) s := by
      have := (hasDerivAt_linear (-2) s).const_rpow (show (0 : ℝ) < 2 by norm_num)
      exact this.congr_deriv (by ring)
    have h3 : HasDerivAt (fun s : ℝ => (1 - norm2 dim x / radius ^ 2) ^ s)
        ((1 - norm2 dim x / radius ^ 2) ^ s * log (1 - norm2 dim x / radius ^ 2)) s :=
      ((hasDerivAt_id s).const_rpow hq).congr_deriv (by simp only [id]; ring)
    have hp4 : 0 < ((dim : ℝ) + 2 * s) / 2 := by positivity
    have hp5 : 0 < 1 + s := by positivity
    have h4 : HasDerivAt (fun s : ℝ => Gamma ((dim + 2 * s) / 2))
        (Gamma ((dim + 2 * s) / 2) * KernelScaling.digamma ((dim + 2 * s) / 2)) s := by
      have hin : HasDerivAt (fun s : ℝ => ((dim : ℝ) + 2 * s) / 2) 1 s :=
        (((hasDerivAt_linear 2 s).const_add (dim : ℝ)).div_const 2).congr_deriv (by norm_num)
      exact ((KernelScaling.hasDerivAt_Gamma (KernelScaling.pos_ne_neg hp4)).comp s hin).congr_deriv (mul_one _)
    have h5 : HasDerivAt (fun s : ℝ => Gamma (1 + s)) (Gamma (1 + s) * KernelScaling.digamma (1 + s)) s :=
      ((KernelScaling.hasDerivAt_Gamma (KernelScaling.pos_ne_neg hp5)).comp s ((hasDerivAt_id s).const_add 1)).congr_deriv
        (mul_one _)
    have hg4 := (Gamma_pos_of_pos hp4).ne'
    have hg5 := (Gamma_pos_of_pos hp5).ne'
    refine ((((((h1.mul h2).mul_const (Gamma (dim / 2))).div h4 hg4).div h5 hg5).mul h3).congr_of_eventuallyEq
      (Filter.Eventually.of_forall fun t => rfl)).congr_deriv ?_
    have hlog : log (1 / 4 * radius ^ 2) = log (radius ^ 2) - 2 * log 2 := by
      rw [log_mul (by norm_num) hR.ne', show (1 / 4 : ℝ) = (2 ^ 2)⁻¹ by norm_num, log_inv, log_pow]
      push_cast
      ring
    have hdig : (1 / 2 : ℝ) * dim + s = (dim + 2 * s) / 2 := by ring
    rw [hlog, hdig]
    simp only [fracFac, Pi.mul_apply, Pi.div_apply]
    field_simp
    ring
  · refine ⟨0, by simp only [solFractionalDerivative, if_neg hx, if_neg hle], ?_⟩
    simp only [solFractional, if_neg hle]
    exact hasDerivAt_const s 0

theorem norm2_eq (dim : Nat) (x : Nat → ℝ) : norm2 dim x = ∑ i ∈ Finset.range dim, x i ^ 2 := by
  unfold norm2
  induction dim with
  | zero => simp
  | succ n ih => rw [List.range_succ, List.foldl_append, ih, Finset.sum_range_succ]; simp

/-- The solution on a ball of any radius is the scaled solution on the unit ball. -/
theorem scaling (s : ℝ) (dim : Nat) (radius : ℝ) (hr : 0 < radius) (x : Nat → ℝ) :
    solFractional s dim radius x = radius ^ (2 * s) * solFractional s dim 1 fun i => x i / radius := by
  have hR : 0 < radius ^ 2 := by positivity
  have hn : norm2 dim (fun i => x i / radius) = norm2 dim x / radius ^ 2 := by
    rw [norm2_eq, norm2_eq, Finset.sum_div]
    exact Finset.sum_congr rfl fun i _ => div_pow _ _ _
  simp only [solFractional, hn, one_pow, div_one, div_le_one hR]
  split
  · have : (radius ^ 2) ^ s = radius ^ (2 * s) := by
      rw [← rpow_natCast radius 2, ← rpow_mul hr.le]
      norm_num
    simp only [fracFac, this, one_rpow]
    ring
  · rw [mul_zero]

/-- The families of solutions with Jacobi polynomials contain `solFractional`: for the polynomial of degree 0 the right-hand side
is constant, and dividing the solution by it gives the solution for the right-hand side 1. -/
theorem families (jacobi : Nat → ℝ → ℝ → ℝ → ℝ) (hj : ∀ a b z, jacobi 0 a b z = 1) (s : ℝ) (hs : 0 < s) (x : Nat → ℝ) :
    (x 0 ^ 2 ≤ 1 → rhsFractional1D jacobi s 0 x ≠ 0 ∧
      solFractional1D jacobi s 0 x = rhsFractional1D jacobi s 0 x * solFractional s 1 1 x) ∧
      (x 0 ^ 2 + x 1 ^ 2 ≤ 1 → rhsFractional2D jacobi s 0 0 0 x ≠ 0 ∧
        solFractional2D jacobi s 0 0 0 x = rhsFractional2D jacobi s 0 0 0 x * solFractional s 2 1 x) := by
  have g1 := (Gamma_pos_of_pos (show 0 < 1 / 2 + s by positivity)).ne'
  have g2 := (Gamma_pos_of_pos (show 0 < 1 + s by positivity)).ne'
  have g3 := (Gamma_pos_of_pos (show (0 : ℝ) < 1 / 2 by positivity)).ne'
  have p1 : (2 : ℝ) ^ (2 * s) ≠ 0 := (rpow_pos_of_pos (by norm_num) _).ne'
  have p2 : (2 : ℝ) ^ (-2 * s) = ((2 : ℝ) ^ (2 * s))⁻¹ := by rw [← rpow_neg (by norm_num)]; ring_nf
  have hsq : (1 : ℝ) ^ 2 = 1 := one_pow 2
  constructor
  · intro h
    have hn : norm2 1 x = x 0 ^ 2 := by simp [norm2]
    simp only [rhsFractional1D, solFractional1D, solFractional, hn, if_pos h, hsq, hj, fracFac, one_rpow, p2, div_one,
      Nat.cast_zero, add_zero, Gamma_one, Nat.cast_one, mul_one, one_mul,
      show ((1 : ℝ) + 2 * s) / 2 = 1 / 2 + s by ring]
    refine ⟨by positivity, ?_⟩
    field_simp
  · intro h
    have hn : norm2 2 x = x 0 ^ 2 + x 1 ^ 2 := by simp [norm2, List.range_succ]
    simp only [rhsFractional2D, solFractional2D, solFractional, hn, if_pos h, hsq, hj, fracFac, one_rpow, p2, div_one,
      Nat.cast_zero, add_zero, Gamma_one, Nat.cast_ofNat, mul_one, one_mul, mul_zero, zero_mul, cos_zero, rpow_zero,
      show ((2 : ℝ) + 2 * s) / 2 = 1 + s by ring, show (2 : ℝ) / 2 = 1 by norm_num]
    refine ⟨by positivity, ?_⟩
    field_simp

/-- Operators that are homogeneous and send `solFractional` to 1 at the point. The fractional Laplacian of order `s` does for
the points of the ball. -/
structure Fits (L : ((Nat → ℝ) → ℝ) → (Nat → ℝ) → ℝ) (s : ℝ) (dim : Nat) (radius : ℝ) (x : Nat → ℝ) : Prop where
  homogeneous : ∀ (c : ℝ) (f : (Nat → ℝ) → ℝ), L (fun x => c * f x) x = c * L f x
  one : L (solFractional s dim radius) x = 1

/-- The system `u_t + Lu = u² - v² + f`, `v_t + Lv = v² - u² + g` with `u = sin t w`, `v = cos t w`. -/
theorem fractional_system (L : ((Nat → ℝ) → ℝ) → (Nat → ℝ) → ℝ) (s : ℝ) (dim : Nat) (radius t : ℝ) (x : Nat → ℝ)
    (hL : Fits L s dim radius x) :
    ∃ ut vt, HasDerivAt (fun t => sin t * solFractional s dim radius x) ut t ∧
      HasDerivAt (fun t => cos t * solFractional s dim radius x) vt t ∧
      ut + L (fun x => sin t * solFractional s dim radius x) x =
        (sin t * solFractional s dim radius x) ^ 2 - (cos t * solFractional s dim radius x) ^ 2 + rhsTestU s dim t radius x ∧
      vt + L (fun x => cos t * solFractional s dim radius x) x =
        (cos t * solFractional s dim radius x) ^ 2 - (sin t * solFractional s dim radius x) ^ 2 + rhsTestV s dim t radius x := by
  refine ⟨_, _, (hasDerivAt_sin t).mul_const _, (hasDerivAt_cos t).mul_const _, ?_, ?_⟩
  · rw [hL.homogeneous, hL.one]
    simp only [rhsTestU]
    ring
  · rw [hL.homogeneous, hL.one]
    simp only [rhsTestV]
    ring

/-- The residuals of the Brusselator system `u_t + L₁u = f(u, v)₁ + rhsU`, `η²v_t + L₂v = f(u, v)₂ + rhsV` with the nonlinearity
`brusselator`, `u = η sin t w₁`, `v = cos 2t w₂/η`. -/
theorem brusselator_residual (L1 L2 : ((Nat → ℝ) → ℝ) → (Nat → ℝ) → ℝ) (s1 s2 B Q eta : ℝ) (dim : Nat) (radius t : ℝ)
    (x : Nat → ℝ) (h1 : Fits L1 s1 dim radius x) (h2 : Fits L2 s2 dim radius x) :
    ∃ ut vt, HasDerivAt (fun t => eta * sin t * solFractional s1 dim radius x) ut t ∧
      HasDerivAt (fun t => cos (2 * t) / eta * solFractional s2 dim radius x) vt t ∧
      ut + L1 (fun x => eta * sin t * solFractional s1 dim radius x) x -
          ((brusselator B Q (eta * sin t * solFractional s1 dim radius x)
            (cos (2 * t) / eta * solFractional s2 dim radius x)).1 + rhsBrusselatorU s1 s2 B Q eta dim t radius x) =
        eta * sin t * (1 - 1 / radius ^ (2 * s1)) ∧
      eta ^ 2 * vt + L2 (fun x => cos (2 * t) / eta * solFractional s2 dim radius x) x -
          ((brusselator B Q (eta * sin t * solFractional s1 dim radius x)
            (cos (2 * t) / eta * solFractional s2 dim radius x)).2 + rhsBrusselatorV s1 s2 B Q eta dim t radius x) =
        cos (2 * t) / eta * (1 - 1 / radius ^ (2 * s2)) := by
  have hc : HasDerivAt (fun t : ℝ => cos (2 * t)) (-sin (2 * t) * 2) t := (hasDerivAt_linear 2 t).cos
  refine ⟨_, _, ((hasDerivAt_sin t).const_mul eta).mul_const _, (hc.div_const eta).mul_const _, ?_, ?_⟩
  · rw [h1.homogeneous, h1.one]
    simp only [rhsBrusselatorU, brusselator]
    ring
  · rw [h2.homogeneous, h2.one]
    simp only [rhsBrusselatorV, brusselator]
    ring

/-- On the unit ball the Brusselator system is solved. -/
theorem brusselator_partial (L1 L2 : ((Nat → ℝ) → ℝ) → (Nat → ℝ) → ℝ) (s1 s2 B Q eta : ℝ) (dim : Nat) (t : ℝ)
    (x : Nat → ℝ) (h1 : Fits L1 s1 dim 1 x) (h2 : Fits L2 s2 dim 1 x) :
    ∃ ut vt, HasDerivAt (fun t => eta * sin t * solFractional s1 dim 1 x) ut t ∧
      HasDerivAt (fun t => cos (2 * t) / eta * solFractional s2 dim 1 x) vt t ∧
      ut + L1 (fun x => eta * sin t * solFractional s1 dim 1 x) x =
        (brusselator B Q (eta * sin t * solFractional s1 dim 1 x) (cos (2 * t) / eta * solFractional s2 dim 1 x)).1 +
          rhsBrusselatorU s1 s2 B Q eta dim t 1 x ∧
      eta ^ 2 * vt + L2 (fun x => cos (2 * t) / eta * solFractional s2 dim 1 x) x =
        (brusselator B Q (eta * sin t * solFractional s1 dim 1 x) (cos (2 * t) / eta * solFractional s2 dim 1 x)).2 +
          rhsBrusselatorV s1 s2 B Q eta dim t 1 x := by
  obtain ⟨ut, vt, hu, hv, e1, e2⟩ := brusselator_residual L1 L2 s1 s2 B Q eta dim 1 t x h1 h2
  refine ⟨ut, vt, hu, hv, ?_, ?_⟩
  · simp only [one_rpow] at e1
    linarith
  · simp only [one_rpow] at e2
    linarith

/-! ### Cases -/

/-- An operator that fits at the origin. -/
theorem fits_origin (s : ℝ) (hs : 0 < s) (radius : ℝ) (hr : 0 < radius) :
    Fits (fun f _ => f (fun _ => 0) / solFractional s 1 radius fun _ => 0) s 1 radius fun _ => 0 := by
  have hR : 0 < radius ^ 2 := by positivity
  have g1 := Gamma_pos_of_pos (show 0 < ((1 : ℝ) + 2 * s) / 2 by positivity)
  have g2 := Gamma_pos_of_pos (show 0 < 1 + s by positivity)
  have g3 := Gamma_pos_of_pos (show (0 : ℝ) < 1 / 2 by positivity)
  have hpos : 0 < solFractional s 1 radius fun _ => 0 := by
    simp only [solFractional, norm2, List.range_one, List.foldl_cons, List.foldl_nil, zero_pow two_ne_zero, add_zero,
      if_pos hR.le, zero_div, sub_zero, one_rpow, mul_one, fracFac, Nat.cast_one]
    positivity
  exact ⟨fun c f => mul_div_assoc _ _ _, div_self hpos.ne'⟩

example : HasLaplacian 2 solCorner (fun _ => 0) 0 := (corner _).1 (by norm_num)

example : HasLaplacian 3 solFichera (fun _ => 0) (-rhsFichera fun _ => 0) := fichera _ (by norm_num)

/-! ### Defects -/

/-- On balls of other radii the right-hand side of the Brusselator system is scaled although the solution is already. -/
theorem brusselator_fails : ∃ (L : ((Nat → ℝ) → ℝ) → (Nat → ℝ) → ℝ) (s B Q eta radius t : ℝ) (x : Nat → ℝ),
    Fits L s 1 radius x ∧ ∀ ut, HasDerivAt (fun t => eta * sin t * solFractional s 1 radius x) ut t →
      ut + L (fun x => eta * sin t * solFractional s 1 radius x) x ≠
        (brusselator B Q (eta * sin t * solFractional s 1 radius x) (cos (2 * t) / eta * solFractional s 1 radius x)).1 +
          rhsBrusselatorU s s B Q eta 1 t radius x := by
  refine ⟨_, 1 / 2, 1, 1, 1, 2, π / 2, fun _ => 0, fits_origin (1 / 2) (by norm_num) 2 (by norm_num), fun ut hu h => ?_⟩
  have hf := fits_origin (1 / 2) (by norm_num) 2 (by norm_num)
  obtain ⟨ut', vt', hu', -, e, -⟩ := brusselator_residual _ _ (1 / 2) (1 / 2) 1 1 1 1 2 (π / 2) (fun _ => 0) hf hf
  rw [hu'.unique hu, h, sub_self, sin_pi_div_two] at e
  norm_num at e

/-- `_grad_cos2d_n` is not the normal derivative of `_cos2D`. -/
theorem normal_fails : ∃ x : Nat → ℝ, x 0 = 1 ∧ ∃ D, HasDerivAt (fun t => cos2D (Function.update x 0 t)) D (x 0) ∧
    gradCos2Dn x ≠ D := by
  refine ⟨fun i => if i = 0 then 1 else 0, rfl, 0, ?_, ?_⟩
  · have e : (fun t => cos2D (Function.update (fun i => if i = 0 then (1 : ℝ) else 0) 0 t)) = fun t => cos (π * t) := by
      funext t
      simp [cos2D]
    rw [e]
    exact ((hasDerivAt_linear π 1).cos).congr_deriv (by simp)
  · simp only [gradCos2Dn, if_true, one_ne_zero, if_false, cos_zero, mul_one]
    exact (neg_neg_of_pos (sin_pos_of_pos_of_lt_pi one_pos (by linarith [two_le_pi]))).ne

/-- The derivative with respect to the order has no value on the sphere, where the function is 0 for all orders. -/
theorem derivative_fails : ∃ x : Nat → ℝ, solFractionalDerivative (1 / 2) 1 1 x = none ∧
    ∀ s : ℝ, 0 < s → solFractional s 1 1 x = 0 := by
  refine ⟨fun _ => 1, by simp [solFractionalDerivative, norm2], fun s hs => ?_⟩
  simp [solFractional, norm2, zero_rpow hs.ne']

end PyNucleus.Props.C77
