import Verif.Proof.SimplexGeometry
import Verif.Props.C55
import Mathlib.Analysis.Real.Sqrt
import Mathlib.LinearAlgebra.Matrix.Determinant.Basic
import Mathlib.Algebra.Order.Ring.Rat
import Mathlib.Tactic.FinCases

/-!
# C56: volumes, gradients and inner products of simplices

Full statement: for every nondegenerate simplex the volume routines return the volume, the routines for gradients return the gradients of the
barycentric coordinates, the inner products are the scaled inner products of these gradients, and so the local mass, stiffness and drift
matrices are the integrals over the simplex.

The gradients returned by the classes `simplexComputations` have the wrong sign for one of the two orientations of a simplex (`gradient1_fails`,
`gradient2_fails`, `gradient3_fails`), and so have the drift matrices (`drift1_fails`, `drift2_fails`).
-/

namespace PyNucleus.Props.C56

open PyNucleus.SimplexGeometry PyNucleus.LocalMatrices PyNucleus.ShapeFunctions MvPolynomial
open PyNucleus.Simplex (IsGradient inner upper mean)
open PyNucleus.Props.C55 (IsShape)

variable {K : Type} [Field K] [LinearOrder K] [IsStrictOrderedRing K]

/-- Determinant of the edges from vertex 0. -/
def edgeDet (d : Nat) (x : Coords K) : K := Matrix.det (Matrix.of fun i j : Fin d => x (i + 1) j - x 0 j)

private theorem edgeDet2 (x : Coords K) : edgeDet 2 x = det2 x := by
  unfold edgeDet det2 diff
  rw [Matrix.det_fin_two]
  simp

private theorem edgeDet3 (x : Coords K) : edgeDet 3 x = det3 x := by
  unfold edgeDet det3
  rw [Matrix.det_fin_three, dot_three]
  simp [cross, diff]
  ring

/-- All routines return `|det| / d!`. -/
theorem volume (x : Coords K) :
    (simplexVolume1D x = |edgeDet 1 x| ∧ volume1Dsimplex x = |edgeDet 1 x| ∧ (gradients 1 x).1 = |edgeDet 1 x|) ∧
    (simplexVolume2D x = |edgeDet 2 x| / 2 ∧ volume2Dsimplex x = |edgeDet 2 x| / 2 ∧ (simplexVolumeAndProducts2D x).1 = |edgeDet 2 x| / 2 ∧
      (simplexVolumeGradientsProducts2D x).1 = |edgeDet 2 x| / 2 ∧ (gradients 2 x).1 = |edgeDet 2 x| / 2) ∧
    simplexVolume3D x = |edgeDet 3 x| / 6 ∧ volume3Dsimplex x = |edgeDet 3 x| / 6 ∧ (simplexVolumeAndProducts3D x).1 = |edgeDet 3 x| / 6 ∧
      (simplexVolumeGradientsProducts3D x).1 = |edgeDet 3 x| / 6 ∧ (gradients 3 x).1 = |edgeDet 3 x| / 6 := by
  have h1 : edgeDet 1 x = x 1 0 - x 0 0 := by unfold edgeDet; simp
  obtain ⟨a1, a2, a3, a4⟩ := volume2_eq x
  obtain ⟨b1, b2, b3, b4⟩ := volume3_eq x
  rw [h1, edgeDet2, edgeDet3]
  exact ⟨⟨rfl, rfl, abs_sub_comm _ _⟩, ⟨a3, a4, a2, a1, a1⟩, b3, b4, b2, b1, b1⟩

/-- Square root. -/
def IsSqrt (sqrt : K → K) : Prop := ∀ a, 0 ≤ a → 0 ≤ sqrt a ∧ sqrt a ^ 2 = a

example : IsSqrt Real.sqrt := fun a ha => ⟨Real.sqrt_nonneg a, Real.sq_sqrt ha⟩

/-- Simplices in a space of higher dimension: the volume is nonnegative and its square is the Gram determinant of the edges divided by `d!²`. -/
theorem volume_embedded (sqrt : K → K) (hq : IsSqrt sqrt) (x : Coords K) :
    (∀ v ∈ [simplexVolume1Din2D sqrt x, volume1Din2Dsimplex sqrt x], 0 ≤ v ∧ v ^ 2 = inner 2 (diff x 1 0) (diff x 1 0)) ∧
    (0 ≤ volume1Din3Dsimplex sqrt x ∧ volume1Din3Dsimplex sqrt x ^ 2 = inner 3 (diff x 1 0) (diff x 1 0)) ∧
    ∀ v ∈ [simplexVolume2Din3D sqrt x, volume2Din3Dsimplex sqrt x, (simplexVolumeAndProducts2Din3D sqrt x).1], 0 ≤ v ∧
      v ^ 2 = (inner 3 (diff x 1 0) (diff x 1 0) * inner 3 (diff x 2 0) (diff x 2 0) - inner 3 (diff x 1 0) (diff x 2 0) ^ 2) / 4 := by
  simp only [← dot_eq, dot_two, dot_three]
  refine ⟨?_, ?_, ?_⟩
  · have h := hq _ (add_nonneg (mul_self_nonneg (diff x 1 0 0)) (mul_self_nonneg (diff x 1 0 1)))
    simp only [List.mem_cons, List.not_mem_nil, or_false, forall_eq_or_imp, forall_eq]
    refine ⟨?_, h⟩
    unfold simplexVolume1Din2D
    rw [pow_two, pow_two]
    exact h
  · exact hq _ (add_nonneg (add_nonneg (mul_self_nonneg (diff x 1 0 0)) (mul_self_nonneg (diff x 1 0 1))) (mul_self_nonneg (diff x 1 0 2)))
  · have key : ∀ a v : K, 0 ≤ a → v = sqrt a * (1 / 2) → 0 ≤ v ∧ v ^ 2 = a / 4 := fun a v ha hv => by
      obtain ⟨h1, h2⟩ := hq a ha
      refine ⟨hv ▸ by positivity, ?_⟩
      rw [hv, mul_pow, h2]
      ring
    simp only [List.mem_cons, List.not_mem_nil, or_false, forall_eq_or_imp, forall_eq]
    refine ⟨?_, ?_, ?_⟩
    · obtain ⟨h1, h2⟩ := key _ _ (by rw [dot_three]; nlinarith [mul_self_nonneg (cross (diff x 1 0) (diff x 2 0) 0), mul_self_nonneg (cross (diff x 1 0) (diff x 2 0) 1), mul_self_nonneg (cross (diff x 1 0) (diff x 2 0) 2)]) (rfl : simplexVolume2Din3D sqrt x = _)
      refine ⟨h1, h2.trans ?_⟩
      rw [dot_three]
      simp only [cross]
      ring
    · have h0 := add_nonneg (add_nonneg (sq_nonneg ((x 1 1 - x 0 1) * (x 2 2 - x 0 2) - (x 1 2 - x 0 2) * (x 2 1 - x 0 1)))
        (sq_nonneg ((x 1 0 - x 0 0) * (x 2 2 - x 0 2) - (x 1 2 - x 0 2) * (x 2 0 - x 0 0)))) (sq_nonneg ((x 1 0 - x 0 0) * (x 2 1 - x 0 1) - (x 1 1 - x 0 1) * (x 2 0 - x 0 0)))
      obtain ⟨h1, h2⟩ := key _ (volume2Din3Dsimplex sqrt x) h0 (by unfold volume2Din3Dsimplex; dsimp only; rw [abs_of_nonneg h0])
      refine ⟨h1, h2.trans ?_⟩
      simp only [diff]
      ring
    · obtain ⟨h1, h2⟩ := key _ _ (by rw [dot_three]; nlinarith [mul_self_nonneg (cross (diff x 0 2) (diff x 1 0) 0), mul_self_nonneg (cross (diff x 0 2) (diff x 1 0) 1), mul_self_nonneg (cross (diff x 0 2) (diff x 1 0) 2)]) (rfl : (simplexVolumeAndProducts2Din3D sqrt x).1 = _)
      refine ⟨h1, h2.trans ?_⟩
      rw [dot_three]
      simp only [cross, diff]
      ring

/-- Inner products in two dimensions. -/
theorem products2 (x g : Nat → Nat → K) (h : IsGradient 2 2 x g) :
    (simplexVolumeAndProducts2D x).2 = ((upper 3).map fun q => (2 * (simplexVolumeAndProducts2D x).1) ^ 2 * inner 2 (g q.1) (g q.2)) ∧
    (simplexVolumeGradientsProducts2D x).2.2 = (upper 3).map fun q => (2 * (simplexVolumeGradientsProducts2D x).1) ^ 2 * inner 2 (g q.1) (g q.2) := by
  have hg := (isGradient_iff 2 2 x g).1 h
  have e := rotated_eq x g hg
  have hu : upper 3 = [(0, 0), (0, 1), (0, 2), (1, 1), (1, 2), (2, 2)] := by decide
  rw [(volume2_eq x).1, (volume2_eq x).2.1, hu]
  have hv : (2 * (|det2 x| / 2)) ^ 2 = det2 x ^ 2 := by rw [mul_div_cancel₀ _ (two_ne_zero), sq_abs]
  have hp : (simplexVolumeAndProducts2D x).2 = (simplexVolumeGradientsProducts2D x).2.2 := by
    simp only [simplexVolumeAndProducts2D, simplexVolumeGradientsProducts2D, products3, dot_two, rotated, List.cons.injEq, and_true]
    refine ⟨by ring, by ring, by ring, by ring, by ring, by ring⟩
  have hm : (simplexVolumeGradientsProducts2D x).2.2 = [(0, 0), (0, 1), (0, 2), (1, 1), (1, 2), (2, 2)].map fun q : Nat × Nat => det2 x ^ 2 * inner 2 (g q.1) (g q.2) := by
    show products3 2 ((simplexVolumeGradientsProducts2D x).2.1 0) ((simplexVolumeGradientsProducts2D x).2.1 1) ((simplexVolumeGradientsProducts2D x).2.1 2) = _
    simp only [products3, dot_two, ← dot_eq, List.map_cons, List.map_nil, List.cons.injEq, and_true]
    rw [e 0 0 (by omega) (by omega), e 0 1 (by omega) (by omega), e 1 0 (by omega) (by omega), e 1 1 (by omega) (by omega), e 2 0 (by omega) (by omega), e 2 1 (by omega) (by omega)]
    refine ⟨by ring, by ring, by ring, by ring, by ring, by ring⟩
  rw [hv, hp]
  exact ⟨hm, hm⟩

/-- Inner products in three dimensions. -/
theorem products3d (x g : Nat → Nat → K) (h : IsGradient 3 3 x g) :
    (simplexVolumeAndProducts3D x).2 = ((upper 4).map fun q => (6 * (simplexVolumeAndProducts3D x).1) ^ 2 * inner 3 (g q.1) (g q.2)) ∧
    (simplexVolumeGradientsProducts3D x).2.2 = (upper 4).map fun q => (6 * (simplexVolumeGradientsProducts3D x).1) ^ 2 * inner 3 (g q.1) (g q.2) := by
  have hg := (isGradient_iff 3 3 x g).1 h
  have e := crosses_eq x g hg
  have hu : upper 4 = [(0, 0), (0, 1), (0, 2), (0, 3), (1, 1), (1, 2), (1, 3), (2, 2), (2, 3), (3, 3)] := by decide
  rw [(volume3_eq x).1, (volume3_eq x).2.1, hu]
  have hv : (6 * (|det3 x| / 6)) ^ 2 = det3 x ^ 2 := by rw [mul_div_cancel₀ _ (by norm_num), sq_abs]
  have hm : products4 3 (crosses x 0) (crosses x 1) (crosses x 2) (crosses x 3) = [(0, 0), (0, 1), (0, 2), (0, 3), (1, 1), (1, 2), (1, 3), (2, 2), (2, 3), (3, 3)].map fun q : Nat × Nat => det3 x ^ 2 * inner 3 (g q.1) (g q.2) := by
    simp only [products4, dot_three, ← dot_eq, List.map_cons, List.map_nil, List.cons.injEq, and_true]
    simp only [e 0 0 (by omega) (by omega), e 0 1 (by omega) (by omega), e 0 2 (by omega) (by omega), e 1 0 (by omega) (by omega), e 1 1 (by omega) (by omega), e 1 2 (by omega) (by omega),
      e 2 0 (by omega) (by omega), e 2 1 (by omega) (by omega), e 2 2 (by omega) (by omega), e 3 0 (by omega) (by omega), e 3 1 (by omega) (by omega), e 3 2 (by omega) (by omega)]
    refine ⟨by ring, by ring, by ring, by ring, by ring, by ring, by ring, by ring, by ring, by ring⟩
  rw [hv]
  exact ⟨hm, hm⟩

/-- Inner products of triangles in three dimensions; the gradients are tangential. -/
theorem products2Din3D (sqrt : K → K) (hq : IsSqrt sqrt) (x g : Nat → Nat → K) (h : IsGradient 2 3 x g)
    (ht : ∀ i, i ≤ 2 → ∃ a b, ∀ c, c < 3 → g i c = a * (x 1 c - x 0 c) + b * (x 2 c - x 0 c)) :
    (simplexVolumeAndProducts2Din3D sqrt x).2 = (upper 3).map fun q => (2 * (simplexVolumeAndProducts2Din3D sqrt x).1) ^ 2 * inner 3 (g q.1) (g q.2) := by
  have hg := (isGradient_iff 2 3 x g).1 h
  have hv := ((volume_embedded sqrt hq x).2.2 (simplexVolumeAndProducts2Din3D sqrt x).1 (by simp)).2
  have hu : upper 3 = [(0, 0), (0, 1), (0, 2), (1, 1), (1, 2), (2, 2)] := by decide
  rw [hu, mul_pow, hv]
  simp only [← dot_eq]
  -- inner products of gradients from their products with the edges
  have key : ∀ k l, k ≤ 2 → l ≤ 2 → (dot 3 (diff x 1 0) (diff x 1 0) * dot 3 (diff x 2 0) (diff x 2 0) - dot 3 (diff x 1 0) (diff x 2 0) ^ 2) * dot 3 (g k) (g l) =
      dot 3 (g k) (diff x 1 0) * (dot 3 (diff x 2 0) (diff x 2 0) * dot 3 (g l) (diff x 1 0) - dot 3 (diff x 1 0) (diff x 2 0) * dot 3 (g l) (diff x 2 0)) +
      dot 3 (g k) (diff x 2 0) * (dot 3 (diff x 1 0) (diff x 1 0) * dot 3 (g l) (diff x 2 0) - dot 3 (diff x 1 0) (diff x 2 0) * dot 3 (g l) (diff x 1 0)) := by
    intro k l hk hl
    obtain ⟨a, b, hab⟩ := ht l hl
    have h0 := hab 0 (by omega)
    have h1 := hab 1 (by omega)
    have h2 := hab 2 (by omega)
    simp only [dot_three]
    rw [h0, h1, h2]
    simp only [diff]
    ring
  have hval : ∀ k l, k ≤ 2 → l ≤ 2 → 2 ^ 2 * ((dot 3 (diff x 1 0) (diff x 1 0) * dot 3 (diff x 2 0) (diff x 2 0) - dot 3 (diff x 1 0) (diff x 2 0) ^ 2) / 4) * dot 3 (g k) (g l) =
      ((if k = 1 then 1 else 0) - if k = 0 then 1 else 0) * (dot 3 (diff x 2 0) (diff x 2 0) * ((if l = 1 then 1 else 0) - if l = 0 then 1 else 0) - dot 3 (diff x 1 0) (diff x 2 0) * ((if l = 2 then 1 else 0) - if l = 0 then 1 else 0)) +
      ((if k = 2 then 1 else 0) - if k = 0 then 1 else 0) * (dot 3 (diff x 1 0) (diff x 1 0) * ((if l = 2 then 1 else 0) - if l = 0 then 1 else 0) - dot 3 (diff x 1 0) (diff x 2 0) * ((if l = 1 then 1 else 0) - if l = 0 then 1 else 0)) := by
    intro k l hk hl
    have h1 := key k l hk hl
    rw [hg k 1 0 hk (by omega) (by omega), hg k 2 0 hk (by omega) (by omega), hg l 1 0 hl (by omega) (by omega), hg l 2 0 hl (by omega) (by omega)] at h1
    rw [← h1]
    ring
  simp only [List.map_cons, List.map_nil]
  rw [hval 0 0 (by omega) (by omega), hval 0 1 (by omega) (by omega), hval 0 2 (by omega) (by omega), hval 1 1 (by omega) (by omega), hval 1 2 (by omega) (by omega), hval 2 2 (by omega) (by omega)]
  simp only [simplexVolumeAndProducts2Din3D, products3, dot_three, diff, List.cons.injEq, and_true]
  norm_num
  refine ⟨by ring, by ring, by ring, by ring, by ring⟩

/-- A simplex with nonzero determinant has gradients. -/
theorem gradients_exist (d : Nat) (h1 : 1 ≤ d) (h3 : d ≤ 3) (x : Coords K) (h : edgeDet d x ≠ 0) : ∃ g, IsGradient d d x g := by
  interval_cases d
  · have e : edgeDet 1 x = x 1 0 - x 0 0 := by unfold edgeDet; simp
    rw [e] at h
    refine ⟨fun k _ => if k = 1 then 1 / (x 1 0 - x 0 0) else -(1 / (x 1 0 - x 0 0)), (isGradient_iff 1 1 x _).2 fun i j k hi hj hk => ?_⟩
    rw [dot_one]
    interval_cases i <;> interval_cases j <;> interval_cases k <;> simp [diff] <;> field_simp <;> ring
  · rw [edgeDet2] at h
    refine ⟨fun k j => (simplexVolumeGradientsProducts2D x).2.1 k j / det2 x, (isGradient_iff 2 2 x _).2 fun i j k hi hj hk => ?_⟩
    rw [dot_two]
    have e : (simplexVolumeGradientsProducts2D x).2.1 i 0 * diff x j k 0 + (simplexVolumeGradientsProducts2D x).2.1 i 1 * diff x j k 1 =
        det2 x * ((if i = j then 1 else 0) - if i = k then 1 else 0) := by
      unfold simplexVolumeGradientsProducts2D det2
      interval_cases i <;> interval_cases j <;> interval_cases k <;> simp [rotated, diff] <;> ring
    rw [div_mul_eq_mul_div, div_mul_eq_mul_div, ← add_div, e, mul_div_cancel_left₀ _ h]
  · rw [edgeDet3] at h
    refine ⟨fun k j => -(crosses x k j / det3 x), (isGradient_iff 3 3 x _).2 fun i j k hi hj hk => ?_⟩
    rw [dot_three]
    have e : crosses x i 0 * diff x j k 0 + crosses x i 1 * diff x j k 1 + crosses x i 2 * diff x j k 2 =
        det3 x * -((if i = j then 1 else 0) - if i = k then 1 else 0) := by
      unfold det3
      rw [dot_three]
      interval_cases i <;> interval_cases j <;> interval_cases k <;> simp [crosses, cross, diff] <;> ring
    have e2 : ∀ a b c u v w : K, -(a / det3 x) * u + -(b / det3 x) * v + -(c / det3 x) * w = -((a * u + b * v + c * w) / det3 x) := fun a b c u v w => by ring
    rw [e2, e, mul_div_cancel_left₀ _ h, neg_neg]

private theorem det1_ne (x g : Nat → Nat → K) (h : IsGradient 1 1 x g) : x 1 0 - x 0 0 ≠ 0 := by
  intro h0
  have h1 := h 1 1 0 (by omega) (by omega) (by omega)
  simp [h0] at h1

/-- Gradients in one dimension.  Missing: the sign for segments of positive orientation. -/
theorem gradient1_partial (x g : Nat → Nat → K) (h : IsGradient 1 1 x g) (k : Nat) (hk : k ≤ 1) :
    (gradients 1 x).2 k 0 = if 0 < edgeDet 1 x then -g k 0 else g k 0 := by
  have e : edgeDet 1 x = x 1 0 - x 0 0 := by unfold edgeDet; simp
  have h1 := h k 1 0 hk (by omega) (by omega)
  rw [Finset.sum_range_one] at h1
  have hn := det1_ne x g h
  have hg : (gradients 1 x).2 k 0 = if k = 0 then 1 / |x 0 0 - x 1 0| else -(1 / |x 0 0 - x 1 0|) := by
    interval_cases k <;> rfl
  rw [hg, e, abs_sub_comm]
  have hk1 : g k 0 = (if k = 0 then -1 else 1) / (x 1 0 - x 0 0) := by
    rw [eq_div_iff hn, h1]
    interval_cases k <;> simp
  rw [hk1]
  by_cases hp : 0 < x 1 0 - x 0 0
  · rw [if_pos hp, abs_of_pos hp]
    interval_cases k <;> simp [neg_div]
  · rw [if_neg hp, abs_of_nonpos (not_lt.1 hp), div_neg]
    interval_cases k <;> simp [neg_div]

/-- Gradients in two dimensions.  Missing: the sign for triangles of negative orientation. -/
theorem gradient2_partial (x g : Nat → Nat → K) (h : IsGradient 2 2 x g) (k j : Nat) (hk : k ≤ 2) (hj : j < 2) :
    (gradients 2 x).2 k j = if 0 < edgeDet 2 x then g k j else -g k j := by
  have hg := (isGradient_iff 2 2 x g).1 h
  have hn := det2_ne x g hg
  have e : (gradients 2 x).2 k j = (simplexVolumeGradientsProducts2D x).2.1 k j * (1 / 2 / (simplexVolumeGradientsProducts2D x).1) := rfl
  rw [e, (volume2_eq x).1, rotated_eq x g hg k j hk hj, edgeDet2]
  split
  · rename_i hp
    rw [abs_of_pos hp]
    field_simp
  · rename_i hp
    rw [abs_of_nonpos (not_lt.1 hp)]
    field_simp

/-- The relative error of the constant `0.16666666666666674`. -/
def eps3 : ℚ := 0.16666666666666674 * 6 - 1

/-- Gradients in three dimensions.  Missing: the sign for tetrahedra of positive orientation. -/
theorem gradient3_partial (x g : Nat → Nat → K) (h : IsGradient 3 3 x g) (k j : Nat) (hk : k ≤ 3) (hj : j < 3) :
    |eps3| ≤ 1 / 10 ^ 15 ∧ (gradients 3 x).2 k j = ((1 + eps3 : ℚ) : K) * if 0 < edgeDet 3 x then -g k j else g k j := by
  refine ⟨by unfold eps3; norm_num [abs_le], ?_⟩
  have hg := (isGradient_iff 3 3 x g).1 h
  have hn := det3_ne x g hg
  have e : (gradients 3 x).2 k j = crosses x k j * (((0.16666666666666674 : ℚ) : K) / (simplexVolumeGradientsProducts3D x).1) := rfl
  rw [e, (volume3_eq x).1, crosses_eq x g hg k j hk hj, edgeDet3, show (1 + eps3 : ℚ) = 0.16666666666666674 * 6 by unfold eps3; ring, Rat.cast_mul]
  generalize ((0.16666666666666674 : ℚ) : K) = c
  split
  · rename_i hp
    rw [abs_of_pos hp]
    push_cast
    field_simp
  · rename_i hp
    rw [abs_of_nonpos (not_lt.1 hp)]
    push_cast
    field_simp

/-- The inner products of `evalVolumeGradientsInnerProducts` do not depend on the sign. -/
theorem gradient_products (d : Nat) (h1 : 1 ≤ d) (h3 : d ≤ 3) :
    ∃ ε : ℚ, |ε| ≤ 1 / 10 ^ 14 ∧ ∀ (x g : Nat → Nat → K), IsGradient d d x g →
      (gradientsInnerProducts d x).1 = |edgeDet d x| / d.factorial ∧
      (gradientsInnerProducts d x).2.2 = (upper (d + 1)).map fun q => ((1 + ε : ℚ) : K) * (|edgeDet d x| / d.factorial * inner d (g q.1) (g q.2)) := by
  have hvol : ∀ x : Coords K, (gradients d x).1 = |edgeDet d x| / d.factorial := fun x => by
    obtain ⟨⟨_, _, a⟩, ⟨_, _, _, _, b⟩, _, _, _, _, c⟩ := volume x
    interval_cases d
    · simpa using a
    · simpa using b
    · simpa [Nat.factorial] using c
  refine ⟨if d = 3 then (1 + eps3) ^ 2 - 1 else 0, ?_, fun x g h => ⟨hvol x, ?_⟩⟩
  · unfold eps3
    split <;> norm_num [abs_le]
  · have hs : ∃ s : K, s * s = 1 ∧ ∀ k j, k ≤ d → j < d → (gradients d x).2 k j = (if d = 3 then ((1 + eps3 : ℚ) : K) else 1) * (s * g k j) := by
      interval_cases d
      · refine ⟨if 0 < edgeDet 1 x then -1 else 1, by split <;> ring, fun k j hk hj => ?_⟩
        obtain rfl : j = 0 := by omega
        rw [gradient1_partial x g h k hk]
        split <;> simp
      · refine ⟨if 0 < edgeDet 2 x then 1 else -1, by split <;> ring, fun k j hk hj => ?_⟩
        rw [gradient2_partial x g h k j hk hj]
        split <;> simp
      · refine ⟨if 0 < edgeDet 3 x then -1 else 1, by split <;> ring, fun k j hk hj => ?_⟩
        rw [(gradient3_partial x g h k j hk hj).2]
        split <;> simp
    obtain ⟨s, hs1, hs2⟩ := hs
    have hdot : ∀ k l, k ≤ d → l ≤ d → dot d ((gradients d x).2 k) ((gradients d x).2 l) = (if d = 3 then ((1 + eps3 : ℚ) : K) else 1) ^ 2 * inner d (g k) (g l) := fun k l hk hl => by
      rw [dot_eq]
      unfold PyNucleus.Simplex.inner
      rw [Finset.mul_sum]
      refine Finset.sum_congr rfl fun c hc => ?_
      rw [Finset.mem_range] at hc
      rw [hs2 k c hk hc, hs2 l c hl hc]
      linear_combination (if d = 3 then ((1 + eps3 : ℚ) : K) else 1) ^ 2 * g k c * g l c * hs1
    have hl : (gradientsInnerProducts d x).2.2 = (upper (d + 1)).map fun q => (gradients d x).1 * dot d ((gradients d x).2 q.1) ((gradients d x).2 q.2) := by
      interval_cases d <;> rfl
    rw [hl]
    refine List.map_congr_left fun q hq => ?_
    have hq2 : q.1 ≤ d ∧ q.2 ≤ d := by
      have := (PyNucleus.Simplex.mem_upper (d + 1) q).1 hq
      omega
    rw [hdot _ _ hq2.1 hq2.2, hvol]
    split <;> push_cast <;> ring

/-- The signs are wrong for the segment `[0, 1]`, for a triangle of negative and a tetrahedron of positive orientation. -/
theorem gradient1_fails : ∃ x g : Nat → Nat → ℚ, IsGradient 1 1 x g ∧ (gradients 1 x).2 0 0 ≠ g 0 0 :=
  ⟨fun i _ => if i = 1 then 1 else 0, fun i _ => if i = 1 then 1 else -1,
    fun i j k hi hj hk => by interval_cases i <;> interval_cases j <;> interval_cases k <;> decide +kernel, by decide +kernel⟩
theorem gradient2_fails : ∃ x g : Nat → Nat → ℚ, IsGradient 2 2 x g ∧ (gradients 2 x).2 0 0 ≠ g 0 0 :=
  ⟨fun i j => if i = 2 - j then 1 else 0, fun i j => if i = 0 then -1 else if i = 2 - j then 1 else 0,
    fun i j k hi hj hk => by interval_cases i <;> interval_cases j <;> interval_cases k <;> decide +kernel, by decide +kernel⟩
theorem gradient3_fails : ∃ x g : Nat → Nat → ℚ, IsGradient 3 3 x g ∧ 0 < (gradients 3 x).2 0 0 ∧ g 0 0 < 0 :=
  ⟨fun i j => if i = j + 1 then 1 else 0, fun i j => if i = 0 then -1 else if i = j + 1 then 1 else 0,
    fun i j k hi hj hk => by interval_cases i <;> interval_cases j <;> interval_cases k <;> decide +kernel, by decide +kernel, by decide +kernel⟩

/-- The barycentric coordinates sum to one, so their gradients sum to zero. -/
private theorem gradient_sum (d : Nat) (h2 : 2 ≤ d) (h3 : d ≤ 3) (x g : Nat → Nat → K) (h : IsGradient d d x g) (c : Nat) (hc : c < d) :
    ∑ l : Fin (d + 1), g l c = 0 := by
  have hg := (isGradient_iff d d x g).1 h
  interval_cases d
  · have hn := det2_ne x g hg
    have e := fun k hk => rotated_eq x g hg k c hk hc
    refine (mul_eq_zero.1 ?_).resolve_left hn
    rw [Finset.mul_sum, Fin.sum_univ_three]
    show det2 x * g 0 c + det2 x * g 1 c + det2 x * g 2 c = 0
    rw [← e 0 (by omega), ← e 1 (by omega), ← e 2 (by omega)]
    interval_cases c <;> simp [simplexVolumeGradientsProducts2D, rotated, diff]
  · have hn := det3_ne x g hg
    have e := fun k hk => crosses_eq x g hg k c hk hc
    refine (mul_eq_zero.1 ?_).resolve_left (neg_ne_zero.2 hn)
    rw [Finset.mul_sum, Fin.sum_univ_four]
    show -det3 x * g 0 c + -det3 x * g 1 c + -det3 x * g 2 c + -det3 x * g 3 c = 0
    simp only [neg_mul]
    rw [← e 0 (by omega), ← e 1 (by omega), ← e 2 (by omega), ← e 3 (by omega)]
    interval_cases c <;> simp [crosses, cross, diff] <;> ring

/-- The local stiffness matrix computed from the coordinates of the vertices (`stiffness_2d_sym_P*`, `stiffness_3d_sym_P*`). -/
theorem stiffness_integral (p d : Nat) (h0 : 1 ≤ p) (hp : p ≤ 3) (h2 : 2 ≤ d) (h3 : d ≤ 3) :
    ∃ ε : ℚ, |ε| ≤ 1 / 10 ^ 14 ∧ ∀ (x g : Nat → Nat → K) (f : Nat → MvPolynomial (Fin (d + 1)) ℚ), IsGradient d d x g → IsShape p d f →
      let r := if d = 2 then simplexVolumeAndProducts2D x else simplexVolumeAndProducts3D x
      evalStiffness (stiffness p d) r.1 r.2 =
        (upper (localShapeFunctions p d).length).map fun q => ((1 + ε : ℚ) : K) * (|edgeDet d x| / d.factorial *
          ∑ k : Fin (d + 1), ∑ l : Fin (d + 1), ((mean d (pderiv k (f q.1) * pderiv l (f q.2)) : ℚ) : K) * inner d (g k) (g l)) := by
  obtain ⟨ε, hε, hall⟩ := PyNucleus.Props.C55.stiffness_exact p d h0 hp h2 h3
  refine ⟨ε, hε, fun x g f hgr hf => ?_⟩
  dsimp only
  have hg := (isGradient_iff d d x g).1 hgr
  obtain ⟨_, ⟨_, _, b, _, _⟩, _, _, c, _, _⟩ := volume x
  have hr : (if d = 2 then simplexVolumeAndProducts2D x else simplexVolumeAndProducts3D x) =
      (|edgeDet d x| / d.factorial, (upper (d + 1)).map fun q => (d.factorial * (|edgeDet d x| / d.factorial)) ^ 2 * inner d (g q.1) (g q.2)) := by
    interval_cases d
    · have h := (products2 x g hgr).1
      rw [if_pos rfl]
      refine Prod.ext (by simpa using b) ?_
      rw [h, b]
      simp
    · have h := (products3d x g hgr).1
      rw [if_neg (by omega)]
      refine Prod.ext (by simpa [Nat.factorial] using c) ?_
      rw [h, c]
      simp [Nat.factorial]
  rw [hr]
  have hn : |edgeDet d x| / d.factorial ≠ 0 := by
    refine div_ne_zero (abs_ne_zero.2 ?_) (by exact_mod_cast Nat.factorial_ne_zero d)
    interval_cases d
    · rw [edgeDet2]; exact det2_ne x g hg
    · rw [edgeDet3]; exact det3_ne x g hg
  refine hall K (|edgeDet d x| / d.factorial) (fun k l => inner d (g k) (g l)) f hf hn (fun k l => ?_) fun k hk => ?_
  · unfold PyNucleus.Simplex.inner
    exact Finset.sum_congr rfl fun c _ => mul_comm _ _
  · unfold PyNucleus.Simplex.inner
    rw [Finset.sum_comm]
    refine Finset.sum_eq_zero fun c hc => ?_
    rw [← Finset.mul_sum, gradient_sum d h2 h3 x g hgr c (Finset.mem_range.1 hc), mul_zero]

/-- One dimension (`stiffness_1d_sym_P*`). -/
theorem stiffness1_integral (p : Nat) (h0 : 1 ≤ p) (hp : p ≤ 3) :
    ∃ ε : ℚ, |ε| ≤ 1 / 10 ^ 14 ∧ ∀ (x g : Nat → Nat → K) (f : Nat → MvPolynomial (Fin 2) ℚ), IsGradient 1 1 x g → IsShape p 1 f →
      evalStiffness1 (stiffness1 p) (simplexVolume1D x) =
        (upper (localShapeFunctions p 1).length).map fun q => ((1 + ε : ℚ) : K) * (|edgeDet 1 x| *
          ∑ k : Fin 2, ∑ l : Fin 2, ((mean 1 (pderiv k (f q.1) * pderiv l (f q.2)) : ℚ) : K) * inner 1 (g k) (g l)) := by
  obtain ⟨ε, hε, hall⟩ := PyNucleus.Props.C55.stiffness1_exact p h0 hp
  refine ⟨ε, hε, fun x g f hgr hf => ?_⟩
  have hn := det1_ne x g hgr
  have e : edgeDet 1 x = x 1 0 - x 0 0 := by unfold edgeDet; simp
  rw [(volume x).1.1, e, hall K |x 1 0 - x 0 0| f hf (abs_ne_zero.2 hn)]
  refine List.map_congr_left fun q _ => ?_
  congr 2
  refine Finset.sum_congr rfl fun k _ => Finset.sum_congr rfl fun l _ => ?_
  congr 1
  rw [sq_abs]
  have hk : ∀ k : Fin 2, g k 0 = (if k = 0 then -1 else 1) / (x 1 0 - x 0 0) := fun k => by
    have h1 := hgr k 1 0 (by omega) (by omega) (by omega)
    rw [Finset.sum_range_one] at h1
    rw [eq_div_iff hn, h1]
    fin_cases k <;> simp
  unfold PyNucleus.Simplex.inner
  rw [Finset.sum_range_one, hk k, hk l]
  fin_cases k <;> fin_cases l <;> simp <;> field_simp

/-- The local mass matrix computed from the coordinates of the vertices. -/
theorem mass_integral (p d : Nat) (hp : p ≤ 3) (h1 : 1 ≤ d) (h3 : d ≤ 3) :
    ∃ ε : ℚ, |ε| ≤ 1 / 10 ^ 14 ∧ ∀ (x : Nat → Nat → K) (f : Nat → MvPolynomial (Fin (d + 1)) ℚ), IsShape p d f →
      evalMass (mass p d) (if d = 1 then simplexVolume1D x else if d = 2 then simplexVolume2D x else simplexVolume3D x) =
        (upper (localShapeFunctions p d).length).map fun q => ((1 + ε : ℚ) : K) * (|edgeDet d x| / d.factorial * ((mean d (f q.1 * f q.2) : ℚ) : K)) := by
  obtain ⟨ε, hε, hall⟩ := PyNucleus.Props.C55.mass_exact p d hp h1 h3
  refine ⟨ε, hε, fun x f hf => ?_⟩
  rw [← hall K _ f hf]
  congr 1
  obtain ⟨⟨a, _⟩, ⟨b, _⟩, c, _⟩ := volume x
  interval_cases d
  · simpa using a
  · simpa using b
  · simpa [Nat.factorial] using c

/-- Drift matrices of simplices of positive orientation: entry `(i, j)` is the mean value of `φᵢ` times the volume times the derivative of
`φⱼ` in the direction of the coefficient at the barycenter.  Missing: negative orientation. -/
theorem drift_partial (d : Nat) (h1 : 1 ≤ d) (h2 : d ≤ 2) (coeff : Vec K → Vec K) (x g : Nat → Nat → K) (h : IsGradient d d x g) (ho : 0 < edgeDet d x) :
    drift d coeff x = (List.range (d + 1)).flatMap fun _ => (List.range (d + 1)).map fun j =>
      |edgeDet d x| / d.factorial * (1 / (d + 1 : Nat)) * inner d (coeff fun c => (∑ i ∈ Finset.range (d + 1), x i c) / (d + 1 : Nat)) (g j) := by
  have hb : barycenter d x = fun c => (∑ i ∈ Finset.range (d + 1), x i c) / (d + 1 : Nat) := by
    funext c
    unfold barycenter
    rw [mul_one_div]
    congr 1
    interval_cases d <;> simp [List.range_succ, Finset.sum_range_succ]
  unfold drift
  dsimp only
  rw [hb]
  generalize (coeff fun c => (∑ i ∈ Finset.range (d + 1), x i c) / (d + 1 : Nat)) = b
  congr 1
  funext _
  have hg := (isGradient_iff d d x g).1 h
  rw [abs_of_pos ho]
  simp only [← dot_eq]
  interval_cases d
  · have e : edgeDet 1 x = x 1 0 - x 0 0 := by unfold edgeDet; simp
    have hk : ∀ k, k ≤ 1 → g k 0 = (if k = 0 then -1 else 1) / (x 1 0 - x 0 0) := fun k hk => by
      have h1 := hg k 1 0 hk (by omega) (by omega)
      rw [dot_one] at h1
      rw [eq_div_iff (det1_ne x g h)]
      refine Eq.trans h1 ?_
      interval_cases k <;> simp
    have hn := det1_ne x g h
    rw [if_pos rfl, e]
    simp only [List.range_succ, List.range_zero, List.nil_append, List.map_append, List.map_cons, List.map_nil, List.cons_append, coeffProducts1D, dot_one, hk 0 (by omega), hk 1 (by omega)]
    simp only [List.cons.injEq, and_true]
    constructor <;> simp <;> field_simp
  · have e := rotated_eq x g hg
    rw [if_neg (by omega), edgeDet2]
    simp only [List.range_succ, List.range_zero, List.nil_append, List.map_append, List.map_cons, List.map_nil, List.cons_append, coeffProducts2D, dotRot, dot_two]
    have e0 := e 0 0 (by omega) (by omega)
    have e1 := e 0 1 (by omega) (by omega)
    have e2 := e 1 0 (by omega) (by omega)
    have e3 := e 1 1 (by omega) (by omega)
    have e4 := e 2 0 (by omega) (by omega)
    have e5 := e 2 1 (by omega) (by omega)
    simp only [simplexVolumeGradientsProducts2D, rotated] at e0 e1 e2 e3 e4 e5
    simp only [List.cons.injEq, and_true, Nat.factorial]
    refine ⟨?_, ?_, ?_⟩
    · push_cast; linear_combination (1 / 6) * b 0 * e0 + (1 / 6) * b 1 * e1
    · push_cast; linear_combination (1 / 6) * b 0 * e2 + (1 / 6) * b 1 * e3
    · push_cast; linear_combination (1 / 6) * b 0 * e4 + (1 / 6) * b 1 * e5

/-- The segment from 1 to 0. -/
theorem drift1_fails : ∃ (coeff : Vec ℚ → Vec ℚ) (x g : Nat → Nat → ℚ), IsGradient 1 1 x g ∧
    (drift 1 coeff x).getD 0 0 ≠ |edgeDet 1 x| * (1 / 2) * inner 1 (coeff fun c => (x 0 c + x 1 c) / 2) (g 0) :=
  ⟨fun _ _ => 1, fun i _ => if i = 1 then 0 else 1, fun i _ => if i = 1 then -1 else 1,
    fun i j k hi hj hk => by interval_cases i <;> interval_cases j <;> interval_cases k <;> decide +kernel, by decide +kernel⟩
/-- A triangle of negative orientation. -/
theorem drift2_fails : ∃ (coeff : Vec ℚ → Vec ℚ) (x g : Nat → Nat → ℚ), IsGradient 2 2 x g ∧
    (drift 2 coeff x).getD 0 0 ≠ |edgeDet 2 x| / 2 * (1 / 3) * inner 2 (coeff fun c => (x 0 c + x 1 c + x 2 c) / 3) (g 0) :=
  ⟨fun _ _ => 1, fun i j => if i = 2 - j then 1 else 0, fun i j => if i = 0 then -1 else if i = 2 - j then 1 else 0,
    fun i j k hi hj hk => by interval_cases i <;> interval_cases j <;> interval_cases k <;> decide +kernel, by decide +kernel⟩

/- A tetrahedron with its gradients and volume. -/
example : IsGradient 3 3 (fun i j => if i = j + 1 then 1 else 0 : Nat → Nat → ℚ) fun i j => if i = 0 then -1 else if i = j + 1 then 1 else 0 :=
  fun i j k hi hj hk => by interval_cases i <;> interval_cases j <;> interval_cases k <;> decide +kernel
example : simplexVolume3D (fun i j => if i = j + 1 then 2 else 0 : Nat → Nat → ℚ) = 4 / 3 := by decide +kernel
example : drift 2 (fun _ c => if c = 0 then 3 else 0 : Vec ℚ → Vec ℚ) (fun i j => if i = j + 1 then 1 else 0) = [-1/2, 1/2, 0, -1/2, 1/2, 0, -1/2, 1/2, 0] := by decide +kernel

end PyNucleus.Props.C56
