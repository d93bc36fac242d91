import Verif.Model.SimplexGeometry
import Verif.Spec.Barycentric
import Mathlib.Tactic.LinearCombination
import Mathlib.Tactic.IntervalCases
import Mathlib.Tactic.FieldSimp
import Mathlib.Tactic.Linarith
import Mathlib.Tactic.Ring

/-! Gradients of barycentric coordinates from edges. -/

namespace PyNucleus.SimplexGeometry

variable {K : Type} [Field K] [LinearOrder K] [IsStrictOrderedRing K]

theorem dot_one (a b : Vec K) : dot 1 a b = a 0 * b 0 := by simp [dot, List.range_succ]
theorem dot_two (a b : Vec K) : dot 2 a b = a 0 * b 0 + a 1 * b 1 := by simp [dot, List.range_succ]
theorem dot_three (a b : Vec K) : dot 3 a b = a 0 * b 0 + a 1 * b 1 + a 2 * b 2 := by simp [dot, List.range_succ]

theorem dot_eq (n : Nat) (a b : Vec K) : dot n a b = PyNucleus.Simplex.inner n a b := by
  unfold dot PyNucleus.Simplex.inner
  induction n with
  | zero => rfl
  | succ n ih => rw [List.range_succ, List.foldl_append, ih, Finset.sum_range_succ]; rfl

/-- The specification in terms of `dot` and `diff`. -/
def IsGradient' (d n : Nat) (x : Coords K) (g : Nat → Vec K) : Prop :=
  ∀ i j k, i ≤ d → j ≤ d → k ≤ d → dot n (g i) (diff x j k) = (if i = j then 1 else 0) - if i = k then 1 else 0

theorem isGradient_iff (d n : Nat) (x : Coords K) (g : Nat → Vec K) : PyNucleus.Simplex.IsGradient d n x g ↔ IsGradient' d n x g := by
  unfold IsGradient' PyNucleus.Simplex.IsGradient
  simp only [dot_eq]
  rfl

/-- Determinants. -/
def det2 (x : Coords K) : K := diff x 1 0 0 * diff x 2 0 1 - diff x 1 0 1 * diff x 2 0 0
def det3 (x : Coords K) : K := dot 3 (diff x 3 0) (cross (diff x 1 0) (diff x 2 0))

/-- The rotated edges are the gradients times the determinant. -/
theorem rotated_eq (x : Coords K) (g : Nat → Vec K) (h : IsGradient' 2 2 x g) (k j : Nat) (hk : k ≤ 2) (hj : j < 2) :
    (simplexVolumeGradientsProducts2D x).2.1 k j = det2 x * g k j := by
  have h1 := h k 1 0 hk (by omega) (by omega)
  have h2 := h k 2 0 hk (by omega) (by omega)
  rw [dot_two] at h1 h2
  unfold simplexVolumeGradientsProducts2D det2
  dsimp only
  interval_cases k <;> interval_cases j <;> simp [rotated, diff] at h1 h2 ⊢
  · linear_combination -(x 2 1 - x 0 1) * h1 + (x 1 1 - x 0 1) * h2
  · linear_combination (x 2 0 - x 0 0) * h1 - (x 1 0 - x 0 0) * h2
  · linear_combination -(x 2 1 - x 0 1) * h1 + (x 1 1 - x 0 1) * h2
  · linear_combination (x 2 0 - x 0 0) * h1 - (x 1 0 - x 0 0) * h2
  · linear_combination -(x 2 1 - x 0 1) * h1 + (x 1 1 - x 0 1) * h2
  · linear_combination (x 2 0 - x 0 0) * h1 - (x 1 0 - x 0 0) * h2

/-- The cross products are the gradients times minus the determinant. -/
theorem crosses_eq (x : Coords K) (g : Nat → Vec K) (h : IsGradient' 3 3 x g) (k j : Nat) (hk : k ≤ 3) (hj : j < 3) :
    crosses x k j = -(det3 x * g k j) := by
  have h1 := h k 1 0 hk (by omega) (by omega)
  have h2 := h k 2 0 hk (by omega) (by omega)
  have h3 := h k 3 0 hk (by omega) (by omega)
  rw [dot_three] at h1 h2 h3
  unfold det3
  rw [dot_three]
  have e : crosses x k j = -(((if k = 1 then 1 else 0) - if k = 0 then 1 else 0) * cross (diff x 2 0) (diff x 3 0) j
      + ((if k = 2 then 1 else 0) - if k = 0 then 1 else 0) * cross (diff x 3 0) (diff x 1 0) j
      + ((if k = 3 then 1 else 0) - if k = 0 then 1 else 0) * cross (diff x 1 0) (diff x 2 0) j) := by
    interval_cases k <;> interval_cases j <;> simp [crosses, cross, diff] <;> ring
  rw [e, ← h1, ← h2, ← h3]
  interval_cases j <;> simp [cross, diff] <;> ring

theorem volume2_eq (x : Coords K) : (simplexVolumeGradientsProducts2D x).1 = |det2 x| / 2 ∧ (simplexVolumeAndProducts2D x).1 = |det2 x| / 2 ∧
    simplexVolume2D x = |det2 x| / 2 ∧ volume2Dsimplex x = |det2 x| / 2 := by
  refine ⟨?_, ?_, ?_, ?_⟩
  · show |rotated (diff x 0 2) 0 * rotated (diff x 1 0) 1 - rotated (diff x 0 2) 1 * rotated (diff x 1 0) 0| * (1 / 2) = _
    rw [mul_one_div]
    congr 2
    simp only [rotated, diff, det2]
    ring
  · unfold simplexVolumeAndProducts2D volume2Dnew det2 diff
    dsimp only
    rw [mul_one_div]
    congr 2
    ring
  · unfold simplexVolume2D volume2Dnew det2
    rw [mul_one_div]
  · unfold volume2Dsimplex det2 diff
    rw [mul_one_div]
    congr 2
    ring

theorem volume3_eq (x : Coords K) : (simplexVolumeGradientsProducts3D x).1 = |det3 x| / 6 ∧ (simplexVolumeAndProducts3D x).1 = |det3 x| / 6 ∧
    simplexVolume3D x = |det3 x| / 6 ∧ volume3Dsimplex x = |det3 x| / 6 := by
  refine ⟨rfl, rfl, rfl, ?_⟩
  unfold volume3Dsimplex det3
  rw [dot_three]
  dsimp only
  congr 2
  simp only [cross, diff]
  ring

theorem det2_ne (x : Coords K) (g : Nat → Vec K) (h : IsGradient' 2 2 x g) : det2 x ≠ 0 := by
  intro h0
  have e : ∀ k j, k ≤ 2 → j < 2 → (simplexVolumeGradientsProducts2D x).2.1 k j = 0 := fun k j hk hj => by rw [rotated_eq x g h k j hk hj, h0, zero_mul]
  have a1 := e 2 0 (by omega) (by omega)
  have a2 := e 2 1 (by omega) (by omega)
  have h1 := h 1 1 0 (by omega) (by omega) (by omega)
  rw [dot_two] at h1
  simp only [simplexVolumeGradientsProducts2D, rotated] at a1 a2
  rw [show diff x 1 0 1 = 0 by linarith, show diff x 1 0 0 = 0 by linarith] at h1
  simp at h1

theorem det3_ne (x : Coords K) (g : Nat → Vec K) (h : IsGradient' 3 3 x g) : det3 x ≠ 0 := by
  intro h0
  have h1 := h 1 1 0 (by omega) (by omega) (by omega)
  have h2 := h 1 2 0 (by omega) (by omega) (by omega)
  have h3 := h 2 1 0 (by omega) (by omega) (by omega)
  have h4 := h 2 2 0 (by omega) (by omega) (by omega)
  have c : ∀ j, j < 3 → crosses x 3 j = 0 := fun j hj => by rw [crosses_eq x g h 3 j (by omega) hj, h0, zero_mul, neg_zero]
  have c0 := c 0 (by omega)
  have c1 := c 1 (by omega)
  have c2 := c 2 (by omega)
  simp only [crosses, cross] at c0 c1 c2
  rw [dot_three] at h1 h2 h3 h4
  norm_num at h1 h2 h3 h4
  have e : ∀ j, diff x 2 1 j = diff x 2 0 j - diff x 1 0 j := fun j => by unfold diff; ring
  rw [e, e] at c0 c1 c2
  -- the determinant of the Gram matrix of the edges with the gradients is one
  have key : (g 1 0 * diff x 1 0 0 + g 1 1 * diff x 1 0 1 + g 1 2 * diff x 1 0 2) * (g 2 0 * diff x 2 0 0 + g 2 1 * diff x 2 0 1 + g 2 2 * diff x 2 0 2)
      - (g 1 0 * diff x 2 0 0 + g 1 1 * diff x 2 0 1 + g 1 2 * diff x 2 0 2) * (g 2 0 * diff x 1 0 0 + g 2 1 * diff x 1 0 1 + g 2 2 * diff x 1 0 2) = 0 := by
    linear_combination -(g 1 1 * g 2 2 - g 1 2 * g 2 1) * c0 - (g 1 2 * g 2 0 - g 1 0 * g 2 2) * c1 - (g 1 0 * g 2 1 - g 1 1 * g 2 0) * c2
  rw [h1, h2, h3, h4] at key
  norm_num at key

end PyNucleus.SimplexGeometry
