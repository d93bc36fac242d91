import Verif.Model.BarycentricCoords
import Mathlib.Algebra.BigOperators.Group.Finset.Basic
import Mathlib.Algebra.BigOperators.Fin
import Mathlib.LinearAlgebra.Matrix.Determinant.Basic
import Mathlib.LinearAlgebra.Matrix.ToLinearEquiv
import Mathlib.Tactic.Linarith
import Mathlib.Tactic.Ring
import Mathlib.Tactic.FieldSimp
import Mathlib.Tactic.LinearCombination
import Mathlib.Tactic.NormNum
import Mathlib.Algebra.Order.Ring.Rat
import Mathlib.Analysis.Real.Sqrt

/-!
# C47: barycentric coordinates

Full statement: the computed coordinates of a point of the affine hull of a non-degenerate simplex sum to one and reproduce the point, for segments and triangles,
also in spaces of higher dimension; `vertexInCell` tells whether the point is in the simplex.

Proved for segments on the line and triangles in the plane, and for triangles in space whose plane does not contain the origin.  Segments in the plane and in space are
right only if they are parallel to a coordinate axis and point in its direction (`segment_plane_iff`, `segment_space_iff`).
-/

namespace PyNucleus.Props.C47

open PyNucleus.BarycentricCoords

variable {K : Type} [Field K] [LinearOrder K] [IsStrictOrderedRing K]

/-- `b` are barycentric coordinates of `x` for the simplex with vertices `s 0, …, s d` in space of dimension `n`. -/
def IsBary (d n : Nat) (s : Nat → Nat → K) (x : Nat → K) (b : List K) : Prop :=
  b.length = d + 1 ∧ b.sum = 1 ∧ ∀ k < n, ∑ i ∈ Finset.range (d + 1), b.getD i 0 * s i k = x k

/-- A point of the simplex up to a tolerance. -/
def NearCell (tol : K) (d n : Nat) (s : Nat → Nat → K) (x : Nat → K) : Prop := ∃ b, IsBary d n s x b ∧ ∀ c ∈ b, -tol ≤ c

/-- A point of the simplex. -/
def InCell (d n : Nat) (s : Nat → Nat → K) (x : Nat → K) : Prop := ∃ b, IsBary d n s x b ∧ ∀ c ∈ b, 0 ≤ c

/-- Square root. -/
def IsSqrt (sqrt : K → K) : Prop := ∀ a, 0 ≤ a → 0 ≤ sqrt a ∧ sqrt a ^ 2 = a

example : IsSqrt Real.sqrt := fun a ha => ⟨Real.sqrt_nonneg a, Real.sq_sqrt ha⟩

/-- LAPACK solves systems with non-singular matrix; nothing is known about other systems. -/
def Solves (solve : (Nat → Nat → K) → (Nat → K) → Nat → K) : Prop :=
  ∀ (A : Nat → Nat → K) (b : Nat → K), (Matrix.of fun i j : Fin 3 => A i j).det ≠ 0 → ∀ k < 3, ∑ j ∈ Finset.range 3, A k j * solve A b j = b k

/-- A segment on the line. -/
theorem segment_line (s : Nat → Nat → K) (x : Nat → K) (h : s 0 0 ≠ s 1 0) : IsBary 1 1 s x (bary1D s x) ∧ ∀ b, IsBary 1 1 s x b → b = bary1D s x := by
  have h' : s 0 0 - s 1 0 ≠ 0 := sub_ne_zero.2 h
  constructor
  · refine ⟨rfl, ?_, fun k hk => ?_⟩
    · unfold bary1D; simp
    · interval_cases k
      unfold bary1D
      simp only [Finset.sum_range_succ, Finset.sum_range_zero, zero_add, List.getD_cons_zero, List.getD_cons_succ]
      field_simp
      ring
  · rintro b ⟨h1, h2, h3⟩
    match b, h1 with
    | [b0, b1], _ =>
      have e := h3 0 (by omega)
      simp only [Finset.sum_range_succ, Finset.sum_range_zero, zero_add, List.getD_cons_zero, List.getD_cons_succ, List.sum_cons, List.sum_nil, add_zero] at e h2
      unfold bary1D
      have hb : b1 = 1 - b0 := by linear_combination h2
      subst hb
      have : (x 0 - s 1 0) / (s 0 0 - s 1 0) = b0 := by
        rw [div_eq_iff h', ← e]; ring
      simp only [this]

/-- A triangle in the plane. -/
theorem triangle_plane (s : Nat → Nat → K) (x : Nat → K) (h : (s 1 0 - s 0 0) * (s 2 1 - s 0 1) - (s 1 1 - s 0 1) * (s 2 0 - s 0 0) ≠ 0) :
    IsBary 2 2 s x (bary2D s x) ∧ ∀ b, IsBary 2 2 s x b → b = bary2D s x := by
  have h' : (s 0 0 - s 1 0) * (s 2 1 - s 1 1) - (s 0 1 - s 1 1) * (s 2 0 - s 1 0) ≠ 0 := by
    intro e; apply h; linear_combination -e
  constructor
  · refine ⟨rfl, ?_, fun k hk => ?_⟩
    · unfold bary2D; simp only [List.sum_cons, List.sum_nil]; ring
    · unfold bary2D
      simp only [Finset.sum_range_succ, Finset.sum_range_zero, zero_add, List.getD_cons_zero, List.getD_cons_succ]
      generalize hD : (s 0 0 - s 1 0) * (s 2 1 - s 1 1) - (s 0 1 - s 1 1) * (s 2 0 - s 1 0) = D at h'
      interval_cases k
      · field_simp
        rw [← hD]; ring
      · field_simp
        rw [← hD]; ring
  · rintro b ⟨h1, h2, h3⟩
    match b, h1 with
    | [b0, b1, b2], _ =>
      have e := h3 0 (by omega)
      have e' := h3 1 (by omega)
      simp only [Finset.sum_range_succ, Finset.sum_range_zero, zero_add, List.getD_cons_zero, List.getD_cons_succ, List.sum_cons, List.sum_nil, add_zero] at e e' h2
      unfold bary2D
      have hb : b2 = 1 - b0 - b1 := by linear_combination h2
      subst hb
      have g0 : ((x 0 - s 1 0) * (s 2 1 - s 1 1) - (x 1 - s 1 1) * (s 2 0 - s 1 0)) / ((s 0 0 - s 1 0) * (s 2 1 - s 1 1) - (s 0 1 - s 1 1) * (s 2 0 - s 1 0)) = b0 := by
        rw [div_eq_iff h', ← e, ← e']; ring
      have g1 : ((x 0 - s 2 0) * (s 0 1 - s 2 1) - (x 1 - s 2 1) * (s 0 0 - s 2 0)) / ((s 0 0 - s 1 0) * (s 2 1 - s 1 1) - (s 0 1 - s 1 1) * (s 2 0 - s 1 0)) = b1 := by
        rw [div_eq_iff h', ← e, ← e']; ring
      simp only [g0, g1]

/-- A triangle in space with a plane that does not contain the origin. -/
theorem triangle_space_partial (solve : (Nat → Nat → K) → (Nat → K) → Nat → K) (hs : Solves solve) (s : Nat → Nat → K) (x : Nat → K)
    (h : (Matrix.of fun k j : Fin 3 => s j k).det ≠ 0) (hx : ∃ b, IsBary 2 3 s x b) :
    IsBary 2 3 s x (bary2Din3D solve s x) ∧ ∀ b, IsBary 2 3 s x b → b = bary2Din3D solve s x := by
  have hsol := hs (fun k j => s j k) x h
  have huniq : ∀ b, IsBary 2 3 s x b → b = bary2Din3D solve s x := by
    rintro b ⟨h1, h2, h3⟩
    match b, h1 with
    | [b0, b1, b2], _ =>
      unfold bary2Din3D
      simp only []
      generalize hc : solve (fun k j => s j k) x = c at hsol ⊢
      have key : Matrix.mulVec (Matrix.of fun k j : Fin 3 => s j k) ![b0 - c 0, b1 - c 1, b2 - c 2] = 0 := by
        funext k
        have e1 := h3 k k.isLt
        have e2 := hsol k k.isLt
        simp only [Finset.sum_range_succ, Finset.sum_range_zero, zero_add, List.getD_cons_zero, List.getD_cons_succ] at e1 e2
        simp only [Matrix.mulVec, dotProduct, Fin.sum_univ_three, Matrix.of_apply, Matrix.cons_val_zero, Matrix.cons_val_one, Pi.zero_apply]
        simp
        linear_combination e1 - e2
      have hz := Matrix.eq_zero_of_mulVec_eq_zero h key
      have z0 := congrFun hz 0
      have z1 := congrFun hz 1
      have z2 := congrFun hz 2
      simp at z0 z1 z2
      rw [sub_eq_zero.1 z0, sub_eq_zero.1 z1, sub_eq_zero.1 z2]
  obtain ⟨b, hb⟩ := hx
  exact ⟨huniq b hb ▸ hb, huniq⟩

private theorem sqrt_eq (sqrt : K → K) (hs : IsSqrt sqrt) (d r t : K) (hr : 0 ≤ r) (hd : d ≠ 0) (ht : t ≠ 0) : t * d / sqrt (d ^ 2 + r) = t ↔ 0 < d ∧ r = 0 := by
  obtain ⟨h1, h2⟩ := hs (d ^ 2 + r) (by positivity)
  have hd2 : 0 < d ^ 2 := by positivity
  have hne : sqrt (d ^ 2 + r) ≠ 0 := by intro e; rw [e] at h2; nlinarith
  rw [div_eq_iff hne, mul_right_inj' ht]
  constructor
  · intro e
    rw [← e] at h1 h2
    exact ⟨lt_of_le_of_ne h1 hd.symm, by linarith⟩
  · rintro ⟨g1, g2⟩
    rw [g2, add_zero] at h1 h2 ⊢
    have : (sqrt (d ^ 2) - d) * (sqrt (d ^ 2) + d) = 0 := by linear_combination h2
    rcases mul_eq_zero.1 this with h | h
    · linear_combination -h
    · nlinarith

private theorem segment_bary (n : Nat) (s : Nat → Nat → K) (x : Nat → K) (t b : K) (j : Nat) (hj : j < n) (hx : ∀ k, x k = s 1 k + t * (s 0 k - s 1 k)) (hd : s 0 j - s 1 j ≠ 0) :
    IsBary 1 n s x [b, 1 - b] ↔ b = t := by
  constructor
  · rintro ⟨-, -, h⟩
    have e := h j hj
    simp only [Finset.sum_range_succ, Finset.sum_range_zero, zero_add, List.getD_cons_zero, List.getD_cons_succ] at e
    rw [hx j] at e
    have : (b - t) * (s 0 j - s 1 j) = 0 := by linear_combination e
    rcases mul_eq_zero.1 this with h | h
    · linear_combination h
    · exact absurd h hd
  · rintro rfl
    refine ⟨rfl, by simp, fun k _ => ?_⟩
    simp only [Finset.sum_range_succ, Finset.sum_range_zero, zero_add, List.getD_cons_zero, List.getD_cons_succ]
    rw [hx k]; ring

/-- A segment in the plane that is not nearly parallel to the second axis, a point other than the second end point: the result is right only if the segment has the direction of
the first axis. -/
theorem segment_plane_iff (sqrt : K → K) (hs : IsSqrt sqrt) (s : Nat → Nat → K) (x : Nat → K) (t : K) (ht : t ≠ 0) (hx : ∀ k, x k = s 1 k + t * (s 0 k - s 1 k))
    (hd : |s 1 0 - s 0 0| > 1 / 10 ^ 10) : IsBary 1 2 s x (bary1Din2D sqrt s x) ↔ s 1 0 < s 0 0 ∧ s 0 1 = s 1 1 := by
  have hd' : s 0 0 - s 1 0 ≠ 0 := by
    intro e
    rw [sub_eq_zero.1 e, sub_self, abs_zero] at hd
    exact absurd hd (not_lt.2 (by positivity))
  unfold bary1Din2D
  dsimp only
  rw [if_pos hd, segment_bary 2 s x t _ 0 (by omega) hx hd', hx 0, add_sub_cancel_left, sqrt_eq sqrt hs _ _ t (sq_nonneg _) hd' ht]
  simp [sub_eq_zero]

/-- A segment parallel to the second axis. -/
theorem segment_plane_vertical_iff (sqrt : K → K) (hs : IsSqrt sqrt) (s : Nat → Nat → K) (x : Nat → K) (t : K) (ht : t ≠ 0) (hx : ∀ k, x k = s 1 k + t * (s 0 k - s 1 k))
    (h0 : s 1 0 = s 0 0) (hd : s 0 1 ≠ s 1 1) : IsBary 1 2 s x (bary1Din2D sqrt s x) ↔ s 1 1 < s 0 1 := by
  unfold bary1Din2D
  dsimp only
  rw [if_neg (by rw [h0, sub_self, abs_zero]; exact not_lt.2 (by positivity)), segment_bary 2 s x t _ 1 (by omega) hx (sub_ne_zero.2 hd), hx 1, add_sub_cancel_left, add_comm ((s 0 0 - s 1 0) ^ 2),
    sqrt_eq sqrt hs _ _ t (sq_nonneg _) (sub_ne_zero.2 hd) ht]
  simp [h0]

/-- A segment in space. -/
theorem segment_space_iff (sqrt : K → K) (hs : IsSqrt sqrt) (s : Nat → Nat → K) (x : Nat → K) (t : K) (ht : t ≠ 0) (hx : ∀ k, x k = s 1 k + t * (s 0 k - s 1 k))
    (hd : |s 1 0 - s 0 0| > 1 / 10 ^ 10) : IsBary 1 3 s x (bary1Din3D sqrt s x) ↔ s 1 0 < s 0 0 ∧ s 0 1 = s 1 1 ∧ s 0 2 = s 1 2 := by
  have hd' : s 0 0 - s 1 0 ≠ 0 := by
    intro e
    rw [sub_eq_zero.1 e, sub_self, abs_zero] at hd
    exact absurd hd (not_lt.2 (by positivity))
  unfold bary1Din3D
  dsimp only
  rw [if_pos hd, segment_bary 3 s x t _ 0 (by omega) hx hd', hx 0, add_sub_cancel_left, add_assoc, sqrt_eq sqrt hs _ _ t (by positivity) hd' ht, add_eq_zero_iff_of_nonneg (sq_nonneg _) (sq_nonneg _)]
  simp [sub_eq_zero]

/-- `vertexInCell` on the line. -/
theorem vertexInCell_line (sqrt : K → K) (solve : (Nat → Nat → K) → (Nat → K) → Nat → K) (s : Nat → Nat → K) (x : Nat → K) (tol : K) (h : s 0 0 ≠ s 1 0) :
    ∃ r, vertexInCell sqrt solve 1 1 s x tol = some r ∧ (r = true ↔ NearCell tol 1 1 s x) := by
  refine ⟨_, rfl, ?_⟩
  obtain ⟨h1, h2⟩ := segment_line s x h
  simp only [List.all_eq_true, not_lt, decide_eq_true_eq]
  constructor
  · intro hall; exact ⟨_, h1, hall⟩
  · rintro ⟨b, hb, hall⟩; rw [← h2 b hb]; exact hall

/-- `vertexInCell` in the plane. -/
theorem vertexInCell_plane (sqrt : K → K) (solve : (Nat → Nat → K) → (Nat → K) → Nat → K) (s : Nat → Nat → K) (x : Nat → K) (tol : K)
    (h : (s 1 0 - s 0 0) * (s 2 1 - s 0 1) - (s 1 1 - s 0 1) * (s 2 0 - s 0 0) ≠ 0) :
    ∃ r, vertexInCell sqrt solve 2 2 s x tol = some r ∧ (r = true ↔ NearCell tol 2 2 s x) := by
  refine ⟨_, rfl, ?_⟩
  obtain ⟨h1, h2⟩ := triangle_plane s x h
  simp only [List.all_eq_true, not_lt, decide_eq_true_eq]
  constructor
  · intro hall; exact ⟨_, h1, hall⟩
  · rintro ⟨b, hb, hall⟩; rw [← h2 b hb]; exact hall

/-- Without tolerance the answer is whether the point is in the cell. -/
theorem inCell_iff (d n : Nat) (s : Nat → Nat → K) (x : Nat → K) : NearCell 0 d n s x ↔ InCell d n s x := by
  simp [NearCell, InCell]

/-- A segment in the plane and its midpoint: `vertexInCell` does not find it. -/
theorem vertexInCell_segment_fails (sqrt : K → K) (hs : IsSqrt sqrt) (solve : (Nat → Nat → K) → (Nat → K) → Nat → K) :
    ∃ (s : Nat → Nat → K) (x : Nat → K), s 0 0 ≠ s 1 0 ∧ InCell 1 2 s x ∧ vertexInCell sqrt solve 1 2 s x 0 = some false := by
  refine ⟨fun i k => if k = 0 then i else 0, fun k => if k = 0 then 1 / 2 else 0, by norm_num, ⟨[1 / 2, 1 / 2], ⟨rfl, by norm_num, fun k hk => ?_⟩, by norm_num⟩, ?_⟩
  · interval_cases k <;> simp [Finset.sum_range_succ]
  · obtain ⟨h1, h2⟩ := hs 1 (by norm_num)
    have h3 : sqrt 1 = 1 := by nlinarith
    show some _ = _
    unfold bary1Din2D
    norm_num [h3]

/-- A triangle whose plane contains the origin: a routine that solves all systems with non-singular matrix need not give barycentric coordinates. -/
theorem triangle_space_fails : ∃ (solve : (Nat → Nat → ℚ) → (Nat → ℚ) → Nat → ℚ) (s : Nat → Nat → ℚ) (x : Nat → ℚ), Solves solve ∧
    (s 1 0 - s 0 0) * (s 2 1 - s 0 1) - (s 1 1 - s 0 1) * (s 2 0 - s 0 0) ≠ 0 ∧ InCell 2 3 s x ∧ ¬ IsBary 2 3 s x (bary2Din3D solve s x) := by
  classical
  refine ⟨fun A b j => if (Matrix.of fun i j : Fin 3 => A i j).det ≠ 0 then (if h : j < 3 then Matrix.mulVec (Matrix.of fun i j : Fin 3 => A i j)⁻¹ (fun i => b i) ⟨j, h⟩ else 0) else 0,
    fun i k => if i = k + 1 ∧ k < 2 then 1 else 0, fun k => if k < 2 then 1 / 3 else 0, ?_, by norm_num, ⟨[1 / 3, 1 / 3, 1 / 3], ⟨rfl, by norm_num, fun k hk => ?_⟩, by norm_num⟩, ?_⟩
  · intro A b hA k hk
    have := congrFun (show Matrix.mulVec (Matrix.of fun i j : Fin 3 => A i j) (Matrix.mulVec (Matrix.of fun i j : Fin 3 => A i j)⁻¹ (fun i => b i)) = fun i : Fin 3 => b i by
      rw [Matrix.mulVec_mulVec, Matrix.mul_nonsing_inv _ (isUnit_iff_ne_zero.2 hA), Matrix.one_mulVec]) ⟨k, hk⟩
    simp only [if_pos hA]
    rw [Finset.sum_range]
    simp only [Fin.is_lt, dif_pos, Fin.eta]
    exact this
  · interval_cases k <;> simp [Finset.sum_range_succ]
  · rintro ⟨-, h, -⟩
    unfold bary2Din3D at h
    have hdet : (Matrix.of fun i j : Fin 3 => (if (j : Nat) = i + 1 ∧ (i : Nat) < 2 then 1 else 0 : ℚ)).det = 0 := by
      rw [Matrix.det_fin_three]; simp
    simp only [hdet] at h
    simp at h

/-! ### concrete cases -/

example : bary2D (fun i k : Nat => if i = k + 1 then (2 : ℚ) else 0) (fun _ => 1 / 2) = [1 / 2, 1 / 4, 1 / 4] := by decide +kernel
/-- A slanted segment with length 5: the coordinate of the midpoint is 3/10. -/
example (sqrt : ℚ → ℚ) (hs : sqrt 25 = 5) : bary1Din2D sqrt (fun i k => if i = 0 then (if k = 0 then 3 else 4) else 0) (fun k => if k = 0 then 3 / 2 else 2) = [3 / 10, 7 / 10] := by
  unfold bary1Din2D
  norm_num [hs]

end PyNucleus.Props.C47
