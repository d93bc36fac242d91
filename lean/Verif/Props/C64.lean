import Verif.Proof.RelativePosition
import Mathlib.Tactic.NormNum
import Mathlib.Algebra.BigOperators.Fin
import Mathlib.Tactic.FieldSimp

/-! C64: what an interaction domain reports about two points and about two simplices. -/

namespace PyNucleus.Props.C64

open PyNucleus.Interaction

variable {K : Type} [Field K] [LinearOrder K] [IsStrictOrderedRing K]

/-- The indicator function of the Euclidean ball. -/
theorem eval_ball2 (dim : Nat) (h2 : K) (x y : Nat → K) :
    evalBall .l2 dim h2 x y = (if euclid2 dim x y ≤ h2 then 1 else 0, euclid2 dim x y) ∧ (isInside .l2 dim h2 x y = true ↔ euclid2 dim x y ≤ h2) := by
  simp [evalBall, isInside, dist2_l2]

/-- The indicator function of the ball of the maximum norm. -/
theorem eval_ballInf (dim : Nat) (h2 : K) (h0 : 0 ≤ h2) (x y : Nat → K) :
    ((evalBall .linf dim h2 x y).1 = 1 ↔ WithinMax dim h2 x y) ∧ ((evalBall .linf dim h2 x y).1 = 0 ↔ ¬ WithinMax dim h2 x y) ∧
      (isInside .linf dim h2 x y = true ↔ WithinMax dim h2 x y) := by
  rw [← dist2_linf_le dim x y h2 h0]
  unfold evalBall isInside
  dsimp only
  by_cases h : dist2 .linf dim x y ≤ h2 <;> simp [h]

/-- The complement has the value one exactly where the ball has the value zero. -/
theorem eval_complement (dim : Nat) (h2 : K) (x y : Nat → K) :
    (evalComplement dim h2 x y).1 + (evalBall .l2 dim h2 x y).1 = 1 ∧ (evalComplement dim h2 x y).2 = euclid2 dim x y ∧
      ((evalComplement dim h2 x y).1 = 1 ↔ h2 < euclid2 dim x y) := by
  unfold evalComplement evalBall
  dsimp only
  rw [dist2_l2]
  by_cases h : euclid2 dim x y ≤ h2
  · simp [h, not_lt.2 h]
  · simp [h, not_le.1 h]

/-- The answers for a ball in terms of the distances of vertices. -/
theorem position_ball (nm : Norm) (dim n1 n2 : Nat) (h2 : K) (h0 : 0 ≤ h2) (old : Position) (s1 s2 : Nat → Nat → K) :
    ((ballPosition nm dim n1 n2 h2 old s1 s2).1 = .remote ↔ ∀ i k, i < n1 → k < n2 → h2 ≤ dist2 nm dim (s1 i) (s2 k)) ∧
      ((ballPosition nm dim n1 n2 h2 old s1 s2).1 = .cut ↔
        (∃ i k, i < n1 ∧ k < n2 ∧ dist2 nm dim (s1 i) (s2 k) < h2) ∧ ∃ i k, i < n1 ∧ k < n2 ∧ h2 < dist2 nm dim (s1 i) (s2 k)) ∧
      ((ballPosition nm dim n1 n2 h2 old s1 s2).1 = .interact ↔
        (∃ i k, i < n1 ∧ k < n2 ∧ dist2 nm dim (s1 i) (s2 k) < h2) ∧ ∀ i k, i < n1 → k < n2 → dist2 nm dim (s1 i) (s2 k) ≤ h2) := by
  have h1 := extremes_min nm dim n1 n2 s1 s2 h2
  have h3 := extremes_max nm dim n1 n2 s1 s2 h2 h0
  have e1 : (∃ i k, i < n1 ∧ k < n2 ∧ dist2 nm dim (s1 i) (s2 k) < h2) ↔ ¬ atLeast h2 (extremes nm dim n1 n2 s1 s2).1 = true := by
    rw [h1]; push Not; rfl
  have e2 : (∃ i k, i < n1 ∧ k < n2 ∧ h2 < dist2 nm dim (s1 i) (s2 k)) ↔ ¬ (extremes nm dim n1 n2 s1 s2).2 ≤ h2 := by
    rw [h3]; push Not; rfl
  rw [← h1, e1, e2, ← h3]
  unfold ballPosition
  dsimp only
  by_cases a : atLeast h2 (extremes nm dim n1 n2 s1 s2).1 = true <;> by_cases b : (extremes nm dim n1 n2 s1 s2).2 ≤ h2 <;> simp [a, b]

/-- If two simplices are said to interact with a ball, any two of their points do. -/
theorem interact_ball (nm : Norm) (dim n1 n2 : Nat) (h2 : K) (h0 : 0 ≤ h2) (old : Position) (s1 s2 : Nat → Nat → K)
    (h : (ballPosition nm dim n1 n2 h2 old s1 s2).1 = .interact) (p q : Nat → K) (hp : InHull n1 s1 p) (hq : InHull n2 s2 q) :
    (evalBall nm dim h2 p q).1 = 1 := by
  have := dist2_hulls nm dim n1 n2 s1 s2 p q h2 hp hq (((position_ball nm dim n1 n2 h2 h0 old s1 s2).2.2.1 h).2)
  simp [evalBall, this]

/-- If two simplices are said to be remote for the complement of a ball, no two of their points interact. -/
theorem remote_complement (dim n1 n2 : Nat) (h2 : K) (h0 : 0 ≤ h2) (old : Position) (s1 s2 : Nat → Nat → K)
    (h : (complementPosition dim n1 n2 h2 old s1 s2).1 = .remote) (p q : Nat → K) (hp : InHull n1 s1 p) (hq : InHull n2 s2 q) :
    (evalComplement dim h2 p q).1 = 0 := by
  have hm : (extremes .l2 dim n1 n2 s1 s2).2 ≤ h2 := by
    unfold complementPosition at h
    dsimp only at h
    split_ifs at h with a b
    exact b
  have := dist2_hulls .l2 dim n1 n2 s1 s2 p q h2 hp hq ((extremes_max .l2 dim n1 n2 s1 s2 h2 h0).1 hm)
  simp [evalComplement, not_lt.2 this]

/-- The simplices of a pair can be exchanged. -/
theorem symmetric (nm : Norm) (dim n1 n2 : Nat) (h2 : K) (h0 : 0 ≤ h2) (old : Position) (s1 s2 : Nat → Nat → K) :
    ballPosition nm dim n1 n2 h2 old s1 s2 = ballPosition nm dim n2 n1 h2 old s2 s1 ∧
      complementPosition dim n1 n2 h2 old s1 s2 = complementPosition dim n2 n1 h2 old s2 s1 := by
  have e1 : ∀ nm, atLeast h2 (extremes nm dim n1 n2 s1 s2).1 = atLeast h2 (extremes nm dim n2 n1 s2 s1).1 := by
    intro nm
    rw [Bool.eq_iff_iff, extremes_min, extremes_min]
    exact ⟨fun h i k hi hk => by rw [dist2_comm]; exact h k i hk hi, fun h i k hi hk => by rw [dist2_comm]; exact h k i hk hi⟩
  have e2 : ∀ nm, ((extremes nm dim n1 n2 s1 s2).2 ≤ h2) = ((extremes nm dim n2 n1 s2 s1).2 ≤ h2) := by
    intro nm
    rw [eq_iff_iff, extremes_max _ _ _ _ _ _ _ h0, extremes_max _ _ _ _ _ _ _ h0]
    exact ⟨fun h i k hi hk => by rw [dist2_comm]; exact h k i hk hi, fun h i k hi hk => by rw [dist2_comm]; exact h k i hk hi⟩
  unfold ballPosition complementPosition
  dsimp only
  simp only [e1, e2, and_self]

/-- A ball and its complement give opposite answers. -/
theorem complement_opposite (dim n1 n2 : Nat) (h2 : K) (old : Position) (s1 s2 : Nat → Nat → K) :
    (complementPosition dim n1 n2 h2 old s1 s2).1 = match (ballPosition .l2 dim n1 n2 h2 old s1 s2).1 with
      | .interact => .remote
      | .remote => .interact
      | .cut => .cut := by
  unfold ballPosition complementPosition
  dsimp only
  split_ifs <;> rfl

/-- The answer is kept in the attribute that selects the treatment of cut elements. -/
theorem stored (nm : Norm) (dim n1 n2 : Nat) (h2 : K) (old : Position) (s1 s2 : Nat → Nat → K) :
    (ballPosition nm dim n1 n2 h2 old s1 s2).2 = (ballPosition nm dim n1 n2 h2 old s1 s2).1 ∧
      (complementPosition dim n1 n2 h2 old s1 s2).2 = (complementPosition dim n1 n2 h2 old s1 s2).1 := ⟨rfl, rfl⟩

/-- Membership in a transformed ball. -/
theorem transform_inside (nm : Norm) (dim : Nat) (h2 : K) (h0 : 0 ≤ h2) (A : (Nat → K) → Nat → Nat → K) (x y : Nat → K) :
    insideTransformed nm dim h2 A x y = true ↔ match nm with
      | .l2 => euclid2 dim (apply dim (A x) x) (apply dim (A x) y) ≤ h2
      | .linf => WithinMax dim h2 (apply dim (A x) x) (apply dim (A x) y) := by
  unfold insideTransformed isInside
  rw [decide_eq_true_iff, dist2_forward]
  cases nm with
  | l2 => rw [dist2_l2]
  | linf => rw [dist2_linf_le _ _ _ _ h0]

/-- The answers for a transformed ball in terms of the pairs of vertices. -/
theorem transform_position (nm : Norm) (dim n1 n2 : Nat) (h2 : K) (A : (Nat → K) → Nat → Nat → K) (old : Position) (s1 s2 : Nat → Nat → K) :
    ((transformPosition nm dim n1 n2 h2 A old s1 s2).1 = .interact ↔ ∀ i k, i < n1 → k < n2 → insideTransformed nm dim h2 A (s1 i) (s2 k) = true) ∧
      ((transformPosition nm dim n1 n2 h2 A old s1 s2).1 = .cut ↔
        (∃ i k, i < n1 ∧ k < n2 ∧ insideTransformed nm dim h2 A (s1 i) (s2 k) = true) ∧
          ∃ i k, i < n1 ∧ k < n2 ∧ insideTransformed nm dim h2 A (s1 i) (s2 k) = false) := by
  unfold transformPosition insideTransformed
  dsimp only
  have hs := countOuter_spec (fun i k => isInside nm dim h2 (s1 i) (forward dim (A (s1 i)) (s1 i) (s2 k))) n2 (List.range n1) (0, 0)
  simp only [List.mem_range, lt_irrefl, false_or] at hs
  generalize countOuter (fun i k => isInside nm dim h2 (s1 i) (forward dim (A (s1 i)) (s1 i) (s2 k))) n2 (List.range n1) (0, 0) = c at hs ⊢
  have e1 : (∃ i k, i < n1 ∧ k < n2 ∧ isInside nm dim h2 (s1 i) (forward dim (A (s1 i)) (s1 i) (s2 k)) = true) ↔ 0 < c.1 := by
    rw [hs.1]; exact ⟨fun ⟨i, k, a, b, d⟩ => ⟨i, a, k, b, d⟩, fun ⟨i, a, k, b, d⟩ => ⟨i, k, a, b, d⟩⟩
  have e2 : (∃ i k, i < n1 ∧ k < n2 ∧ isInside nm dim h2 (s1 i) (forward dim (A (s1 i)) (s1 i) (s2 k)) = false) ↔ 0 < c.2 := by
    rw [hs.2]; exact ⟨fun ⟨i, k, a, b, d⟩ => ⟨i, a, k, b, d⟩, fun ⟨i, a, k, b, d⟩ => ⟨i, k, a, b, d⟩⟩
  have e3 : (∀ i k, i < n1 → k < n2 → isInside nm dim h2 (s1 i) (forward dim (A (s1 i)) (s1 i) (s2 k)) = true) ↔ ¬ 0 < c.2 := by
    rw [← e2]; push Not
    simp only [ne_eq, Bool.not_eq_false]
  rw [e1, e2, e3]
  by_cases a : c.2 = 0
  · simp [a]
  · by_cases b : c.1 = 0
    · simp [a, b]
    · simp [a, b]; omega

/-- If two simplices are said to interact with a ball transformed by a constant matrix, any two of their points do. -/
theorem transform_interact (nm : Norm) (dim n1 n2 : Nat) (h2 : K) (A : Nat → Nat → K) (old : Position) (s1 s2 : Nat → Nat → K)
    (h : (transformPosition nm dim n1 n2 h2 (fun _ => A) old s1 s2).1 = .interact) (p q : Nat → K) (hp : InHull n1 s1 p) (hq : InHull n2 s2 q) :
    insideTransformed nm dim h2 (fun _ => A) p q = true := by
  have hv := (transform_position nm dim n1 n2 h2 (fun _ => A) old s1 s2).1.1 h
  unfold insideTransformed isInside at hv ⊢
  simp only [decide_eq_true_iff, dist2_forward] at hv ⊢
  exact dist2_hulls nm dim n1 n2 (fun i => apply dim A (s1 i)) (fun i => apply dim A (s2 i)) _ _ h2 (apply_hull dim n1 A s1 p hp)
    (apply_hull dim n2 A s2 q hq) hv

/-- In one dimension, points of two intervals side by side that are said to be remote have at least the distance of the horizon. -/
theorem remote_line_partial (nm : Norm) (h2 : K) (h0 : 0 ≤ h2) (old : Position) (s1 s2 : Nat → Nat → K)
    (ho : (∀ i k, i < 2 → k < 2 → s1 i 0 ≤ s2 k 0) ∨ ∀ i k, i < 2 → k < 2 → s2 k 0 ≤ s1 i 0)
    (h : (ballPosition nm 1 2 2 h2 old s1 s2).1 = .remote) (p q : Nat → K) (hp : InHull 2 s1 p) (hq : InHull 2 s2 q) : h2 ≤ (p 0 - q 0) ^ 2 := by
  have hv := (position_ball nm 1 2 2 h2 h0 old s1 s2).1.1 h
  have hd : ∀ x y : Nat → K, dist2 nm 1 x y = (x 0 - y 0) ^ 2 := by
    intro x y
    cases nm
    · simp [dist2_l2, euclid2]
    · simp [dist2, List.range_succ, max_eq_right (sq_nonneg _)]
  simp only [hd] at hv
  obtain ⟨w, hw, w1, hp⟩ := hp
  obtain ⟨v, hv', v1, hq⟩ := hq
  simp only [Finset.sum_range_succ, Finset.sum_range_zero, zero_add] at w1 v1 hp hq
  have w0 := hw 0 (by omega); have w0' := hw 1 (by omega); have v0 := hv' 0 (by omega); have v0' := hv' 1 (by omega)
  -- the nearest vertices
  have key : ∀ (a b c d : K), a ≤ c → a ≤ d → b ≤ c → b ≤ d → h2 ≤ (a - c) ^ 2 → h2 ≤ (a - d) ^ 2 → h2 ≤ (b - c) ^ 2 → h2 ≤ (b - d) ^ 2 →
      h2 ≤ ((w 0 * a + w 1 * b) - (v 0 * c + v 1 * d)) ^ 2 := by
    intro a b c d h1 h2' h3 h4 g1 g2 g3 g4
    obtain ⟨m, hm1, hm2, hm⟩ : ∃ m, a ≤ m ∧ b ≤ m ∧ (m = a ∨ m = b) := by
      rcases le_total a b with h | h
      · exact ⟨b, h, le_rfl, .inr rfl⟩
      · exact ⟨a, le_rfl, h, .inl rfl⟩
    obtain ⟨M, hM1, hM2, hM⟩ : ∃ M, M ≤ c ∧ M ≤ d ∧ (M = c ∨ M = d) := by
      rcases le_total c d with h | h
      · exact ⟨c, le_rfl, h, .inl rfl⟩
      · exact ⟨d, h, le_rfl, .inr rfl⟩
    have hmM : h2 ≤ (M - m) ^ 2 ∧ m ≤ M := by
      rcases hm with rfl | rfl <;> rcases hM with rfl | rfl <;> refine ⟨?_, by assumption⟩ <;> rw [← neg_sub, neg_sq] <;> assumption
    have e1 : w 0 * a + w 1 * b ≤ m := by
      calc w 0 * a + w 1 * b ≤ w 0 * m + w 1 * m := add_le_add (mul_le_mul_of_nonneg_left hm1 w0) (mul_le_mul_of_nonneg_left hm2 w0')
        _ = m := by rw [← add_mul, w1, one_mul]
    have e2 : M ≤ v 0 * c + v 1 * d := by
      calc M = v 0 * M + v 1 * M := by rw [← add_mul, v1, one_mul]
        _ ≤ _ := add_le_add (mul_le_mul_of_nonneg_left hM1 v0) (mul_le_mul_of_nonneg_left hM2 v0')
    rw [← neg_sub, neg_sq]
    exact le_trans hmM.1 (pow_le_pow_left₀ (sub_nonneg.2 hmM.2) (by linarith) 2)
  rw [hp 0, hq 0]
  rcases ho with ho | ho
  · exact key _ _ _ _ (ho 0 0 (by omega) (by omega)) (ho 0 1 (by omega) (by omega)) (ho 1 0 (by omega) (by omega)) (ho 1 1 (by omega) (by omega))
      (hv 0 0 (by omega) (by omega)) (hv 0 1 (by omega) (by omega)) (hv 1 0 (by omega) (by omega)) (hv 1 1 (by omega) (by omega))
  · have := key (-s1 0 0) (-s1 1 0) (-s2 0 0) (-s2 1 0) (by have := ho 0 0 (by omega) (by omega); linarith) (by have := ho 0 1 (by omega) (by omega); linarith)
      (by have := ho 1 0 (by omega) (by omega); linarith) (by have := ho 1 1 (by omega) (by omega); linarith)
      (by have := hv 0 0 (by omega) (by omega); convert this using 1; ring) (by have := hv 0 1 (by omega) (by omega); convert this using 1; ring)
      (by have := hv 1 0 (by omega) (by omega); convert this using 1; ring) (by have := hv 1 1 (by omega) (by omega); convert this using 1; ring)
    convert this using 1; ring

/-! ### Failures -/

/-- Two disjoint triangles; the first corner of the second lies above the middle of an edge of the first. -/
def lower : Nat → Nat → Rat := fun i j => (([[-4, 0], [4, 0], [0, -4]] : List (List Rat)).getD i []).getD j 0
def upper : Nat → Nat → Rat := fun i j => (([[0, 1], [-4, 5], [4, 5]] : List (List Rat)).getD i []).getD j 0

/-- In two dimensions, triangles said to be remote can have points nearer than the horizon, and triangles said to interact through the complement can
have points that do not. -/
theorem remote_fails : (ballPosition .l2 2 3 3 4 .cut lower upper).1 = .remote ∧ (ballPosition .linf 2 3 3 4 .cut lower upper).1 = .remote ∧
    (complementPosition 2 3 3 4 .cut lower upper).1 = .interact ∧
    ∃ p q, InHull 3 lower p ∧ InHull 3 upper q ∧ euclid2 2 p q = 1 ∧ (evalBall .l2 2 4 p q).1 = 1 ∧ (evalBall .linf 2 4 p q).1 = 1 ∧
      (evalComplement 2 4 p q).1 = 0 := by
  refine ⟨by decide +kernel, by decide +kernel, by decide +kernel, fun _ => 0, fun j => upper 0 j, ⟨fun i => if i < 2 then 1 / 2 else 0, ?_, ?_, ?_⟩,
    ⟨fun i => if i = 0 then 1 else 0, ?_, ?_, ?_⟩, ?_, by decide +kernel, by decide +kernel, by decide +kernel⟩
  · intro i _; dsimp only; split <;> norm_num
  · norm_num [Finset.sum_range_succ]
  · intro j
    rcases j with _ | _ | j <;> simp [Finset.sum_range_succ, lower]
  · intro i _; dsimp only; split <;> norm_num
  · norm_num [Finset.sum_range_succ]
  · intro j; simp
  · norm_num [euclid2, Finset.sum_range_succ, upper]

/-- A transformed ball does not keep its answer, so elements that are cut are not treated as such: here the ball is not even transformed and the
position stored is the initial value of the attribute. -/
theorem stored_fails : (transformPosition .l2 1 2 2 (1 : Rat) (fun _ i j => if i = j then 1 else 0) .interact (fun i _ => i) (fun i _ => 1 + i)) =
    (.cut, .interact) := by decide +kernel

/-! ### Examples -/

example : (ballPosition .l2 2 3 3 (200 : Rat) .cut lower upper).1 = .interact := by decide +kernel
example : (ballPosition .l2 2 3 3 (20 : Rat) .cut lower upper).1 = .cut := by decide +kernel
example : (complementPosition 2 3 3 (200 : Rat) .cut lower upper).1 = .remote := by decide +kernel
example : (ballPosition .linf 1 2 2 (4 : Rat) .cut (fun i _ => i) (fun i _ => 3 + i)).1 = .remote := by decide +kernel
example : (transformPosition .linf 2 3 3 (400 : Rat) (fun _ i j => if i = 0 ∧ j = 1 then -1 else 1) .cut lower upper).1 = .interact := by decide +kernel
example : InHull 3 lower (lower 1) := ⟨fun i => if i = 1 then 1 else 0, by intro i _; dsimp only; split <;> norm_num, by norm_num [Finset.sum_range_succ], by intro j; simp⟩

end PyNucleus.Props.C64
