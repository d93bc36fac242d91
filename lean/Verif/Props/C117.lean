import Verif.Model.GridLookup
import Mathlib.Tactic.Linarith
import Mathlib.Tactic.FieldSimp
import Mathlib.Tactic.Ring
import Mathlib.Tactic.NormNum

/-!
# C117: interpolation of values on grids
-/

namespace PyNucleus.Props.C117

open PyNucleus.GridLookup

theorem pl1_swap (a b u v x : ℚ) (h : a ≠ b) : pl1 a b u v x = pl1 b a v u x := by
  have h1 : a - b ≠ 0 := sub_ne_zero.2 h
  have h2 : b - a ≠ 0 := sub_ne_zero.2 h.symm
  have h3 : (x - a) / (b - a) = 1 - (x - b) / (a - b) := by
    rw [← neg_sub a b, div_neg]; field_simp; ring
  unfold pl1
  dsimp only
  rw [h3]; ring

theorem pl1_left (a b u v : ℚ) (h : a ≠ b) : pl1 a b u v a = u := by
  have h1 : a - b ≠ 0 := sub_ne_zero.2 h
  unfold pl1
  dsimp only
  rw [div_self h1]; ring

/-- The two points of a search: different, and no other point of the grid is closer than any of them. -/
def Nearest (n : Nat) (coords : Nat → ℚ) (query : ℚ → Nat × Nat) : Prop :=
  ∀ x, (query x).1 < n ∧ (query x).2 < n ∧ (query x).1 ≠ (query x).2 ∧
    |x - coords (query x).1| ≤ |x - coords (query x).2| ∧
    ∀ k < n, k ≠ (query x).1 → k ≠ (query x).2 → |x - coords (query x).2| ≤ |x - coords k|

/-- On a grid with constant distance, the search gives the linear interpolation in the cell of the point. -/
theorem uniform_partial (n : Nat) (h c0 : ℚ) (hh : 0 < h) (vals : Nat → ℚ) (query : ℚ → Nat × Nat)
    (hq : Nearest n (fun k => c0 + k * h) query) (x : ℚ) (i : Nat) (hi : i + 1 < n) (hlo : c0 + i * h ≤ x) (hhi : x ≤ c0 + (i + 1) * h) :
    tree1 (fun k => c0 + k * h) vals query x =
      (1 - (x - (c0 + i * h)) / h) * vals i + (x - (c0 + i * h)) / h * vals (i + 1) := by
  obtain ⟨ha, hb, hne, hab, hk⟩ := hq x
  unfold tree1
  generalize (query x).1 = a at *
  generalize (query x).2 = b at *
  dsimp only at *
  have hi' : ((i + 1 : Nat) : ℚ) = (i : ℚ) + 1 := by push_cast; rfl
  have di : |x - (c0 + (i : ℚ) * h)| = x - (c0 + i * h) := abs_of_nonneg (by linarith)
  have di1 : |x - (c0 + ((i + 1 : Nat) : ℚ) * h)| = c0 + (i + 1) * h - x := by rw [hi', abs_of_nonpos (by linarith)]; ring
  -- points outside of the cell are at least as far away as the length of the cell
  have hlow : ∀ k : Nat, k < i → x - (c0 + i * h) + h ≤ |x - (c0 + (k : ℚ) * h)| := by
    intro k hki
    have : (k : ℚ) + 1 ≤ i := by exact_mod_cast hki
    have := mul_le_mul_of_nonneg_right this hh.le
    refine le_trans ?_ (le_abs_self _)
    linarith
  have hupp : ∀ k : Nat, i + 1 < k → c0 + (i + 1) * h - x + h ≤ |x - (c0 + (k : ℚ) * h)| := by
    intro k hki
    have : (i : ℚ) + 1 + 1 ≤ k := by exact_mod_cast hki
    have := mul_le_mul_of_nonneg_right this hh.le
    refine le_trans ?_ (neg_le_abs _)
    linarith
  have hout : ∀ k : Nat, k ≠ i → k ≠ i + 1 → h ≤ |x - (c0 + (k : ℚ) * h)| := by
    intro k h1 h2
    rcases Nat.lt_or_gt_of_ne h1 with hl | hl
    · have := hlow k hl; linarith
    · have := hupp k (by omega); linarith
  have hres : pl1 (c0 + (i : ℚ) * h) (c0 + ((i + 1 : Nat) : ℚ) * h) (vals i) (vals (i + 1)) x =
      (1 - (x - (c0 + i * h)) / h) * vals i + (x - (c0 + i * h)) / h * vals (i + 1) := by
    unfold pl1
    dsimp only
    have : (x - (c0 + ((i + 1 : Nat) : ℚ) * h)) / (c0 + (i : ℚ) * h - (c0 + ((i + 1 : Nat) : ℚ) * h)) = 1 - (x - (c0 + i * h)) / h := by
      rw [hi']
      have e : c0 + (i : ℚ) * h - (c0 + ((i : ℚ) + 1) * h) = -h := by ring
      rw [e, div_neg]; field_simp; ring
    rw [this]; ring
  have hcne : c0 + (i : ℚ) * h ≠ c0 + ((i + 1 : Nat) : ℚ) * h := by rw [hi']; intro e; linarith
  have hcab : c0 + (a : ℚ) * h ≠ c0 + (b : ℚ) * h := by
    intro e
    have : (a : ℚ) * h = b * h := by linarith
    exact hne (by exact_mod_cast mul_right_cancel₀ hh.ne' this)
  by_cases hai : a = i
  · subst hai
    by_cases hbi : b = a + 1
    · subst hbi; exact hres
    · have h1 := hk (a + 1) hi (by omega) (fun e => hbi e.symm)
      rw [di1] at h1
      have h2 := hout b (fun e => hne e.symm) hbi
      have hx : x = c0 + a * h := by linarith
      rw [hx, pl1_left _ _ _ _ hcab]; simp
  · by_cases hai1 : a = i + 1
    · subst hai1
      by_cases hbi : b = i
      · subst hbi; rw [pl1_swap _ _ _ _ _ hcab]; exact hres
      · have h1 := hk i (by omega) (by omega) (fun e => hbi e.symm)
        rw [di] at h1
        have h2 := hout b hbi (fun e => hne e.symm)
        have hx : x = c0 + ((i + 1 : Nat) : ℚ) * h := by rw [hi']; linarith
        rw [← hres, hx, pl1_left _ _ _ _ hcab, pl1_swap _ _ _ _ _ hcne, pl1_left _ _ _ _ hcne.symm]
    · exfalso
      have h1 := hout a hai hai1
      have h2 : |x - (c0 + (b : ℚ) * h)| ≤ |x - (c0 + (i : ℚ) * h)| := by
        by_cases e : i = b
        · rw [e]
        · exact hk i (by omega) (fun e => hai e.symm) e
      have h3 : |x - (c0 + (b : ℚ) * h)| ≤ |x - (c0 + ((i + 1 : Nat) : ℚ) * h)| := by
        by_cases e : i + 1 = b
        · rw [e]
        · exact hk (i + 1) hi (fun e => hai1 e.symm) e
      rw [di] at h2
      rw [di1] at h3
      linarith

/-- The search in two directions is the one in the first direction of the values that the one in the second direction gives. -/
theorem nested (cx cy : Nat → ℚ) (vals : Nat → Nat → ℚ) (qx qy : ℚ → Nat × Nat) (x y : ℚ) :
    tree2 cx cy vals qx qy x y = tree1 cx (fun i => tree1 cy (vals i) qy y) qx x := by
  unfold tree2 tree1 pl2 pl1
  dsimp only
  ring

/-- On other grids, the two nearest points need not enclose the point, and the result is an extrapolation: values between 0 and 1 give a
negative one. -/
theorem uniform_fails : ∃ (coords vals : Nat → ℚ) (query : ℚ → Nat × Nat) (x : ℚ),
    (coords 0 = 0 ∧ coords 1 = 1 ∧ coords 2 = 3 / 2) ∧ (∀ k, 0 ≤ vals k) ∧ x = 9 / 10 ∧
    ((query x).1 = 1 ∧ (query x).2 = 2 ∧ |x - coords 1| ≤ |x - coords 2| ∧ |x - coords 2| ≤ |x - coords 0|) ∧
    tree1 coords vals query x < 0 := by
  refine ⟨fun k => if k = 0 then 0 else if k = 1 then 1 else 3 / 2, fun k => if k = 2 then 1 else 0, fun _ => (1, 2), 9 / 10, ?_, ?_, rfl,
    ?_, ?_⟩
  · norm_num
  · intro k; dsimp only; split <;> norm_num
  · norm_num [abs_of_nonneg, abs_of_nonpos]
  · norm_num [tree1, pl1]

theorem cell_spec (size N : Nat) (hN : 0 < N) (x : ℚ) (h0 : 0 ≤ x) (i : Nat) (h : cell size N x = some i) :
    i + 1 < size ∧ (i : ℚ) / N ≤ x ∧ x < ((i + 1 : Nat) : ℚ) / N := by
  have hNq : (0 : ℚ) < N := by exact_mod_cast hN
  have hx : 0 ≤ (N : ℚ) * x := by positivity
  unfold cell trunc at h
  rw [if_pos hx] at h
  split at h
  · rename_i hc
    simp only [Option.some.injEq] at h
    have hi : (i : ℤ) = ⌊(N : ℚ) * x⌋ := by omega
    have h1 := Int.floor_le ((N : ℚ) * x)
    have h2 := Int.lt_floor_add_one ((N : ℚ) * x)
    rw [← hi] at h1 h2
    refine ⟨by omega, ?_, ?_⟩
    · rw [div_le_iff₀ hNq]; push_cast at h1; linarith
    · rw [lt_div_iff₀ hNq]; push_cast at h2 ⊢; linarith
  · cases h

/-- The values in a point of the unit square of a grid with `N+1` points are bilinear interpolations: functions without quadratic parts are
reproduced, and the result is between the bounds of the values. -/
theorem direct_partial (N : Nat) (hN : 0 < N) (vals : Nat → Nat → ℚ) (x y : ℚ) (hx : 0 ≤ x ∧ x < 1) (hy : 0 ≤ y ∧ y < 1) :
    ∃ r, direct2 (N + 1) N (fun i => i / N) (fun j => j / N) vals x y = some r ∧
      (∀ a b c d : ℚ, (∀ i j, vals i j = a + b * (i / N) + c * (j / N) + d * (i / N) * (j / N)) → r = a + b * x + c * y + d * x * y) ∧
      (∀ lo hi : ℚ, (∀ i ≤ N, ∀ j ≤ N, lo ≤ vals i j ∧ vals i j ≤ hi) → lo ≤ r ∧ r ≤ hi) := by
  have hNq : (0 : ℚ) < N := by exact_mod_cast hN
  have hcell : ∀ z : ℚ, 0 ≤ z ∧ z < 1 → ∃ i, cell (N + 1) N z = some i := by
    rintro z ⟨h0, h1⟩
    have hz : 0 ≤ (N : ℚ) * z := by positivity
    unfold cell trunc
    rw [if_pos hz]
    have e1 : 0 ≤ ⌊(N : ℚ) * z⌋ := Int.floor_nonneg.2 hz
    have e2 : ⌊(N : ℚ) * z⌋ < N := by
      rw [Int.floor_lt]; push_cast
      calc (N : ℚ) * z < N * 1 := mul_lt_mul_of_pos_left h1 hNq
        _ = N := mul_one _
    exact ⟨_, if_pos ⟨e1, by push_cast; omega⟩⟩
  obtain ⟨i, hi⟩ := hcell x hx
  obtain ⟨j, hj⟩ := hcell y hy
  obtain ⟨hi0, hi1, hi2⟩ := cell_spec _ _ hN x hx.1 i hi
  obtain ⟨hj0, hj1, hj2⟩ := cell_spec _ _ hN y hy.1 j hj
  have hw : ∀ (z : ℚ) (k : Nat), (k : ℚ) / N ≤ z → z < ((k + 1 : Nat) : ℚ) / N →
      ∃ l, (z - ((k + 1 : Nat) : ℚ) / N) / ((k : ℚ) / N - ((k + 1 : Nat) : ℚ) / N) = l ∧ 0 ≤ l ∧ l ≤ 1 ∧
        z = l * ((k : ℚ) / N) + (1 - l) * (((k + 1 : Nat) : ℚ) / N) := by
    intro z k h1 h2
    refine ⟨_, rfl, ?_, ?_, ?_⟩
    · exact div_nonneg_of_nonpos (by linarith) (by linarith)
    · rw [div_le_one_of_neg (by linarith)]; linarith
    · have : (k : ℚ) / N - ((k + 1 : Nat) : ℚ) / N ≠ 0 := by intro e; linarith
      generalize (k : ℚ) / N = p at *
      generalize ((k + 1 : Nat) : ℚ) / N = q at *
      field_simp; ring
  obtain ⟨l, hl, l0, l1, hlx⟩ := hw x i hi1 hi2
  obtain ⟨m, hm, m0, m1, hmy⟩ := hw y j hj1 hj2
  refine ⟨l * m * vals i j + (1 - l) * m * vals (i + 1) j + l * (1 - m) * vals i (j + 1) + (1 - l) * (1 - m) * vals (i + 1) (j + 1),
    ?_, ?_, ?_⟩
  · unfold direct2
    rw [hi, hj]
    simp only [Option.bind_some, Option.map_some, pl2, hl, hm]
  · intro a b c d hv
    rw [hv, hv, hv, hv]
    generalize ((i : ℕ) : ℚ) / N = p at *
    generalize ((i + 1 : Nat) : ℚ) / N = p' at *
    generalize ((j : ℕ) : ℚ) / N = q at *
    generalize ((j + 1 : Nat) : ℚ) / N = q' at *
    rw [hlx, hmy]; ring
  · intro lo hi' hb
    obtain ⟨a1, a2⟩ := hb i (by omega) j (by omega)
    obtain ⟨b1, b2⟩ := hb (i + 1) (by omega) j (by omega)
    obtain ⟨c1, c2⟩ := hb i (by omega) (j + 1) (by omega)
    obtain ⟨d1, d2⟩ := hb (i + 1) (by omega) (j + 1) (by omega)
    have w1 : 0 ≤ l * m := mul_nonneg l0 m0
    have w2 : 0 ≤ (1 - l) * m := mul_nonneg (by linarith) m0
    have w3 : 0 ≤ l * (1 - m) := mul_nonneg l0 (by linarith)
    have w4 : 0 ≤ (1 - l) * (1 - m) := mul_nonneg (by linarith) (by linarith)
    constructor
    · have := mul_le_mul_of_nonneg_left a1 w1
      have := mul_le_mul_of_nonneg_left b1 w2
      have := mul_le_mul_of_nonneg_left c1 w3
      have := mul_le_mul_of_nonneg_left d1 w4
      nlinarith
    · have := mul_le_mul_of_nonneg_left a2 w1
      have := mul_le_mul_of_nonneg_left b2 w2
      have := mul_le_mul_of_nonneg_left c2 w3
      have := mul_le_mul_of_nonneg_left d2 w4
      nlinarith

/-- The last point of the grid cannot be evaluated: the next point does not exist. -/
theorem direct_fails (N : Nat) (coords vals : Nat → ℚ) : direct1 (N + 1) N coords vals 1 = none := by
  unfold direct1 cell trunc
  have : (0 : ℚ) ≤ N := by positivity
  simp [this]

theorem fold_symm (z : ℚ) : fold (1 - z) = fold z := by
  unfold fold
  by_cases h1 : z > 1 / 2
  · rw [if_neg (by linarith), if_pos h1]
  · by_cases h2 : z = 1 / 2
    · subst h2; norm_num
    · have : z < 1 / 2 := lt_of_le_of_ne (not_lt.1 h1) h2
      rw [if_pos (by linarith), if_neg h1]; ring

/-- The symmetric function is symmetric in each direction. -/
theorem symmetric (m : Nat) (cx cy : Nat → ℚ) (vals : Nat → Nat → ℚ) (x y : ℚ) :
    sym2 m cx cy vals (1 - x) y = sym2 m cx cy vals x y ∧ sym2 m cx cy vals x (1 - y) = sym2 m cx cy vals x y := by
  unfold sym2
  simp only [fold_symm, and_self]

/-- But it does not interpolate on the grid of all its points, and values between 0 and 1 give one larger than 1. -/
theorem symmetric_fails : ∃ r, sym2 3 (fun i => i / 4) (fun j => j / 4) (fun i _ => if i = 2 then 1 else 0) (9 / 20) (9 / 20) = some r ∧
    1 < r := by
  exact ⟨6 / 5, by decide +kernel, by norm_num⟩

/-- The search in three directions is the one in the third direction of the values that the one in the first two directions gives. -/
theorem nested3 (cx cy cz : Nat → ℚ) (vals : Nat → Nat → Nat → ℚ) (qx qy qz : ℚ → Nat × Nat) (x y z : ℚ) :
    tree3 cx cy cz vals qx qy qz x y z = tree1 cz (fun k => tree2 cx cy (fun i j => vals i j k) qx qy x y) qz z := by
  unfold tree3 tree2 tree1 pl3 pl2 pl1 pick
  dsimp only
  simp only [one_ne_zero, if_true, if_false]
  ring

/-- The values in a point of the unit cube of a grid with `N+1` points are trilinear interpolations: functions that are linear in each direction
are reproduced, and the result is between the bounds of the values. -/
theorem direct3_partial (N : Nat) (hN : 0 < N) (vals : Nat → Nat → Nat → ℚ) (x y z : ℚ) (hx : 0 ≤ x ∧ x < 1) (hy : 0 ≤ y ∧ y < 1)
    (hz : 0 ≤ z ∧ z < 1) :
    ∃ r, direct3 (N + 1) N (fun i => i / N) (fun j => j / N) (fun k => k / N) vals x y z = some r ∧
      (∀ a b c d a' b' c' d' : ℚ, (∀ i j k : Nat, vals i j k = a + b * (i / N) + c * (j / N) + d * (i / N) * (j / N) +
          (k / N) * (a' + b' * (i / N) + c' * (j / N) + d' * (i / N) * (j / N))) →
        r = a + b * x + c * y + d * x * y + z * (a' + b' * x + c' * y + d' * x * y)) ∧
      (∀ lo hi : ℚ, (∀ i ≤ N, ∀ j ≤ N, ∀ k ≤ N, lo ≤ vals i j k ∧ vals i j k ≤ hi) → lo ≤ r ∧ r ≤ hi) := by
  have hNq : (0 : ℚ) < N := by exact_mod_cast hN
  have hcell : ∃ k, cell (N + 1) N z = some k := by
    have h0 : 0 ≤ (N : ℚ) * z := mul_nonneg hNq.le hz.1
    unfold cell trunc
    rw [if_pos h0]
    have e1 : 0 ≤ ⌊(N : ℚ) * z⌋ := Int.floor_nonneg.2 h0
    have e2 : ⌊(N : ℚ) * z⌋ < N := by
      rw [Int.floor_lt]; push_cast
      calc (N : ℚ) * z < N * 1 := mul_lt_mul_of_pos_left hz.2 hNq
        _ = N := mul_one _
    exact ⟨_, if_pos ⟨e1, by push_cast; omega⟩⟩
  obtain ⟨k, hk⟩ := hcell
  obtain ⟨hk0, hk1, hk2⟩ := cell_spec _ _ hN z hz.1 k hk
  obtain ⟨r0, h0, p0, b0⟩ := direct_partial N hN (fun i j => vals i j k) x y hx hy
  obtain ⟨r1, h1, p1, b1⟩ := direct_partial N hN (fun i j => vals i j (k + 1)) x y hx hy
  have hlt : (k : ℚ) / N < ((k + 1 : Nat) : ℚ) / N := lt_of_le_of_lt hk1 hk2
  have hne : (k : ℚ) / N - ((k + 1 : Nat) : ℚ) / N ≠ 0 := by intro e; linarith
  refine ⟨pl1 ((k : ℚ) / N) (((k + 1 : Nat) : ℚ) / N) r0 r1 z, ?_, ?_, ?_⟩
  · unfold direct2 at h0 h1
    unfold direct3
    cases hi : cell (N + 1) N x with
    | none => rw [hi] at h0; cases h0
    | some i =>
      cases hj : cell (N + 1) N y with
      | none => rw [hi, hj] at h0; cases h0
      | some j =>
        rw [hi, hj] at h0 h1
        simp only [Option.bind_some, Option.map_some, Option.some.injEq] at h0 h1
        rw [hk]
        simp only [Option.bind_some, Option.map_some, Option.some.injEq]
        rw [← h0, ← h1]
        unfold pl3 pl2 pl1
        simp only [add_zero]
        ring
  · intro a b c d a' b' c' d' hv
    have e0 := p0 (a + (k / N) * a') (b + (k / N) * b') (c + (k / N) * c') (d + (k / N) * d') (fun i j => by rw [hv]; ring)
    have e1 := p1 (a + (((k + 1 : Nat) : ℚ) / N) * a') (b + (((k + 1 : Nat) : ℚ) / N) * b') (c + (((k + 1 : Nat) : ℚ) / N) * c')
      (d + (((k + 1 : Nat) : ℚ) / N) * d') (fun i j => by rw [hv]; ring)
    rw [e0, e1]
    unfold pl1
    dsimp only
    generalize (k : ℚ) / N = p at *
    generalize ((k + 1 : Nat) : ℚ) / N = q at *
    field_simp
    ring
  · intro lo hi hb
    obtain ⟨a1, a2⟩ := b0 lo hi fun i hi' j hj' => hb i hi' j hj' k (by omega)
    obtain ⟨c1, c2⟩ := b1 lo hi fun i hi' j hj' => hb i hi' j hj' (k + 1) (by omega)
    unfold pl1
    dsimp only
    have l0 : 0 ≤ (z - ((k + 1 : Nat) : ℚ) / N) / ((k : ℚ) / N - ((k + 1 : Nat) : ℚ) / N) :=
      div_nonneg_of_nonpos (by linarith) (by linarith)
    have l1 : (z - ((k + 1 : Nat) : ℚ) / N) / ((k : ℚ) / N - ((k + 1 : Nat) : ℚ) / N) ≤ 1 := by
      rw [div_le_one_of_neg (by linarith)]; linarith
    generalize (z - ((k + 1 : Nat) : ℚ) / N) / ((k : ℚ) / N - ((k + 1 : Nat) : ℚ) / N) = l at *
    have l1' : 0 ≤ 1 - l := by linarith
    have := mul_le_mul_of_nonneg_left a1 l0
    have := mul_le_mul_of_nonneg_left a2 l0
    have := mul_le_mul_of_nonneg_left c1 l1'
    have := mul_le_mul_of_nonneg_left c2 l1'
    constructor <;> nlinarith

/-- The symmetric function of three directions is symmetric in each of them. -/
theorem symmetric3 (m : Nat) (cx cy cz : Nat → ℚ) (vals : Nat → Nat → Nat → ℚ) (x y z : ℚ) :
    sym3 m cx cy cz vals (1 - x) y z = sym3 m cx cy cz vals x y z ∧ sym3 m cx cy cz vals x (1 - y) z = sym3 m cx cy cz vals x y z ∧
      sym3 m cx cy cz vals x y (1 - z) = sym3 m cx cy cz vals x y z := by
  unfold sym3
  simp only [fold_symm, and_self]

/-- Three points and the value of a linear function; a bilinear function in a point of the second cell. -/
theorem sample_case : direct1 3 2 (fun i => i / 2) (fun i => 3 + i) (3 / 4) = some (9 / 2) ∧
    direct1 3 2 (fun i => i / 2) (fun i => 3 + i) 1 = none ∧
    direct2 3 2 (fun i => i / 2) (fun i => i / 2) (fun i j => i * j) (3 / 4) (1 / 4) = some (3 / 4) ∧
    direct3 3 2 (fun i => i / 2) (fun i => i / 2) (fun i => i / 2) (fun i j k => i * j + k) (3 / 4) (1 / 4) (1 / 8) = some 1 ∧
    (sym3 3 (fun i => i / 4) (fun i => i / 4) (fun i => i / 4) (fun i j k => i + 10 * j + 100 * k) (1 / 8) (3 / 4) (1 / 4)).isSome := by
  decide +kernel

end PyNucleus.Props.C117
