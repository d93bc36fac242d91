import Verif.Spec.TimeStepping
import Verif.Proof.Loops
import Mathlib.Tactic.Ring
import Mathlib.Tactic.Abel
import Mathlib.Tactic.Module
import Mathlib.Algebra.BigOperators.Intervals
import Mathlib.Tactic.FieldSimp
import Mathlib.Algebra.BigOperators.GroupWithZero.Action

/-! # Lemmas about the time steppers -/

namespace PyNucleus.TimeStepping

open PyNucleus.Loops

variable {K V : Type} [Field K] [AddCommGroup V] [Module K V]

theorem forRange_sum {n : Nat} (x : V) (f : Nat → V) : forRange 0 n x (fun s i => s + f i) = x + ∑ i ∈ Finset.range n, f i := by
  induction n with
  | zero => simp [forRange]
  | succ n ih => rw [forRange_succ, ih, Finset.sum_range_succ, add_assoc]

theorem combine_eq (coeff : Nat → K) (memory : Nat → V) (k : Nat) : combine coeff memory k = ∑ i ∈ Finset.range k, coeff i • memory i := by
  unfold combine
  rw [forRange_sum, zero_add]

/-! ## Crank-Nicolson -/

theorem cn_rhs (P : Prob K V) (theta t dt : K) (u r : V) (f : Option V) :
    P.residual (t + dt) (some u) (some u) (P.residual t (some u) (some u) r (1 / dt) (-(1 - theta)) (-(1 - theta)) 0 f) 0 0 (-theta) 1 f =
    (1 - theta) • f.getD (P.g t) + theta • f.getD (P.g (t + dt)) + (1 / dt) • P.A t u - (1 - theta) • P.B t u := by
  unfold Prob.residual
  simp only [Option.map_some, Option.getD_some]
  module

/-! ## L1 -/

theorem l1Coeff_eq (b : Nat → K) (k : Nat) (coeff : Nat → K) : l1Coeff b (k + 1) coeff 0 = b k / b 0 ∧
    ∀ j, j < k → l1Coeff b (k + 1) coeff (k - j) = (b j - b (j + 1)) / b 0 := by
  have key : ∀ m, m ≤ k →
      (List.range' 1 m).foldl (fun c j => fun i => if i = k + 1 - j then (b (j - 1) - b j) / b 0 else c i)
        (fun i => if i = 0 then b k / b 0 else coeff i) 0 = b k / b 0 ∧
      ∀ j, j < m → (List.range' 1 m).foldl (fun c j => fun i => if i = k + 1 - j then (b (j - 1) - b j) / b 0 else c i)
        (fun i => if i = 0 then b k / b 0 else coeff i) (k - j) = (b j - b (j + 1)) / b 0 := by
    intro m
    induction m with
    | zero => intro _; exact ⟨by simp, fun j hj => absurd hj (by omega)⟩
    | succ m ih =>
      intro hm
      obtain ⟨h1, h2⟩ := ih (by omega)
      rw [List.range'_1_concat, List.foldl_append]
      simp only [List.foldl_cons, List.foldl_nil]
      refine ⟨?_, fun j hj => ?_⟩
      · rw [if_neg (by omega)]; exact h1
      · by_cases e : j = m
        · subst e
          rw [if_pos (by omega), Nat.add_sub_cancel_left, Nat.add_comm 1 j]
        · rw [if_neg (by omega)]; exact h2 j (by omega)
  exact key k (le_refl _)

theorem parts (b : Nat → K) (f : Nat → V) (n : Nat) : ∑ j ∈ Finset.range (n + 1), b j • (f j - f (j + 1)) =
    b 0 • f 0 - ∑ j ∈ Finset.range n, (b j - b (j + 1)) • f (j + 1) - b n • f (n + 1) := by
  induction n with
  | zero => simp [smul_sub]
  | succ n ih =>
    rw [Finset.sum_range_succ, ih, Finset.sum_range_succ]
    module

/-- The combination in a step, in terms of the differences of the L1 scheme. -/
theorem l1_combine (b : Nat → K) (hb : b 0 ≠ 0) (coeff : Nat → K) (mem : Nat → V) (n : Nat) :
    b 0 • (mem (n + 1) - combine (l1Coeff b (n + 1) coeff) mem (n + 1)) =
      ∑ j ∈ Finset.range (n + 1), b j • (mem (n + 1 - j) - mem (n + 1 - j - 1)) := by
  obtain ⟨h1, h2⟩ := l1Coeff_eq b n coeff
  have e1 : ∑ j ∈ Finset.range (n + 1), b j • (mem (n + 1 - j) - mem (n + 1 - j - 1)) =
      ∑ j ∈ Finset.range (n + 1), b j • ((fun j => mem (n + 1 - j)) j - (fun j => mem (n + 1 - j)) (j + 1)) := by
    refine Finset.sum_congr rfl fun j _ => ?_
    rfl
  rw [e1, parts, combine_eq, Finset.sum_range_succ']
  have e2 : ∑ i ∈ Finset.range n, l1Coeff b (n + 1) coeff (i + 1) • mem (i + 1) =
      ∑ j ∈ Finset.range n, ((b j - b (j + 1)) / b 0) • mem (n - j) := by
    rw [← Finset.sum_range_reflect]
    refine Finset.sum_congr rfl fun j hj => ?_
    have hj := Finset.mem_range.1 hj
    rw [show n - 1 - j + 1 = n - j by omega, h2 j hj]
  rw [e2, h1]
  have e3 : ∑ j ∈ Finset.range n, (b j - b (j + 1)) • mem (n + 1 - (j + 1)) = b 0 • ∑ j ∈ Finset.range n, ((b j - b (j + 1)) / b 0) • mem (n - j) := by
    rw [Finset.smul_sum]
    refine Finset.sum_congr rfl fun j hj => ?_
    rw [smul_smul, mul_div_cancel₀ _ hb, Nat.add_sub_add_right]
  rw [e3]
  simp only [Nat.sub_zero, Nat.sub_self]
  rw [smul_sub, smul_add, smul_smul, mul_div_cancel₀ _ hb]
  abel

/-! ## IMEX -/

section
variable [DecidableEq K]

theorem loop_two (a b : Nat → K) (X Y : Nat → V) (dt : K) (x : V) (n : Nat) :
    forRange 0 n x (fun r j =>
      let r := if a j ≠ 0 then r - (dt * a j) • X j else r
      if b j ≠ 0 then r - (dt * b j) • Y j else r) =
    x - dt • ∑ j ∈ Finset.range n, b j • Y j - dt • ∑ j ∈ Finset.range n, a j • X j := by
  induction n with
  | zero => simp [forRange]
  | succ n ih =>
    rw [forRange_succ, ih, Finset.sum_range_succ, Finset.sum_range_succ]
    dsimp only
    by_cases ha : a n = 0 <;> by_cases hb : b n = 0
    · rw [if_neg (not_not.2 hb), if_neg (not_not.2 ha), ha, hb]; module
    · rw [if_pos hb, if_neg (not_not.2 ha), ha]; module
    · rw [if_neg (not_not.2 hb), if_pos ha, hb]; module
    · rw [if_pos hb, if_pos ha]; module

theorem loop_one (b : Nat → K) (Y : Nat → V) (dt : K) (x : V) (n : Nat) :
    forRange 0 n x (fun r j => if b j ≠ 0 then r + (dt * b j) • Y j else r) = x + dt • ∑ j ∈ Finset.range n, b j • Y j := by
  induction n with
  | zero => simp [forRange]
  | succ n ih =>
    rw [forRange_succ, ih, Finset.sum_range_succ]
    by_cases hb : b n = 0
    · rw [if_neg (not_not.2 hb), hb]; module
    · rw [if_pos hb]; module

theorem colSum_eq (s : Nat) (A : Nat → Nat → K) (k : Nat) : colSum s A k = ∑ i ∈ Finset.range s, A i k := by
  unfold colSum
  rw [forRange_sum, zero_add]

theorem rowZero_iff (s : Nat) (A : Nat → Nat → K) (k : Nat) : rowZero s A k = true ↔ ∀ j, j < s → A k j = 0 := by
  unfold rowZero
  simp

theorem used_of (T : Tableau K) (h : T.ColumnsOK) (k : Nat) (hk : k < T.s) :
    ((∃ i, i < T.s ∧ T.AExpl i k ≠ 0) ∨ T.bExpl k ≠ 0 → used T.s T.AExpl T.bExpl k = true) ∧
    ((∃ i, i < T.s ∧ T.AImpl i k ≠ 0) ∨ T.bImpl k ≠ 0 → used T.s T.AImpl T.bImpl k = true) := by
  obtain ⟨h1, h2⟩ := h k hk
  unfold used
  simp only [colSum_eq, decide_eq_true_eq]
  constructor
  · rintro (⟨i, hi, h⟩ | h)
    · by_cases e : ∑ i ∈ Finset.range T.s, T.AExpl i k = 0
      · exact Or.inr ((h1 e i hi).resolve_left h)
      · exact Or.inl e
    · exact Or.inr h
  · rintro (⟨i, hi, h⟩ | h)
    · by_cases e : ∑ i ∈ Finset.range T.s, T.AImpl i k = 0
      · exact Or.inr ((h2 e i hi).resolve_left h)
      · exact Or.inl e
    · exact Or.inr h

theorem upd_same (f : Nat → V) (k : Nat) (v : V) : upd f k v k = v := if_pos rfl

theorem upd_ne (f : Nat → V) (k i : Nat) (v : V) (h : i ≠ k) : upd f k v i = f i := if_neg h

theorem forces_force (S : IMEX K V) (t dt : K) (forcing : Option (Nat → V)) (k : Nat) (hk : k < S.T.s)
    (hu : used S.T.s S.T.AImpl S.T.bImpl k = true) :
    (S.forces t dt forcing).force k = S.P.f forcing (fun j => t + S.T.c j * dt) k := by
  unfold IMEX.forces
  dsimp only
  have : ∀ n, k < n → forRange 0 n S.force (fun f k => if used S.T.s S.T.AImpl S.T.bImpl k then
      upd f k (S.P.residual (t + S.T.c k * dt) none none (f k) 0 0 0 (-1) 0 (forcing.map fun F => F k)) else f) k =
      S.P.f forcing (fun j => t + S.T.c j * dt) k := by
    intro n
    induction n with
    | zero => intro h; omega
    | succ n ih =>
      intro h
      rw [forRange_succ]
      by_cases e : k = n
      · subst e
        rw [if_pos hu, upd_same]
        unfold ProbIE.residual ProbIE.f
        simp
      · have := ih (by omega)
        split
        · rw [upd_ne _ _ _ _ e]; exact this
        · exact this
  exact this _ hk

end

end PyNucleus.TimeStepping
