import Verif.Proof.Multigrid3
import Verif.Spec.GMRES
import Mathlib.Algebra.Field.Rat
import Mathlib.Algebra.Order.Ring.Rat

/-!
# C52: iteration matrix of the multigrid solver

Full statement: for every hierarchy, `iterationMatrix()` returns the matrix `I - B A` of one cycle.
This fails for columns with a small residual: the solver is used with the tolerance of the object and does not
iterate if `|A e_i| <= tol`, so the column is `e_i`.
-/

namespace PyNucleus.Props.C52

open PyNucleus.Spec PyNucleus.Multigrid

variable {K : Type} [Field K] [LinearOrder K]

/-- Unit vector. -/
private theorem unit_len (n i : Nat) : ((List.replicate n (0 : K)).set i 1).length = n := by simp

private theorem zero_len (n : Nat) : (List.replicate n (0 : K)).length = n := by simp

private theorem zero_toV (n : Nat) : toV n (List.replicate n (0 : K)) = 0 :=
  toV_ext fun i hi => by rw [List.getD_eq_getElem?_getD, List.getElem?_replicate, if_pos hi]; rfl

/-- One column: either the solver iterates once, or it returns the unit vector. -/
private theorem column (S : MG K) (T : Mats K S.H.n) (hD : Describes S.H T S.L) (hL : 0 < S.L) (hcyc : S.cycle = .V ∨ S.cycle = .W)
    (r : List K) (hr : r.length = S.H.n S.L) (i : Nat) (mem : Mems K) (hm : MemOK S.H.n S.L mem) :
    ∃ k x' res mem', MG.solve { S with x0 := some ((List.replicate (S.H.n S.L) (0 : K)).set i 1), maxIter := 1 }
        (List.replicate (S.H.n S.L) 0) (List.replicate (S.H.n S.L) 0) r mem = some (k, x', res, mem') ∧ MemOK S.H.n S.L mem' ∧
      toV (S.H.n S.L) x' = if gt? (resNorm S.sqrt (T.A S.L) 0 (toV _ ((List.replicate (S.H.n S.L) (0 : K)).set i 1)))
          (S.tol (T.A S.L) 0 (toV _ ((List.replicate (S.H.n S.L) (0 : K)).set i 1))) = true
        then (1 - T.B S.cycle.gamma S.L * T.A S.L).mulVec (toV _ ((List.replicate (S.H.n S.L) (0 : K)).set i 1))
        else toV _ ((List.replicate (S.H.n S.L) (0 : K)).set i 1) := by
  obtain ⟨k, x', m', a1, a2, a3, a4, a5, a6, a7⟩ := solve_ok
    { S with x0 := some ((List.replicate (S.H.n S.L) (0 : K)).set i 1), maxIter := 1 } hD hL
    (List.replicate (S.H.n S.L) 0) (List.replicate (S.H.n S.L) 0) r mem (zero_len _) (zero_len _) hr
    (fun y hy => by cases hy; exact unit_len _ _) hm
  refine ⟨_, x', _, m', a1, a3, ?_⟩
  dsimp only at a4 a5 a6 a7
  generalize he : (List.replicate (S.H.n S.L) (0 : K)).set i 1 = e at *
  have hb : S.cycle.before = 0 := by rcases hcyc with h | h <;> rw [h] <;> rfl
  have hf : MG.first { S with x0 := some e, maxIter := 1 } T (toV (S.H.n S.L) (List.replicate (S.H.n S.L) (0 : K))) = toV _ e := by
    unfold MG.first MG.guess
    dsimp only
    rcases hcyc with h | h <;> rw [h] <;> rfl
  have hg : MG.guess { S with x0 := some e, maxIter := 1 } = toV _ e := rfl
  have htol : MG.tol { S with x0 := some e, maxIter := 1 } (T.A S.L) 0 (toV _ e) = S.tol (T.A S.L) 0 (toV _ e) := rfl
  rw [hf, zero_toV] at a4 a6 a7
  rw [hg, htol] at a6 a7
  rw [hb] at a5 a6
  split
  · rename_i hgt
    have hk : k = 1 := by
      rcases a6 with h | h
      · exact h
      · rcases Nat.eq_zero_or_pos k with h0 | h0
        · subst h0
          rw [iterate] at h
          rw [h] at hgt
          cases hgt
        · omega
    subst hk
    rw [a4]
    simp only [iterate, zero_sub, Matrix.sub_mulVec, Matrix.one_mulVec, Matrix.mulVec_neg, Matrix.mulVec_mulVec]
    exact (sub_eq_add_neg _ _).symm
  · rename_i hgt
    have hk : k = 0 := by
      rcases Nat.eq_zero_or_pos k with h0 | h0
      · exact h0
      · exact absurd (a7 0 h0) hgt
    subst hk
    rw [a4, iterate]

/-- The columns that the method returns: right where the residual of the unit vector exceeds the tolerance,
the unit vector itself where not.  What is missing for the full statement: it fails otherwise, see below. -/
theorem columns_partial (S : MG K) (T : Mats K S.H.n) (hD : Describes S.H T S.L) (hL : 0 < S.L) (hcyc : S.cycle = .V ∨ S.cycle = .W)
    (r : List K) (hr : r.length = S.H.n S.L) : ∀ (is : List Nat) (mem : Mems K), MemOK S.H.n S.L mem →
    ∃ cols, S.iterationMatrix r is mem = some cols ∧ cols.map (toV (S.H.n S.L)) = is.map fun i =>
      if gt? (resNorm S.sqrt (T.A S.L) 0 (toV _ ((List.replicate (S.H.n S.L) (0 : K)).set i 1)))
          (S.tol (T.A S.L) 0 (toV _ ((List.replicate (S.H.n S.L) (0 : K)).set i 1))) = true
        then (1 - T.B S.cycle.gamma S.L * T.A S.L).mulVec (toV _ ((List.replicate (S.H.n S.L) (0 : K)).set i 1))
        else toV _ ((List.replicate (S.H.n S.L) (0 : K)).set i 1) := by
  intro is
  induction is with
  | nil => intro mem _; exact ⟨[], rfl, rfl⟩
  | cons i is ih =>
    intro mem hm
    obtain ⟨k, x', res, m', a1, a2, a3⟩ := column S T hD hL hcyc r hr i mem hm
    obtain ⟨cols, b1, b2⟩ := ih m' a2
    refine ⟨x' :: cols, ?_, ?_⟩
    · unfold MG.iterationMatrix
      dsimp only
      rw [a1]
      simp only [Option.bind_eq_bind, Option.bind_some, b1]
    · rw [List.map_cons, List.map_cons, b2, a3]

/-- Two levels of one unknown, `A = 1/4`, exact smoother and coarse solver. -/
private def exH : Hier ℚ where
  n := fun _ => 1
  A := fun _ x _ => [x.getD 0 0 / 4]
  R := fun _ x _ => [x.getD 0 0]
  P := fun _ x _ => [x.getD 0 0]
  smooth := fun _ _ _ b _ t => some ([b.getD 0 0 * 4], t)
  coarse := fun b _ => some [b.getD 0 0 * 4]

private def exT : Mats ℚ exH.n where
  A := fun _ => Matrix.diagonal fun _ => 1/4
  R := fun _ => (1 : Matrix (Fin 1) (Fin 1) ℚ)
  P := fun _ => (1 : Matrix (Fin 1) (Fin 1) ℚ)
  N := fun _ _ => Matrix.diagonal fun _ => 4
  C := Matrix.diagonal fun _ => 4

/-- A square root that is right where defined. -/
private def exSqrt (a : ℚ) : Option ℚ := if a = 1/16 then some (1/4) else if a = 0 then some 0 else none

private def exS (tol : ℚ) : MG ℚ := ⟨exH, 1, .V, 10, tol, false, none, exSqrt⟩

private def exMem : Mems ℚ := fun _ => ⟨[5], [6], [7]⟩

private theorem exD : Describes exH exT 1 := by
  refine ⟨fun l _ x y _ _ => ⟨rfl, toV_ext fun i hi => ?_⟩, fun l _ x y _ _ => ⟨rfl, toV_ext fun i hi => ?_⟩,
    fun l _ x y _ _ => ⟨rfl, toV_ext fun i hi => ?_⟩, fun l _ post simple b y t _ hy ht _ => ⟨_, _, rfl, rfl, ht, toV_ext fun i hi => ?_⟩,
    fun b x _ _ => ⟨_, rfl, rfl, toV_ext fun i hi => ?_⟩⟩
  all_goals
    have hi0 : i = 0 := by have : exH.n 0 = 1 := rfl
                           have : i < 1 := hi
                           omega
    subst hi0
  · simp only [exT, Matrix.mulVec_diagonal]
    change x.getD 0 0 / 4 = 1 / 4 * x.getD 0 0
    ring
  · change x.getD 0 0 = Matrix.mulVec (1 : Matrix (Fin 1) (Fin 1) ℚ) (toV 1 x) 0
    rw [Matrix.one_mulVec]; rfl
  · change x.getD 0 0 = Matrix.mulVec (1 : Matrix (Fin 1) (Fin 1) ℚ) (toV 1 x) 0
    rw [Matrix.one_mulVec]; rfl
  · simp only [exT, Pi.add_apply, Matrix.mulVec_diagonal, Pi.sub_apply]
    change b.getD 0 0 * 4 = y.getD 0 0 + 4 * (b.getD 0 0 - 1 / 4 * y.getD 0 0)
    ring
  · simp only [exT, Matrix.mulVec_diagonal]
    change b.getD 0 0 * 4 = 4 * b.getD 0 0
    ring

/-- With a small tolerance the matrix is right (one cycle is exact here): the hypotheses can be met. -/
example : (exS (1/8)).iterationMatrix [0] [0] exMem = some [[0]] ∧ MemOK exH.n 1 exMem := by
  refine ⟨by decide +kernel, fun l _ => ⟨rfl, rfl⟩, fun l _ => rfl⟩

/-- With tolerance `1/2` the identity is returned although the error matrix of the cycle is zero. -/
theorem iteration_matrix_fails :
    ∃ (S : MG ℚ) (T : Mats ℚ S.H.n) (mem : Mems ℚ), PyNucleus.Krylov.SqrtSound S.sqrt ∧ Describes S.H T S.L ∧ 0 < S.L ∧ S.cycle = .V ∧
      MemOK S.H.n S.L mem ∧ S.H.n S.L = 1 ∧ S.iterationMatrix [0] [0] mem = some [[1]] ∧
      1 - T.B S.cycle.gamma S.L * T.A S.L = 0 := by
  refine ⟨exS (1/2), exT, exMem, ?_, exD, by decide, rfl, ⟨fun l _ => ⟨rfl, rfl⟩, fun l _ => rfl⟩, rfl, by decide +kernel, ?_⟩
  · intro a s h
    change exSqrt a = some s at h
    unfold exSqrt at h
    split at h
    · cases h; rename_i e; rw [e]; constructor <;> norm_num
    · split at h
      · cases h; rename_i e; rw [e]; constructor <;> norm_num
      · cases h
  · change 1 - exT.B 1 (0 + 1) * exT.A (0 + 1) = 0
    rw [B_error]
    have : 1 - exT.N (0 + 1) true * exT.A (0 + 1) = 0 := by
      simp only [exT, Matrix.diagonal_mul_diagonal]
      norm_num
    rw [this, Matrix.zero_mul, Matrix.zero_mul]

end PyNucleus.Props.C52
