import Verif.Proof.Multigrid3
import Verif.Spec.Krylov
import Mathlib.Analysis.Real.Sqrt
import Mathlib.Algebra.Field.Rat
import Mathlib.Algebra.Order.Ring.Rat
import Mathlib.Algebra.Order.Field.Basic
import Mathlib.Tactic.FinCases
import Mathlib.Tactic.Ring
import Mathlib.Tactic.Linarith

/-!
# C28: multigrid cycle

`Describes H T L` only says that the operators of the hierarchy multiply by the matrices of `T`, that a smoother
maps `y` to `y + N (b - A y)` (see `separable_smoother`, `jacobi_preconditioner`) and that the coarse solver is linear.
-/

namespace PyNucleus.Props.C28

open PyNucleus.Spec PyNucleus.Smoothers PyNucleus.Multigrid PyNucleus.Krylov

variable {K : Type} [Field K]

/-- One cycle multiplies the error by `(I - N2 A)(I - P B' R A)(I - N1 A)`; `B'` is the coarse solver on level 0 and
`gamma` cycles of the next coarser level otherwise. -/
theorem cycle_error (H : Hier K) (T : Mats K H.n) (l : Nat) (hD : Describes H T (l + 1)) (gamma : Nat) (hg : 1 ≤ gamma)
    (b x s : List K) (mem : Mems K) (hb : b.length = H.n (l + 1)) (hx : x.length = H.n (l + 1)) (hm : MemOK H.n (l + 1) mem)
    (hs : (T.A (l + 1)).mulVec (toV _ s) = toV _ b) :
    ∃ x' mem', solveOnLevel H gamma (l + 1) b x false mem = some (x', mem') ∧ x'.length = H.n (l + 1) ∧
      toV (H.n (l + 1)) x' - toV _ s =
        ((1 - T.N (l + 1) true * T.A (l + 1)) *
          (1 - T.P l * (if l = 0 then T.B gamma l else iter (T.B gamma l) (T.A l) gamma) * T.R l * T.A (l + 1)) *
          (1 - T.N (l + 1) false * T.A (l + 1))).mulVec (toV _ x - toV _ s) ∧
      1 - iter (T.B gamma l) (T.A l) gamma * T.A l = (1 - T.B gamma l * T.A l) ^ gamma := by
  obtain ⟨x', m', a1, a2, _, _, a5⟩ := level_ok hD hg (l + 1) (le_refl _) b x false mem hb hx hm (by simp)
  refine ⟨x', m', a1, a2, ?_, iter_error _ _ _⟩
  rw [a5, if_neg (by omega), ← B_error, ← hs]
  simp only [Matrix.mulVec_sub, Matrix.sub_mulVec, Matrix.one_mulVec, Matrix.mulVec_mulVec]
  abel

/-- The exact solution is a fixed point on every level above the coarsest one. -/
theorem fixed_point (H : Hier K) (T : Mats K H.n) (L : Nat) (hD : Describes H T L) (hL : 0 < L) (gamma : Nat) (hg : 1 ≤ gamma)
    (b x : List K) (mem : Mems K) (hb : b.length = H.n L) (hx : x.length = H.n L) (hm : MemOK H.n L mem)
    (hs : (T.A L).mulVec (toV _ x) = toV _ b) : ∃ mem', solveOnLevel H gamma L b x false mem = some (x, mem') := by
  obtain ⟨x', m', a1, a2, _, _, a5⟩ := level_ok hD hg L (le_refl _) b x false mem hb hx hm (by simp)
  rw [if_neg (by omega), hs, sub_self, Matrix.mulVec_zero, add_zero] at a5
  rw [toV_inj a2 hx a5] at a1
  exact ⟨m', a1⟩

/-- As preconditioner, `maxIter` cycles from zero are multiplication by a matrix that does not depend on the
right hand side, on the old contents of the output and of the arrays of the levels; it leaves `(I - B A)^maxIter` of the error. -/
theorem linear_from_zero (H : Hier K) (T : Mats K H.n) (L : Nat) (hD : Describes H T L) (hL : 0 < L) (cycle : Cycle) (maxIter : Nat) :
    ∃ Q : Matrix (Fin (H.n L)) (Fin (H.n L)) K,
      (∀ (x y : List K) (mem : Mems K), x.length = H.n L → y.length = H.n L → MemOK H.n L mem →
        ∃ y' mem', precMatvec H cycle L maxIter x y mem = some (y', mem') ∧ y'.length = H.n L ∧ MemOK H.n L mem' ∧
          toV (H.n L) y' = Q.mulVec (toV _ x)) ∧
      1 - Q * T.A L = (1 - T.B cycle.value L * T.A L) ^ maxIter := by
  refine ⟨iter (T.B cycle.value L) (T.A L) maxIter, fun x y mem hx hy hm => ?_, iter_error _ _ _⟩
  obtain ⟨z1, z2⟩ := zeros_V (H.n L) y hy
  have := precLoop_ok hD hL (cycle := cycle.value) (by cases cycle <;> simp [Cycle.value]) x hx maxIter 0 (zeros y) true mem z1 hm
    (fun _ => rfl) (by rw [z2]; simp [iter])
  rw [Nat.zero_add] at this
  exact this

/-- Symmetric operators, `R` transposed to `P`, adjoint smoothers: the preconditioner is symmetric. -/
theorem symmetric (H : Hier K) (T : Mats K H.n) (L : Nat) (hD : Describes H T L) (hL : 0 < L) (cycle : Cycle) (maxIter : Nat)
    (hA : ∀ l, l ≤ L → (T.A l).IsSymm) (hC : T.C.IsSymm) (hR : ∀ l, l < L → T.R l = (T.P l).transpose)
    (hN : ∀ l, l < L → T.N (l + 1) true = (T.N (l + 1) false).transpose)
    (u v y z : List K) (mem mem2 : Mems K) (hu : u.length = H.n L) (hv : v.length = H.n L) (hy : y.length = H.n L)
    (hz : z.length = H.n L) (hm : MemOK H.n L mem) (hm2 : MemOK H.n L mem2) :
    ∃ y' z' m1 m2, precMatvec H cycle L maxIter u y mem = some (y', m1) ∧ precMatvec H cycle L maxIter v z mem2 = some (z', m2) ∧
      toV (H.n L) v ⬝ᵥ toV _ y' = toV (H.n L) u ⬝ᵥ toV _ z' := by
  have hg : 1 ≤ cycle.value := by cases cycle <;> simp [Cycle.value]
  obtain ⟨y1, y2⟩ := zeros_V (H.n L) y hy
  obtain ⟨z1, z2⟩ := zeros_V (H.n L) z hz
  obtain ⟨y', m1, a1, _, _, a4⟩ := precLoop_ok hD hL hg u hu maxIter 0 (zeros y) true mem y1 hm (fun _ => rfl) (by rw [y2]; simp [iter])
  obtain ⟨z', m2, b1, _, _, b4⟩ := precLoop_ok hD hL hg v hv maxIter 0 (zeros z) true mem2 z1 hm2 (fun _ => rfl) (by rw [z2]; simp [iter])
  refine ⟨y', z', m1, m2, a1, b1, ?_⟩
  rw [a4, b4, Matrix.dotProduct_mulVec, ← Matrix.mulVec_transpose, iter_transpose _ _ (hA L (le_refl _)),
    (B_symm T cycle.value L hA hC hR hN L (le_refl _)).eq, dotProduct_comm]

/-- The separable smoother is `y -> y + N (b - A y)` with `N` depending on the steps and the preconditioner only; with
transposed preconditioners and as many steps before as after, the smoothers are adjoint. -/
theorem separable_smoother (n : Nat) (A : List K → List K → List K) (M : Matrix (Fin n) (Fin n) K) (hA : Applies n A M)
    (prec : Bool → List K → List K → Option (List K)) (Q : Bool → Matrix (Fin n) (Fin n) K) (hQ : ∀ post, PrecApplies n (prec post) (Q post))
    (preSteps postSteps : Nat) :
    ∃ N : Bool → Matrix (Fin n) (Fin n) K,
      (∀ (post simple : Bool) (b y t t2 : List K), b.length = n → y.length = n → t.length = n → t2.length = n →
        (simple = true → toV n y = 0) →
        ∃ y' t', sepEval A prec preSteps postSteps b y post simple t t2 = some (y', t') ∧ y'.length = n ∧ t'.length = n ∧
          toV n y' = toV n y + (N post).mulVec (toV n b - M.mulVec (toV n y))) ∧
      (∀ post, 1 - N post * M = (1 - Q post * M) ^ (if post then postSteps else preSteps)) ∧
      (M.IsSymm → Q true = (Q false).transpose → preSteps = postSteps → N true = (N false).transpose) := by
  refine ⟨fun post => iter (Q post) M (if post then postSteps else preSteps), ?_, fun post => iter_error _ _ _, ?_⟩
  · intro post simple b y t t2 hb hy ht ht2 hs
    exact sepLoop_V hA (hQ post) b hb _ simple y t t2 hy ht ht2 hs
  · intro hM hQ e
    simp only [if_true, Bool.false_eq_true, if_false]
    rw [iter_transpose _ _ hM, ← hQ, e]

/-- The Jacobi preconditioner is a diagonal, hence symmetric, matrix. -/
theorem jacobi_preconditioner (n : Nat) (D : List K) (omega : K) (hD : D.length = n) :
    PrecApplies n (fun x y => some (jacobiMatvec D omega x y)) (Matrix.diagonal fun i => omega / toV n D i) := by
  intro x y hx hy
  refine ⟨_, rfl, ?_⟩
  unfold jacobiMatvec
  dsimp only
  have h := PyNucleus.CSR.forRange_set y D.length (by omega) fun i _ => x.getD i 0 * (D.map fun d => omega / d).getD i 0
  refine ⟨h.1.trans hy, toV_ext fun i hi => ?_⟩
  rw [h.2 i, if_pos (by omega), Matrix.mulVec_diagonal]
  have : (D.map fun d => omega / d).getD i 0 = omega / D.getD i 0 := by
    rw [List.getD_eq_getElem?_getD, List.getD_eq_getElem?_getD, List.getElem?_map, List.getElem?_eq_getElem (by omega)]
    rfl
  rw [this, mul_comm]
  rfl

/-- The outer loop: the returned vector is the `k`-th iterate of the cycle, `k` being the number reported (with full
multigrid the start counts as one); the recorded residuals are the norms of the true residuals of all iterates; it stops at the first
residual that is at most the tolerance or at the limit. -/
theorem outer_loop [LinearOrder K] [IsStrictOrderedRing K] (S : MG K) (hq : SqrtOK S.sqrt) (T : Mats K S.H.n) (hD : Describes S.H T S.L)
    (hL : 0 < S.L) (b x r : List K) (mem : Mems K) (hb : b.length = S.H.n S.L) (hx : x.length = S.H.n S.L) (hr : r.length = S.H.n S.L)
    (h0 : ∀ x0, S.x0 = some x0 → x0.length = S.H.n S.L) (hm : MemOK S.H.n S.L mem) :
    ∃ (k : Nat) (x' : List K) (mem' : Mems K) (norms : Nat → K) (tol : K),
      S.solve b x r mem = some (S.cycle.before + k, x', (List.range (k + 1)).map (fun i => some (norms i)), mem') ∧
      (∀ i, 0 ≤ norms i ∧ norms i * norms i =
        (toV _ b - (T.A S.L).mulVec (iterate (T.B S.cycle.gamma S.L) (T.A S.L) (toV _ b) (S.first T (toV _ b)) i)) ⬝ᵥ
        (toV _ b - (T.A S.L).mulVec (iterate (T.B S.cycle.gamma S.L) (T.A S.L) (toV _ b) (S.first T (toV _ b)) i))) ∧
      x'.length = S.H.n S.L ∧ toV (S.H.n S.L) x' = iterate (T.B S.cycle.gamma S.L) (T.A S.L) (toV _ b) (S.first T (toV _ b)) k ∧
      (S.relTol = false → tol = S.tolerance) ∧
      (S.relTol = true → ∃ n0, 0 ≤ n0 ∧ n0 * n0 = (toV _ b - (T.A S.L).mulVec S.guess) ⬝ᵥ (toV _ b - (T.A S.L).mulVec S.guess) ∧
        tol = S.tolerance * n0) ∧
      k ≤ S.maxIter - S.cycle.before ∧ (norms k ≤ tol ∨ k = S.maxIter - S.cycle.before) ∧ ∀ i, i < k → tol < norms i := by
  have nn : ∀ v : Fin (S.H.n S.L) → K, 0 ≤ v ⬝ᵥ v := fun v => Finset.sum_nonneg fun i _ => mul_self_nonneg _
  have hN : ∀ v : Fin (S.H.n S.L) → K, ∃ s, resNorm S.sqrt (T.A S.L) (toV _ b) v = some s ∧ 0 ≤ s ∧
      s * s = (toV _ b - (T.A S.L).mulVec v) ⬝ᵥ (toV _ b - (T.A S.L).mulVec v) := fun v => hq _ (nn _)
  choose f f1 f2 f3 using hN
  obtain ⟨tol, ht, ht1, ht2⟩ : ∃ tol, S.tol (T.A S.L) (toV _ b) S.guess = some tol ∧ (S.relTol = false → tol = S.tolerance) ∧
      (S.relTol = true → ∃ n0, 0 ≤ n0 ∧ n0 * n0 = (toV _ b - (T.A S.L).mulVec S.guess) ⬝ᵥ (toV _ b - (T.A S.L).mulVec S.guess) ∧
        tol = S.tolerance * n0) := by
    unfold MG.tol
    cases hrel : S.relTol with
    | true => exact ⟨S.tolerance * f S.guess, by rw [f1]; rfl, by simp, fun _ => ⟨_, f2 _, f3 _, rfl⟩⟩
    | false => exact ⟨S.tolerance, rfl, fun _ => rfl, by simp⟩
  obtain ⟨k, x', m', a1, a2, _, a4, a5, a6, a7⟩ := solve_ok S hD hL b x r mem hb hx hr h0 hm
  refine ⟨k, x', m', fun i => f (iterate (T.B S.cycle.gamma S.L) (T.A S.L) (toV _ b) (S.first T (toV _ b)) i), tol, ?_,
    fun i => ⟨f2 _, f3 _⟩, a2, a4, ht1, ht2, a5, ?_, ?_⟩
  · rw [a1]; simp only [f1]
  · rw [f1, ht] at a6
    rcases a6 with h | h
    · exact Or.inr h
    · left
      simpa [gt?] using h
  · intro i hi
    have := a7 i hi
    rw [f1, ht] at this
    simpa [gt?] using this

/-- Starting from the exact solution, no cycle changes it. -/
theorem solve_exact [LinearOrder K] (S : MG K) (T : Mats K S.H.n) (hD : Describes S.H T S.L)
    (hL : 0 < S.L) (hcyc : S.cycle = .V ∨ S.cycle = .W) (b x x0 r : List K) (mem : Mems K) (hb : b.length = S.H.n S.L)
    (hx : x.length = S.H.n S.L) (hr : r.length = S.H.n S.L)
    (h0 : S.x0 = some x0) (hl : x0.length = S.H.n S.L) (hm : MemOK S.H.n S.L mem) (hs : (T.A S.L).mulVec (toV _ x0) = toV _ b) :
    ∃ k res mem', S.solve b x r mem = some (k, x0, res, mem') := by
  obtain ⟨k, x', m', a1, a2, _, a4, _⟩ := solve_ok S hD hL b x r mem hb hx hr (fun y hy => by rw [h0] at hy; cases hy; exact hl) hm
  have e : S.first T (toV _ b) = toV _ x0 := by
    unfold MG.first MG.guess
    rw [h0]
    rcases hcyc with h | h <;> rw [h] <;> rfl
  rw [e, iterate_fixed _ _ _ _ hs] at a4
  rw [toV_inj a2 hl a4] at a1
  exact ⟨_, _, _, a1⟩

/-! ## A two-level hierarchy with damped Jacobi smoothing -/

/-- Dense matrix, given by its rows. -/
private def rows (F : Type) [Field F] (m : List (List F)) (x _ : List F) : List F := m.map fun r => ((List.range r.length).map fun j => r.getD j 0 * x.getD j 0).sum

private def exA (F : Type) [Field F] : List F → List F → List F := rows F [[2, -1, 0], [-1, 2, -1], [0, -1, 2]]

private def exH (F : Type) [Field F] : Hier F where
  n := fun l => if l = 0 then 1 else 3
  A := fun _ => exA F
  R := fun _ => rows F [[1/2, 1, 1/2]]
  P := fun _ => rows F [[1/2], [1], [1/2]]
  smooth := fun _ post simple b y t => sepEval (exA F) (fun _ x y => some (jacobiMatvec [2, 2, 2] (2/3) x y)) 1 1 b y post simple t [7, 7, 7]
  coarse := fun b x => some (x.set 0 (b.getD 0 0))

private def exMem (F : Type) [Field F] : Mems F := fun l => ⟨List.replicate ((exH F).n l) 5, List.replicate ((exH F).n l) 6, List.replicate ((exH F).n l) 7⟩

private def exM (F : Type) [Field F] : Matrix (Fin 3) (Fin 3) F := fun i j =>
  if (i : Nat) = j then 2 else if (i : Nat) + 1 = j ∨ (j : Nat) + 1 = i then -1 else 0

private def exT (F : Type) [Field F] : Mats F (exH F).n where
  A := fun l => match l with
    | 0 => 1
    | _ + 1 => exM F
  R := fun _ => fun _ j => if (j : Nat) = 1 then 1 else 1/2
  P := fun _ => fun i _ => if (i : Nat) = 1 then 1 else 1/2
  N := fun _ _ => Matrix.diagonal fun _ => 1/3
  C := 1

private theorem exDescribes (F : Type) [Field F] [LinearOrder F] [IsStrictOrderedRing F] : Describes (exH F) (exT F) 1 := by
  have hA : Applies 3 (exA F) (exM F) := by
    intro x y _ _
    refine ⟨rfl, toV_ext fun i hi => ?_⟩
    rcases i with _ | _ | _ | i
    all_goals first
      | omega
      | (simp [exA, rows, exM, Matrix.mulVec, dotProduct, Fin.sum_univ_three, toV, List.range_succ]; try ring)
  refine ⟨fun l hl => ?_, fun l hl x y _ _ => ?_, fun l hl x y _ _ => ?_, fun l hl post simple b y t hb hy ht hs => ?_, fun b x _ hx => ?_⟩
  · have : l = 0 := by omega
    subst this
    exact hA
  · have : l = 0 := by omega
    subst this
    refine ⟨rfl, toV_ext fun i hi => ?_⟩
    have : i = 0 := by have : (exH F).n 0 = 1 := rfl
                       omega
    subst this
    change _ = dotProduct (m := Fin 3) _ _
    simp [rows, exH, exT, dotProduct, Fin.sum_univ_three, toV, List.range_succ]
    try ring
  · have : l = 0 := by omega
    subst this
    refine ⟨rfl, toV_ext fun i hi => ?_⟩
    change _ = dotProduct (m := Fin 1) _ _
    have hi' : i < 3 := hi
    rcases i with _ | _ | _ | i
    all_goals first
      | omega
      | (simp [rows, exH, exT, dotProduct, toV, List.range_succ])
  · have : l = 0 := by omega
    subst this
    have hQ := jacobi_preconditioner 3 ([2, 2, 2] : List F) (2/3) rfl
    obtain ⟨y', t', a1, a2, a3, a4⟩ := sepLoop_V hA hQ b hb 1 simple y t [7, 7, 7] hy ht rfl hs
    refine ⟨y', t', ?_, a2, a3, ?_⟩
    · change sepLoop (exA F) _ b (if post then 1 else 1) simple y t [7, 7, 7] = _
      rw [ite_self]
      exact a1
    · rw [iter_one] at a4
      have e : (Matrix.diagonal fun i => 2 / 3 / toV 3 ([2, 2, 2] : List F) i) = (Matrix.diagonal fun _ => 1/3 : Matrix (Fin 3) (Fin 3) F) := by
        congr 1
        funext i
        fin_cases i <;> (simp [toV]; norm_num)
      rw [e] at a4
      exact a4
  · refine ⟨_, rfl, by simpa using hx, toV_ext fun i hi => ?_⟩
    have : i = 0 := by have : (exH F).n 0 = 1 := rfl
                       omega
    subst this
    have hx' : x.length = 1 := hx
    obtain ⟨a, rfl⟩ := List.length_eq_one_iff.1 hx'
    change b.getD 0 0 = Matrix.mulVec (1 : Matrix (Fin 1) (Fin 1) F) (toV 1 b) 0
    rw [Matrix.one_mulVec]
    rfl

example : MemOK (exH ℚ).n 1 (exMem ℚ) := by
  refine ⟨fun l _ => ⟨List.length_replicate, List.length_replicate⟩, fun l _ => List.length_replicate⟩

example : ((exT ℚ).A 1).IsSymm ∧ (exT ℚ).C.IsSymm ∧ (exT ℚ).R 0 = ((exT ℚ).P 0).transpose ∧ (exT ℚ).N 1 true = ((exT ℚ).N 1 false).transpose := by
  refine ⟨?_, Matrix.transpose_one, ?_, (Matrix.diagonal_transpose _).symm⟩
  · change (exM ℚ).IsSymm
    refine Matrix.IsSymm.ext fun i j => ?_
    fin_cases i <;> fin_cases j <;> simp [exM]
  · ext i j
    rfl

example : (precMatvec (exH ℚ) .V 1 1 [1, 2, 3] [9, 9, 9] (exMem ℚ)).map Prod.fst = some [7/3, 32/9, 29/9] := by decide +kernel

/-- The hypotheses of `outer_loop` with real numbers. -/
private noncomputable def exS : MG ℝ := ⟨exH ℝ, 1, .V, 5, 1, false, none, fun a => if 0 ≤ a then some (Real.sqrt a) else none⟩

example : SqrtOK exS.sqrt ∧ Describes exS.H (exT ℝ) exS.L ∧ 0 < exS.L ∧ MemOK exS.H.n exS.L (exMem ℝ) := by
  refine ⟨fun a ha => ⟨Real.sqrt a, by simp [exS, ha], Real.sqrt_nonneg a, Real.mul_self_sqrt ha⟩, exDescribes ℝ, by simp [exS], ?_⟩
  exact ⟨fun l _ => ⟨List.length_replicate, List.length_replicate⟩, fun l _ => List.length_replicate⟩

end PyNucleus.Props.C28
