import Verif.Proof.GMRES
import Mathlib.Algebra.Order.Ring.Rat
import Mathlib.Algebra.Field.Rat

/-! # C26 GMRES -/

namespace PyNucleus.Props.C26

open PyNucleus.Krylov PyNucleus.Spec PyNucleus.Blas

variable {K : Type} [Field K] [LinearOrder K] {S : Gmres K} {M N : Matrix (Fin S.n) (Fin S.n) K}

/-- Well-formed call: `A` applies `M`, the preconditioner applies `N` (the identity without one), all arrays have
`n` entries, any contents of the work arrays. -/
structure Call (S : Gmres K) (M N : Matrix (Fin S.n) (Fin S.n) K) (b x : List K) (g : GM K) : Prop where
  A : Applies S.n S.A M
  prec : S.PrecIs N
  sqrt : SqrtSound S.sqrt
  x0 : ∀ x0, S.x0 = some x0 → x0.length = S.n
  b : b.length = S.n
  x : x.length = S.n
  g : g.Sized S.n

/-- Squared norm. -/
def nsq (v : Fin S.n → K) : K := v ⬝ᵥ v

variable [IsStrictOrderedRing K]

/-- One cycle that does not end in a breakdown: the correction lies in the Krylov space of the preconditioned operator
and the initial residual, the new residual is minimal over that space, and the last reported residual is its norm. -/
theorem cycle_minimises_partial (hf : S.FlexOK) (hbl : S.blas = true) {b x : List K} {g g1 g2 : GM K} (h : Call S M N b x g) {tol : K}
    {i : Nat} {e : Exit} (hb : S.begin b g = some g1) (hres : g.residuals = []) (hc : S.cycle tol g1 = some (i, g2, e)) (he : e ≠ .breakdown) :
    ∃ v ∈ krylov (S.opT M N) (S.effRes M N (toV S.n b) (toV S.n g.x)) (i + 1),
      toV S.n g2.x = toV S.n g.x + (S.opU N).mulVec v ∧
      (∃ a, g2.residuals.getLast? = some a ∧ 0 ≤ a ∧ (e = .tolerance → a < tol) ∧ nsq (S.effRes M N (toV S.n b) (toV S.n g2.x)) = a * a) ∧
      ∀ w ∈ krylov (S.opT M N) (S.effRes M N (toV S.n b) (toV S.n g.x)) (i + 1),
        nsq (S.effRes M N (toV S.n b) (toV S.n g2.x)) ≤ nsq (S.effRes M N (toV S.n b) (toV S.n g.x + (S.opU N).mulVec w)) := by
  obtain ⟨b1, b2, b3, b4, b5, b6⟩ := begin_ok h.A h.prec h.sqrt h.b h.g hb
  rw [if_pos hres] at b6
  obtain ⟨_, c2, _⟩ := cycle_ok h.A h.prec hf h.sqrt hbl tol b1 b5 ⟨_, by rw [b6]; rfl, rfl⟩ hc
  obtain ⟨v, v1, v2, ⟨a, a1, a2, a3, a4⟩, v4⟩ := c2 he
  rw [b3] at v1 a4 v4
  rw [b2] at v2
  refine ⟨v, v1, v2, ⟨a, a1, a2, a3, ?_⟩, fun w hw => ?_⟩
  · rw [v2, effRes_add]; exact a4
  · rw [v2, effRes_add, effRes_add]; exact v4 w hw

omit [IsStrictOrderedRing K] in
private theorem prepare_sized {b x : List K} {g : GM K} (h : Call S M N b x g) :
    ({ g with x := (S.prepare b x g.r).1, r := (S.prepare b x g.r).2.1, residuals := [] } : GM K).Sized S.n := by
  obtain ⟨p1, p2, _⟩ := prepare_V h.A h.x0 h.x h.b h.g.r
  exact ⟨p1, p2, h.g.Ar, h.g.Q, h.g.Z⟩

private theorem outer_ok (hf : S.FlexOK) (hbl : S.blas = true) (hA : Applies S.n S.A M) (hN : S.PrecIs N) (hs : SqrtSound S.sqrt) {b : List K}
    (hb : b.length = S.n) (tol : K) : ∀ (k all : Nat) (e : Exit) (g : GM K), g.Sized S.n →
    (e ≠ .breakdown → (0 < k ∧ e = .exhausted ∧ g.residuals = []) ∨
      ∃ a, g.residuals.getLast? = some a ∧ 0 ≤ a ∧ (e = .tolerance → a < tol) ∧ nsq (S.effRes M N (toV S.n b) (toV S.n g.x)) = a * a) →
    ∀ l g' e', S.outer tol b k all e g = some (l, g', e') → e' ≠ .breakdown →
      ∃ a, g'.residuals.getLast? = some a ∧ 0 ≤ a ∧ (e' = .tolerance → a < tol) ∧ nsq (S.effRes M N (toV S.n b) (toV S.n g'.x)) = a * a := by
  intro k
  induction k with
  | zero =>
    intro all e g hg hr l g' e' h he
    unfold Gmres.outer at h
    cases h
    rcases hr he with h | h
    · exact absurd h.1 (lt_irrefl _)
    · exact h
  | succ k ih =>
    intro all e g hg hr l g' e' h he
    unfold Gmres.outer at h
    split at h
    · rename_i hne
      cases h
      rcases hr he with h | h
      · exact absurd h.2.1 hne
      · exact h
    · rename_i hne
      have hex : e = .exhausted := not_not.1 hne
      cases hbg : S.begin b g with
      | none => rw [hbg] at h; cases h
      | some g1 =>
        rw [hbg] at h
        simp only [Option.bind_eq_bind, Option.bind_some] at h
        obtain ⟨b1, b2, b3, b4, b5, b6⟩ := begin_ok hA hN hs hb hg hbg
        have hlast : ∃ a, g1.residuals.getLast? = some a ∧ a = |g1.gamma 0| := by
          rcases hr (by rw [hex]; decide) with h | ⟨a, a1, a2, _, a4⟩
          · rw [b6, if_pos h.2.2]; exact ⟨_, rfl, rfl⟩
          · rw [b6, if_neg (by rintro e; rw [e] at a1; cases a1)]
            refine ⟨a, a1, ?_⟩
            have : a * a = g1.gamma 0 * g1.gamma 0 := by rw [b5, b3]; exact a4.symm
            rw [abs_of_nonneg b4]
            exact (mul_self_inj a2 b4).1 this
        split at h
        · rename_i hlt
          cases h
          obtain ⟨a, a1, rfl⟩ := hlast
          refine ⟨_, a1, abs_nonneg _, fun _ => hlt, ?_⟩
          rw [abs_mul_abs_self, b5, b3, b2]
          rfl
        · cases hcy : S.cycle tol g1 with
          | none => rw [hcy] at h; cases h
          | some q =>
            obtain ⟨i, g2, e2⟩ := q
            rw [hcy] at h
            simp only [Option.bind_some] at h
            obtain ⟨c1, c2, _⟩ := cycle_ok hA hN hf hs hbl tol b1 b5 hlast hcy
            refine ih (all + i) e2 g2 c1 (fun h2 => Or.inr ?_) l g' e' h he
            obtain ⟨v, v1, v2, ⟨a, a1, a2, a3, a4⟩, _⟩ := c2 h2
            refine ⟨a, a1, a2, a3, ?_⟩
            rw [v2, b2, effRes_add, ← b3]
            exact a4

/-- A whole call whose last cycle does not break down reports the norm of the residual of the returned solution, and
that is below the tolerance if the call stopped as converged. -/
theorem converged_partial (hf : S.FlexOK) (hbl : S.blas = true) (hr : 0 < S.restarts) {b x : List K} {g g' : GM K} (h : Call S M N b x g)
    {k : Nat} {e : Exit} (hc : S.gmres b x g = some (k, g', e)) (he : e ≠ .breakdown) :
    ∃ a tol, (S.prepare b x g.r).2.2 = some tol ∧ g'.residuals.getLast? = some a ∧ 0 ≤ a ∧ (e = .tolerance → a < tol) ∧
      nsq (S.effRes M N (toV S.n b) (toV S.n g'.x)) = a * a := by
  unfold Gmres.gmres at hc
  dsimp only at hc
  cases ht : (S.prepare b x g.r).2.2 with
  | none => rw [ht] at hc; cases hc
  | some tol =>
    rw [ht] at hc
    simp only [Option.bind_eq_bind, Option.bind_some] at hc
    obtain ⟨a, a1, a2, a3, a4⟩ := outer_ok hf hbl h.A h.prec h.sqrt h.b tol S.restarts 0 .exhausted _ (prepare_sized h)
      (fun _ => Or.inl ⟨hr, rfl, rfl⟩) k g' e hc he
    exact ⟨a, tol, rfl, a1, a2, a3, a4⟩

/-- A breakdown in the first iteration of a cycle yields the exact solution of the preconditioned equation. -/
theorem first_breakdown_exact_partial (hf : S.FlexOK) (hbl : S.blas = true) (heps : S.eps = 0) {b x : List K} {g g1 g2 : GM K}
    (h : Call S M N b x g) {tol : K} (hb : S.begin b g = some g1) (hres : g.residuals = [])
    (hc : S.cycle tol g1 = some (0, g2, .breakdown)) : S.effRes M N (toV S.n b) (toV S.n g2.x) = 0 := by
  obtain ⟨b1, b2, b3, b4, b5, b6⟩ := begin_ok h.A h.prec h.sqrt h.b h.g hb
  rw [if_pos hres] at b6
  obtain ⟨_, _, c3⟩ := cycle_ok h.A h.prec hf h.sqrt hbl tol b1 b5 ⟨_, by rw [b6]; rfl, rfl⟩ hc
  obtain ⟨v, v1, v2⟩ := c3 rfl rfl heps
  rw [v1, b2, effRes_add, v2, b3, sub_self]

/-- The property: if the Krylov space of some dimension `m ≤ maxIter` is invariant and the operator is injective, the
returned solution is exact. -/
def BreakdownExact (S : Gmres K) (M N : Matrix (Fin S.n) (Fin S.n) K) : Prop :=
  ∀ b x g k g' e m, Call S M N b x g → (∀ v, (S.opT M N).mulVec v = 0 → v = 0) → 0 < m → m ≤ S.maxIter →
    ((S.opT M N) ^ m).mulVec (S.effRes M N (toV S.n b) S.guess) ∈ krylov (S.opT M N) (S.effRes M N (toV S.n b) S.guess) m →
    S.gmres b x g = some (k, g', e) → S.effRes M N (toV S.n b) (toV S.n g'.x) = 0

/-! ### Examples -/

/-- Square roots of some numbers. -/
def sqrtQ (a : ℚ) : Option ℚ :=
  if a = 0 then some 0 else if a = 1 then some 1 else if a = 4 then some 2 else if a = 9 then some 3 else if a = 16 then some 4
  else if a = 25 then some 5 else none

theorem sqrtQ_sound : SqrtSound sqrtQ := by
  intro a s h
  unfold sqrtQ at h
  repeat' split at h
  all_goals first | (cases h; norm_num; done) | (cases h; subst_vars; norm_num) | cases h

/-- The matrix of the examples. -/
def M0 : Matrix (Fin 2) (Fin 2) ℚ := !![3, 4; 4, 3]

/-- `[[3, 4], [4, 3]]`, absolute tolerance 1/100. -/
def demo (maxIter : Nat) (blas : Bool) : Gmres ℚ :=
  { n := 2, A := fun x _ => [3 * x.getD 0 0 + 4 * x.getD 1 0, 4 * x.getD 0 0 + 3 * x.getD 1 0], prec := none, use2norm := false,
    relTol := false, tolerance := 1/100, maxIter := maxIter, x0 := none, sqrt := sqrtQ, left := true, flexible := false,
    restarts := 1, eps := 0, blas := blas }

/-- Work arrays. -/
def mem : GM ℚ :=
  { x := [9, 9], r := [9, 9], Ar := [9, 9], Q := fun _ => [9, 9], Z := fun _ => [9, 9], H := fun _ _ => 1, c := fun _ => 9,
    s := fun _ => 9, gamma := fun _ => 9, y := fun _ => 9, residuals := [] }

private theorem demo_applies (m : Nat) (blas : Bool) : Applies 2 (demo m blas).A M0 := by
  intro x y _ _
  refine ⟨rfl, ?_⟩
  funext i
  fin_cases i <;> simp [demo, M0, toV, Matrix.mulVec, Matrix.vecHead, Matrix.vecTail]

theorem demo_call (m : Nat) (blas : Bool) : Call (demo m blas) M0 (1 : Matrix (Fin 2) (Fin 2) ℚ) [1, 0] [7, 7] mem :=
  ⟨demo_applies m blas, (show (1 : Matrix (Fin 2) (Fin 2) ℚ) = 1 from rfl), sqrtQ_sound, (fun _ h => by cases h), rfl, rfl,
    ⟨rfl, rfl, rfl, fun _ => rfl, fun _ => rfl⟩⟩

/-- With at most one iteration the minimiser over the span of `b` is returned. -/
example : ((demo 1 true).gmres [1, 0] [7, 7] mem).map (fun q => (q.2.1.x, q.2.2, q.2.1.residuals)) =
    some ([3/25, 0], .exhausted, [1, 4/5]) := by decide +kernel

/-- With two iterations the Krylov space is the whole plane, and the result is wrong; the exact solution is `[-3/7, 4/7]`. -/
theorem demo_result : ((demo 2 true).gmres [1, 0] [7, 7] mem).map (fun q => (q.1, q.2.1.x, q.2.2)) =
    some (1, [1/3, -4/15], .breakdown) := by decide +kernel

/-- The residual of a solution of the example. -/
private theorem demo_res (m : Nat) (blas : Bool) (x : List ℚ) :
    (demo m blas).effRes M0 (1 : Matrix (Fin 2) (Fin 2) ℚ) (toV 2 [1, 0]) (toV 2 x) =
      ![1 - (3 * x.getD 0 0 + 4 * x.getD 1 0), -(4 * x.getD 0 0 + 3 * x.getD 1 0)] := by
  have e : (toV 2 [1, 0] : Fin 2 → ℚ) - M0.mulVec (toV 2 x) = ![1 - (3 * x.getD 0 0 + 4 * x.getD 1 0), -(4 * x.getD 0 0 + 3 * x.getD 1 0)] := by
    funext i
    fin_cases i <;> simp [M0, toV, Matrix.mulVec, Matrix.vecHead, Matrix.vecTail]
  exact (if_pos rfl).trans ((Matrix.one_mulVec _).trans e)

private theorem M0_inj (v : Fin 2 → ℚ) (hv : M0.mulVec v = 0) : v = 0 := by
  have h0 : 3 * v 0 + 4 * v 1 = 0 := by
    have := congrFun hv 0
    simpa [M0, Matrix.mulVec, Matrix.vecHead, Matrix.vecTail] using this
  have h1 : 4 * v 0 + 3 * v 1 = 0 := by
    have := congrFun hv 1
    simpa [M0, Matrix.mulVec, Matrix.vecHead, Matrix.vecTail] using this
  funext i
  fin_cases i
  · show v 0 = 0
    linarith
  · show v 1 = 0
    linarith

private theorem M0_sq (r : Fin 2 → ℚ) : (M0 ^ 2).mulVec r ∈ krylov M0 r 2 := by
  have hsq : M0 ^ 2 = (6 : ℚ) • M0 + (7 : ℚ) • (1 : Matrix (Fin 2) (Fin 2) ℚ) := by
    rw [pow_two]
    ext i j
    fin_cases i <;> fin_cases j <;> simp [M0, Matrix.mul_apply, Fin.sum_univ_two] <;> norm_num
  have : (M0 ^ 2).mulVec r = (6 : ℚ) • (M0 ^ 1).mulVec r + (7 : ℚ) • (M0 ^ 0).mulVec r := by
    rw [hsq, Matrix.add_mulVec, Matrix.smul_mulVec, Matrix.smul_mulVec, pow_one, pow_zero]
  rw [this]
  exact Submodule.add_mem _ (Submodule.smul_mem _ _ (Submodule.subset_span ⟨1, by decide, rfl⟩))
    (Submodule.smul_mem _ _ (Submodule.subset_span ⟨0, by decide, rfl⟩))

/-- The property is violated: the rotations are not applied to the last column of `H` when the loop is left by the
breakdown test, so that the triangular system is wrong from the second iteration on. -/
theorem breakdown_fails : ¬ BreakdownExact (demo 2 true) M0 (1 : Matrix (Fin 2) (Fin 2) ℚ) := by
  intro h
  have hr := demo_result
  cases hg : (demo 2 true).gmres [1, 0] [7, 7] mem with
  | none => rw [hg] at hr; cases hr
  | some q =>
    obtain ⟨k, g', e⟩ := q
    rw [hg] at hr
    have hx : g'.x = [1/3, -4/15] := (Prod.ext_iff.1 (Prod.ext_iff.1 (Option.some.inj hr)).2).1
    have hT : (demo 2 true).opT M0 (1 : Matrix (Fin 2) (Fin 2) ℚ) = M0 := Matrix.one_mul _
    have := h [1, 0] [7, 7] mem k g' e 2 (demo_call 2 true) ?_ (by decide) (le_refl _) ?_ hg
    · change (demo 2 true).effRes M0 (1 : Matrix (Fin 2) (Fin 2) ℚ) (toV 2 [1, 0]) (toV 2 g'.x) = 0 at this
      rw [demo_res, hx] at this
      have := congrFun this 0
      revert this
      decide +kernel
    · rw [hT]
      exact M0_inj
    · rw [hT]
      exact M0_sq _

/-- Without BLAS `gemvF` adds to the old contents of `r`, the last Arnoldi vector: for the same problem with one iteration
the residual of the result is larger than the initial one. -/
theorem no_blas_fails : ∃ k g' e, (demo 1 false).gmres [1, 0] [7, 7] mem = some (k, g', e) ∧ e ≠ .breakdown ∧
    nsq (S := demo 1 false) ((demo 1 false).effRes M0 (1 : Matrix (Fin 2) (Fin 2) ℚ) (toV 2 [1, 0]) (toV 2 [0, 0])) <
    nsq (S := demo 1 false) ((demo 1 false).effRes M0 (1 : Matrix (Fin 2) (Fin 2) ℚ) (toV 2 [1, 0]) (toV 2 g'.x)) := by
  have hr : ((demo 1 false).gmres [1, 0] [7, 7] mem).map (fun q => (q.2.1.x, q.2.2)) = some ([3/25, 4], .exhausted) := by decide +kernel
  cases hg : (demo 1 false).gmres [1, 0] [7, 7] mem with
  | none => rw [hg] at hr; cases hr
  | some q =>
    obtain ⟨k, g', e⟩ := q
    rw [hg] at hr
    obtain ⟨hx, he⟩ := Prod.ext_iff.1 (Option.some.inj hr)
    simp only at hx he
    refine ⟨k, g', e, rfl, by rw [he]; decide, ?_⟩
    rw [demo_res, demo_res, hx]
    unfold nsq
    decide +kernel

/-- `2 x = b`, flexible variant without preconditioner. -/
def flex : Gmres ℚ :=
  { n := 1, A := fun x _ => [2 * x.getD 0 0], prec := none, use2norm := false, relTol := false, tolerance := 1/100, maxIter := 3,
    x0 := none, sqrt := sqrtQ, left := true, flexible := true, restarts := 1, eps := 0, blas := true }

/-- It corrects by `A` applied to the correction: `2 x = 4` gives `4`. -/
theorem flexible_without_preconditioner_fails : (flex.gmres [4] [0] { mem with x := [9], r := [9], Ar := [9], Q := fun _ => [9], Z := fun _ => [9] }).map
    (fun q => q.2.1.x) = some [4] := by decide +kernel

/-- Without the flexible variant the first iteration breaks down and the result is exact. -/
example : (({ flex with flexible := false } : Gmres ℚ).gmres [4] [0] { mem with x := [9], r := [9], Ar := [9], Q := fun _ => [9] }).map
    (fun q => (q.1, q.2.1.x, q.2.2)) = some (0, [2], .breakdown) := by decide +kernel

end PyNucleus.Props.C26
