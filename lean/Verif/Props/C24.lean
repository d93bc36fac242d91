import Verif.Proof.CG
import Mathlib.Algebra.Order.Ring.Rat
import Mathlib.Algebra.Field.Rat
import Mathlib.Analysis.Real.Sqrt
import Mathlib.Tactic.Linarith

/-! # C24 Conjugate gradients -/

namespace PyNucleus.Props.C24

open PyNucleus.Krylov PyNucleus.Spec PyNucleus.Blas

variable {K : Type} [Field K] [LinearOrder K] {S : Solver K} {M : Matrix (Fin S.n) (Fin S.n) K}

/-- Work arrays of the right size. -/
def MemOK (n : Nat) (mem : List K × List K × List K × List K) : Prop :=
  mem.1.length = n ∧ mem.2.1.length = n ∧ mem.2.2.1.length = n ∧ mem.2.2.2.length = n

/-- Well-formed call: `A` applies `M`, all arrays have `n` entries. -/
structure Call (S : Solver K) (M : Matrix (Fin S.n) (Fin S.n) K) (b x : List K) (mem : List K × List K × List K × List K) : Prop where
  A : Applies S.n S.A M
  prec : S.PrecOK
  x0 : ∀ x0, S.x0 = some x0 → x0.length = S.n
  b : b.length = S.n
  x : x.length = S.n
  mem : MemOK S.n mem

/-- The residual of `x`. -/
def trueRes (M : Matrix (Fin S.n) (Fin S.n) K) (b x : List K) : Fin S.n → K := toV S.n b - M.mulVec (toV S.n x)

/-- States during a call, after every statement that changes the solution or the residual; `beta` may be anything. -/
inductive Visited (S : Solver K) (b x : List K) (mem : List K × List K × List K × List K) : CG K → Prop
  | start : Visited S b x mem (S.cgStart (S.prepare b x mem.1).1 (S.prepare b x mem.1).2.1 mem.2.1 mem.2.2.1 mem.2.2.2).1
  | advance {s t} : Visited S b x mem s → S.cgAdvance b s = some t → Visited S b x mem t
  | measure {s} : Visited S b x mem s → Visited S b x mem (S.cgMeasure s).1
  | direct {s t beta} : Visited S b x mem s → S.cgDirect s beta = some t → Visited S b x mem t

/-- At every iteration the internal residual is the residual of the current solution. -/
theorem residual_tracked {b x : List K} {mem} (h : Call S M b x mem) {s : CG K} (hv : Visited S b x mem s) :
    toV S.n s.r = trueRes M b s.x := by
  have : s.Sized S.n ∧ toV S.n s.r = trueRes M b s.x := by
    induction hv with
    | start =>
      obtain ⟨p1, p2, _, p4, _⟩ := prepare_V h.A h.x0 h.x h.b h.mem.1
      obtain ⟨c1, c2, c3, _⟩ := cgStart_ok h.prec p1 p2 h.mem.2.1 h.mem.2.2.1 h.mem.2.2.2
      exact ⟨c1, by rw [c3, c2]; exact p4⟩
    | advance _ e ih => have := cgAdvance_ok h.A h.b ih.1 ih.2 e; exact ⟨this.1, this.2.2.2.2.1⟩
    | measure _ ih => have := cgMeasure_ok h.prec ih.1; exact ⟨this.1, by rw [this.2.2.1, this.2.1]; exact ih.2⟩
    | direct _ e ih => have := cgDirect_ok ih.1 e; exact ⟨this.1, by rw [this.2.2.1, this.2.1]; exact ih.2⟩
  exact this.2

/-- The final state of a call is one of those. -/
theorem final_visited {b x : List K} {mem} {k : Nat} {t : CG K} (hc : S.cg b x mem = some (k, t)) : Visited S b x mem t := by
  have loop : ∀ (tol : Option K) (m i : Nat) (s : CG K), Visited S b x mem s → ∀ k t, S.cgLoop b tol m i s = some (k, t) →
      Visited S b x mem t := by
    intro tol m
    induction m with
    | zero => intro i s hs k t e; unfold Solver.cgLoop at e; cases e; exact hs
    | succ m ih =>
      intro i s hs k t e
      unfold Solver.cgLoop at e
      cases ha : S.cgAdvance b s with
      | none => rw [ha] at e; cases e
      | some u =>
        rw [ha] at e
        have hu := (hs.advance ha).measure
        replace e : (if le? (S.cgMeasure u).2.1 tol then some (i, (S.cgMeasure u).1)
          else match (S.cgMeasure u).2.2.bind (S.cgDirect (S.cgMeasure u).1) with
            | some s => S.cgLoop b tol m (i + 1) s
            | none => if m = 0 then some (i + 1, (S.cgMeasure u).1) else none) = some (k, t) := e
        split at e
        · cases e; exact hu
        · split at e
          · rename_i w hw
            obtain ⟨beta, _, hd⟩ := Option.bind_eq_some_iff.1 hw
            exact ih (i + 1) w (hu.direct hd) k t e
          · split at e
            · cases e; exact hu
            · cases e
  unfold Solver.cg at hc
  dsimp only at hc
  split at hc
  · cases hc; exact .start
  · exact loop _ _ _ _ .start k t hc

/-- The tolerance of a call: relative to the initial residual if asked for. -/
def tolOf (S : Solver K) (M : Matrix (Fin S.n) (Fin S.n) K) (b : List K) : Option K :=
  if S.relTol then
    let r := toV S.n b - M.mulVec S.guess
    (S.sqrt (r ⬝ᵥ r)).map fun ν => S.tolerance * ν
  else some S.tolerance

private theorem prepare_tol {b x : List K} {mem} (h : Call S M b x mem) : (S.prepare b x mem.1).2.2 = tolOf S M b := by
  obtain ⟨p1, p2, p3, p4, p5⟩ := prepare_V h.A h.x0 h.x h.b h.mem.1
  rw [p5]
  unfold tolOf Solver.norm
  rw [mydot_V _ _ p2, p4, p3]

/-- The number of iterations returned is at most `maxIter`, at most `maxIter + 1` residual norms are
recorded, and if the number is below `maxIter` the solver has converged: the norm of the residual of the
returned solution (the norm of the preconditioner if `use2norm` is off) is at most the tolerance. -/
theorem converged {b x : List K} {mem} (h : Call S M b x mem) {k : Nat} {t : CG K} (hc : S.cg b x mem = some (k, t)) :
    k ≤ S.maxIter ∧ t.residuals.length ≤ S.maxIter + 1 ∧ t.x.length = S.n ∧
    (k < S.maxIter → ∃ c tol, c ≤ tol ∧ tolOf S M b = some tol ∧ t.residuals.getLast? = some (some c) ∧
      ((S.prec = none ∨ S.use2norm = true) → S.sqrt (trueRes M b t.x ⬝ᵥ trueRes M b t.x) = some c) ∧
      (∀ P, S.prec = some P → S.use2norm = false → ∃ Br, Br.length = S.n ∧ S.sqrt (trueRes M b t.x ⬝ᵥ toV S.n (P t.r Br)) = some c)) := by
  obtain ⟨p1, p2, p3, p4, p5⟩ := prepare_V h.A h.x0 h.x h.b h.mem.1
  obtain ⟨c1, c2, c3, c4⟩ := cgStart_ok h.prec p1 p2 h.mem.2.1 h.mem.2.2.1 h.mem.2.2.2
  have hres := residual_tracked h (final_visited hc)
  have conv : ∀ (c : Option K) (Br : List K) (tol : Option K), Br.length = S.n → t.r.length = S.n → le? c tol = true → tol = tolOf S M b →
      c = S.crit { t with Br := Br } → t.residuals.getLast? = some c →
      ∃ c tol, c ≤ tol ∧ tolOf S M b = some tol ∧ t.residuals.getLast? = some (some c) ∧
      ((S.prec = none ∨ S.use2norm = true) → S.sqrt (trueRes M b t.x ⬝ᵥ trueRes M b t.x) = some c) ∧
      (∀ P, S.prec = some P → S.use2norm = false → ∃ Br, Br.length = S.n ∧ S.sqrt (trueRes M b t.x ⬝ᵥ toV S.n (P t.r Br)) = some c) := by
    intro c Br tol hBr htr hle htol hcrit hlast
    match c, tol, hle, htol with
    | some c, some tol, hle, htol =>
      refine ⟨c, tol, of_decide_eq_true hle, htol.symm, hlast, fun hor => ?_, fun P hP hu => ⟨Br, hBr, ?_⟩⟩
      · rw [← hres, ← mydot_V _ _ htr, hcrit]
        unfold Solver.crit Solver.norm
        rcases hor with e | e
        · rw [e]
        · cases S.prec <;> simp [e]
      · rw [← hres, ← mydot_V _ _ htr, hcrit]
        unfold Solver.crit
        rw [hP, hu]
        simp
  unfold Solver.cg at hc
  simp only at hc
  split at hc
  · rename_i hle
    have hc' := Prod.ext_iff.1 (Option.some.inj hc)
    simp only at hc'
    obtain ⟨rfl, rfl⟩ := hc'
    refine ⟨by omega, by rw [c4]; omega, c1.x, fun _ => ?_⟩
    refine conv _ mem.2.1 _ h.mem.2.1 c1.r hle (prepare_tol h) ?_ ?_
    · unfold Solver.cgStart Solver.crit
      cases hp : S.prec with
      | none => simp only [Solver.norm]; rw [assign_eq _ _ (by rw [p2, h.mem.2.1])]
      | some P => rfl
    · unfold Solver.cgStart
      cases hp : S.prec <;> rfl
  · obtain ⟨l1, l2, l3, l4, l5, l6⟩ := cgLoop_ok h.A h.prec h.b _ S.maxIter 0 _ c1 (by rw [c3, c2]; exact p4) k t hc
    refine ⟨by omega, by rw [c4] at l5; omega, l1.x, fun hk => ?_⟩
    obtain ⟨c, e1, e2, Br, e3, e4⟩ := l6 (by omega)
    exact conv c Br _ e3 l1.r e2 (prepare_tol h) e4 e1

section
variable [IsStrictOrderedRing K]

/-- For symmetric positive definite `A` and preconditioner the solver never breaks down, and if `maxIter`
is at least the number `n > 0` of unknowns it converges in fewer than `n` counted iterations. -/
theorem finite_termination {N : Matrix (Fin S.n) (Fin S.n) K} {b x : List K} {mem} (h : Call S M b x mem) (hM : SPD M) (hN : SPD N)
    (hP : S.PrecIs N) (hq : SqrtOK S.sqrt) (ht : 0 ≤ S.tolerance) :
    ∃ k t, S.cg b x mem = some (k, t) ∧ (0 < S.n → S.n ≤ S.maxIter → k < S.n ∧ k < S.maxIter) := by
  obtain ⟨p1, p2, p3, p4, p5⟩ := prepare_V h.A h.x0 h.x h.b h.mem.1
  obtain ⟨c1, c2, c3, c4⟩ := cgStart_ok h.prec p1 p2 h.mem.2.1 h.mem.2.2.1 h.mem.2.2.2
  have htol : ∃ tol, (S.prepare b x mem.1).2.2 = some tol ∧ 0 ≤ tol := by
    rw [prepare_tol h]
    unfold tolOf
    split
    · obtain ⟨ν, e, ν0, _⟩ := hq _ (dot_self_nonneg (toV S.n b - M.mulVec S.guess))
      exact ⟨S.tolerance * ν, by simp only; rw [e]; rfl, mul_nonneg ht ν0⟩
    · exact ⟨_, rfl, ht⟩
  obtain ⟨tol, e, ht'⟩ := htol
  unfold Solver.cg
  simp only
  rw [e]
  split
  · exact ⟨_, _, rfl, fun hn hm => ⟨hn, by omega⟩⟩
  · rename_i hle
    generalize hst : S.cgStart (S.prepare b x mem.1).1 (S.prepare b x mem.1).2.1 mem.2.1 mem.2.2.1 mem.2.2.2 = st at *
    have hstart : toV S.n st.1.p = N.mulVec (toV S.n st.1.r) ∧ st.1.betaOld = toV S.n st.1.r ⬝ᵥ N.mulVec (toV S.n st.1.r) ∧
        ∃ Br, Br.length = S.n ∧ st.2 = S.crit { st.1 with Br := Br } := by
      rw [← hst]
      have hP' := hP
      unfold Solver.PrecIs at hP'
      unfold Solver.cgStart Solver.crit
      cases hp : S.prec with
      | none =>
        rw [hp] at hP'
        subst hP'
        simp only [Solver.norm]
        rw [assign_eq _ _ (by rw [p2, h.mem.2.1]), mydot_V _ _ p2]
        exact ⟨by simp, by simp, mem.2.1, h.mem.2.1, rfl⟩
      | some P =>
        rw [hp] at hP'
        simp only
        rw [(mydot_V _ _ p2 : mydot _ (P _ mem.2.1) = _), (hP' _ _ p2 h.mem.2.1).2]
        refine ⟨rfl, rfl, mem.2.1, h.mem.2.1, ?_⟩
        rw [mydot_V _ _ p2, (hP' _ _ p2 h.mem.2.1).2]
    obtain ⟨s1, s2, Br, s3, s4⟩ := hstart
    obtain ⟨c, k1, k2, _, k3⟩ := crit_V hq hN hP (s := { st.1 with Br := Br }) ⟨c1.x, c1.r, c1.p, c1.Ap, s3⟩
    rw [s4, k1] at hle
    have hle' : ¬ c ≤ tol := by simpa [le?] using hle
    have hne : toV S.n st.1.r ≠ 0 := by
      intro h0
      apply hle'
      simp only [h0, dotProduct_zero, Matrix.mulVec_zero, mul_self_eq_zero, or_self] at k3
      rw [k3]; exact ht'
    have hinv : CGInv S M N b (toV S.n st.1.r) 0 st.1 :=
      ⟨c1, by rw [c3, c2]; exact p4, rfl, s1, s2, fun j hj => by rw [Nat.le_zero.1 hj]; exact hne⟩
    obtain ⟨k, t, e', hk⟩ := cgLoop_spd h.A hM hN hP hq h.b ht' _ S.maxIter 0 st.1 hinv
    exact ⟨k, t, e', fun hn hm => by omega⟩

/-- With zero tolerance the result is then the exact solution. -/
theorem exact_solution {N : Matrix (Fin S.n) (Fin S.n) K} {b x : List K} {mem} (h : Call S M b x mem) (hM : SPD M) (hN : SPD N)
    (hP : S.PrecIs N) (hq : SqrtOK S.sqrt) (ht : S.tolerance = 0) (hn : 0 < S.n) (hm : S.n ≤ S.maxIter) :
    ∃ k t, S.cg b x mem = some (k, t) ∧ M.mulVec (toV S.n t.x) = toV S.n b := by
  obtain ⟨k, t, e, hk⟩ := finite_termination h hM hN hP hq (le_of_eq ht.symm)
  obtain ⟨_, hk2⟩ := hk hn hm
  obtain ⟨_, _, _, hcv⟩ := converged h e
  obtain ⟨c, tol, c1, c2, _, c4, c5⟩ := hcv hk2
  have htol : tol = 0 := by
    unfold tolOf at c2
    split at c2
    · simp only [ht] at c2
      obtain ⟨ν, _, e⟩ := Option.map_eq_some_iff.1 c2
      rw [← e, zero_mul]
    · rw [ht] at c2; exact (Option.some.inj c2).symm
  subst htol
  refine ⟨k, t, e, ?_⟩
  have hres : toV S.n t.r = trueRes M b t.x := residual_tracked h (final_visited e)
  have hzero : trueRes M b t.x = 0 := by
    have sq0 : ∀ a : K, 0 ≤ a → S.sqrt a = some c → a = 0 := by
      intro a ha hs
      obtain ⟨s, s1, s2, s3⟩ := hq a ha
      rw [hs] at s1
      cases s1
      rw [← s3, le_antisymm c1 s2, mul_zero]
    by_cases hor : S.prec = none ∨ S.use2norm = true
    · exact dot_self_zero (sq0 _ (dot_self_nonneg _) (c4 hor))
    · obtain ⟨h1, h2⟩ := not_or.1 hor
      obtain ⟨P, hPs⟩ := Option.ne_none_iff_exists'.1 h1
      obtain ⟨Br, b1, b2⟩ := c5 P hPs (by simpa using h2)
      have hP' := hP
      unfold Solver.PrecIs at hP'
      rw [hPs] at hP'
      have hr : t.r.length = S.n := by
        have : ∀ s, Visited S b x mem s → s.Sized S.n := by
          intro s hv
          induction hv with
          | start =>
            obtain ⟨p1, p2, _, p4, _⟩ := prepare_V h.A h.x0 h.x h.b h.mem.1
            exact (cgStart_ok h.prec p1 p2 h.mem.2.1 h.mem.2.2.1 h.mem.2.2.2).1
          | advance hv e ih => exact (cgAdvance_ok h.A h.b ih (residual_tracked h hv) e).1
          | measure _ ih => exact (cgMeasure_ok h.prec ih).1
          | direct _ e ih => exact (cgDirect_ok ih e).1
        exact (this t (final_visited e)).r
      rw [(hP' t.r Br hr b1).2, hres] at b2
      by_contra h0
      have hpos := hN.2 _ h0
      exact hpos.ne' (sq0 _ hpos.le b2)
  unfold trueRes at hzero
  exact (sub_eq_zero.1 hzero).symm

end

/-! ### Example -/

/-- `[[2, 1], [1, 2]] x = [3, 3]` from `x0 = [1, 0]`, without and with the preconditioner `diag(1/2, 1)`.
`sqrt` is exact on the squares that occur. -/
def demo (prec : Option (List ℚ → List ℚ → List ℚ)) : Solver ℚ :=
  ⟨2, fun x _ => [2 * x.getD 0 0 + x.getD 1 0, x.getD 0 0 + 2 * x.getD 1 0], prec, true, false, 0, 5, some [1, 0],
    fun a => if a = 0 then some 0 else if 0 < a then some 1 else none⟩

example : Applies 2 (demo none).A !![2, 1; 1, 2] := by
  intro x y _ _
  refine ⟨rfl, ?_⟩
  funext i
  fin_cases i <;> simp [demo, toV, Matrix.mulVec, Matrix.vecHead, Matrix.vecTail]

example : ((demo (some fun x _ => [x.getD 0 0 / 2, x.getD 1 0])).cg [3, 3] [7, 7] ([9, 9], [9, 9], [9, 9], [9, 9])).map (fun q => (q.1, q.2.x)) =
    some (1, [1, 1]) := by decide +kernel

/-- The hypotheses of `finite_termination` and `exact_solution` with real numbers. -/
noncomputable def demoR : Solver ℝ :=
  ⟨2, fun x _ => [2 * x.getD 0 0 + x.getD 1 0, x.getD 0 0 + 2 * x.getD 1 0], none, true, false, 0, 5, some [1, 0],
    fun a => if 0 ≤ a then some (Real.sqrt a) else none⟩

example : ∃ k t, demoR.cg [3, 3] [7, 7] ([9, 9], [9, 9], [9, 9], [9, 9]) = some (k, t) ∧
    (!![2, 1; 1, 2] : Matrix (Fin 2) (Fin 2) ℝ).mulVec (toV 2 t.x) = toV 2 [3, 3] := by
  have hA : Applies 2 demoR.A (!![2, 1; 1, 2] : Matrix (Fin 2) (Fin 2) ℝ) := by
    intro x y _ _
    refine ⟨rfl, ?_⟩
    funext i
    fin_cases i <;> simp [demoR, toV, Matrix.mulVec, Matrix.vecHead, Matrix.vecTail]
  have hpos : ∀ v : Fin 2 → ℝ, v ≠ 0 → 0 < v 0 ^ 2 + v 1 ^ 2 := by
    intro v hv
    by_contra h
    apply hv
    have h0 : v 0 = 0 := by nlinarith [sq_nonneg (v 0), sq_nonneg (v 1)]
    have h1 : v 1 = 0 := by nlinarith [sq_nonneg (v 0), sq_nonneg (v 1)]
    funext i
    fin_cases i
    · exact h0
    · exact h1
  have hM : SPD (!![2, 1; 1, 2] : Matrix (Fin 2) (Fin 2) ℝ) := by
    refine ⟨Matrix.IsSymm.ext fun i j => by fin_cases i <;> fin_cases j <;> rfl, fun v hv => ?_⟩
    have := hpos v hv
    simp [dotProduct, Matrix.mulVec, Fin.sum_univ_two]
    nlinarith [sq_nonneg (v 0 + v 1)]
  have hN : SPD (1 : Matrix (Fin 2) (Fin 2) ℝ) := by
    refine ⟨Matrix.transpose_one, fun v hv => ?_⟩
    have := hpos v hv
    rw [Matrix.one_mulVec]
    simp only [dotProduct, Fin.sum_univ_two]
    nlinarith
  refine exact_solution (S := demoR) (M := !![2, 1; 1, 2]) (N := 1) ⟨hA, ?_, ?_, rfl, rfl, rfl, rfl, rfl, rfl⟩ hM hN rfl ?_ rfl ?_ ?_
  · intro P hP; exact absurd hP (by simp [demoR])
  · intro x0 hx; simp only [demoR, Option.some.injEq] at hx; subst hx; rfl
  · exact fun a ha => ⟨Real.sqrt a, by simp [demoR, ha], Real.sqrt_nonneg a, Real.mul_self_sqrt ha⟩
  · simp [demoR]
  · simp [demoR]

end PyNucleus.Props.C24
