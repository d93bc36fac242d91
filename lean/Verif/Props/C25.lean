import Verif.Proof.BiCGStab
import Mathlib.Algebra.Order.Ring.Rat
import Mathlib.Algebra.Field.Rat

/-! # C25 BiCGStab -/

namespace PyNucleus.Props.C25

open PyNucleus.Krylov PyNucleus.Spec PyNucleus.Blas

variable {K : Type} [Field K] [LinearOrder K] {S : Solver K} {M : Matrix (Fin S.n) (Fin S.n) K}

/-- Work arrays of the right size. -/
structure MemOK (n : Nat) (m : BiMem K) : Prop where
  r : m.r.length = n
  r0 : m.r0.length = n
  p : m.p.length = n
  p2 : m.p2.length = n
  s : m.s.length = n
  s2 : m.s2.length = n
  temp : m.temp.length = n
  temp2 : m.temp2.length = n

/-- Well-formed call: `A` applies `M`, all arrays have `n` entries, any preconditioner. -/
structure Call (S : Solver K) (M : Matrix (Fin S.n) (Fin S.n) K) (b x : List K) (m : BiMem K) : Prop where
  A : Applies S.n S.A M
  prec : S.PrecOK
  x0 : ∀ x0, S.x0 = some x0 → x0.length = S.n
  b : b.length = S.n
  x : x.length = S.n
  mem : MemOK S.n m

/-- The residual of `x`. -/
def trueRes (M : Matrix (Fin S.n) (Fin S.n) K) (b x : List K) : Fin S.n → K := toV S.n b - M.mulVec (toV S.n x)

/-- The state at the start of the loop. -/
def first (S : Solver K) (b x : List K) (m : BiMem K) : Bi K :=
  S.biStart (S.prepare b x m.r).1 (S.prepare b x m.r).2.1 m.r0 m.p m.p2 m.s m.s2 m.temp m.temp2

/-- States during a call, after each half of an iteration; `alpha`, `omega` may be anything. -/
inductive Visited (S : Solver K) (b x : List K) (m : BiMem K) : Bi K → Prop
  | start : Visited S b x m (first S b x m)
  | advance {t q} : Visited S b x m t → S.biAdvance t = some q → Visited S b x m q.1
  | direct {t u alpha omega} : Visited S b x m t → S.biDirect t alpha omega = some u → Visited S b x m u

private theorem first_ok {b x : List K} {m} (h : Call S M b x m) : (first S b x m).Sized S.n ∧
    toV S.n (first S b x m).r = trueRes M b (first S b x m).x ∧ (first S b x m).residuals.length = 1 := by
  obtain ⟨p1, p2, _, p4, _⟩ := prepare_V h.A h.x0 h.x h.b h.mem.r
  obtain ⟨c1, c2, c3, c4, _⟩ := biStart_ok h.prec p1 p2 h.mem.r0 h.mem.p h.mem.p2 h.mem.s h.mem.s2 h.mem.temp h.mem.temp2
  exact ⟨c1, by unfold first; rw [c3, c2]; exact p4, c4⟩

/-- At every iteration the internal residual is the residual of the current solution, for any preconditioner. -/
theorem residual_tracked_partial {b x : List K} {m} (h : Call S M b x m) {t : Bi K} (hv : Visited S b x m t) :
    toV S.n t.r = trueRes M b t.x := by
  have : t.Sized S.n ∧ toV S.n t.r = trueRes M b t.x := by
    induction hv with
    | start => have := first_ok h; exact ⟨this.1, this.2.1⟩
    | advance _ e ih => have := biAdvance_ok h.A h.prec ih.1 ih.2 e; exact ⟨this.1, this.2.1⟩
    | direct _ e ih => have := biDirect_ok ih.1 e; exact ⟨this.1, by rw [this.2.2.1, this.2.1]; exact ih.2⟩
  exact this.2

/-- The final state of a call is one of those. -/
theorem final_visited {b x : List K} {m} {k : Nat} {t : Bi K} (hc : S.bicgstab b x m = some (k, t)) : Visited S b x m t := by
  have loop : ∀ (tol : Option K) (j i : Nat) (s : Bi K), Visited S b x m s → ∀ k t, S.biLoop tol j i s = some (k, t) →
      Visited S b x m t := by
    intro tol j
    induction j with
    | zero => intro i s hs k t e; unfold Solver.biLoop at e; cases e; exact hs
    | succ j ih =>
      intro i s hs k t e
      unfold Solver.biLoop at e
      cases ha : S.biAdvance s with
      | none => rw [ha] at e; cases e
      | some q =>
        rw [ha] at e
        have hu := hs.advance ha
        replace e : (if lt? (S.norm q.1.r) tol then some (i, q.1)
          else match S.biDirect q.1 q.2.1 q.2.2 with
            | some t => S.biLoop tol j (i + 1) t
            | none => if j = 0 then some (i + 1, q.1) else none) = some (k, t) := e
        split at e
        · cases e; exact hu
        · split at e
          · rename_i w hw; exact ih (i + 1) w (hu.direct hw) k t e
          · split at e
            · cases e; exact hu
            · cases e
  exact loop _ _ _ _ .start k t hc

/-- The tolerance of a call: relative to the initial residual if asked for. -/
def tolOf (S : Solver K) (M : Matrix (Fin S.n) (Fin S.n) K) (b : List K) : Option K :=
  if S.relTol then
    let r := toV S.n b - M.mulVec S.guess
    (S.sqrt (r ⬝ᵥ r)).map fun ν => S.tolerance * ν
  else some S.tolerance

/-- The number of iterations returned is at most `maxIter`; if it is below, the norm of the residual of the
returned solution is below the tolerance. -/
theorem converged_partial {b x : List K} {m} (h : Call S M b x m) {k : Nat} {t : Bi K} (hc : S.bicgstab b x m = some (k, t)) :
    k ≤ S.maxIter ∧ t.residuals.length ≤ S.maxIter + 1 ∧ t.x.length = S.n ∧
    (k < S.maxIter → ∃ c tol, c < tol ∧ tolOf S M b = some tol ∧ S.sqrt (trueRes M b t.x ⬝ᵥ trueRes M b t.x) = some c) := by
  obtain ⟨p1, p2, p3, p4, p5⟩ := prepare_V h.A h.x0 h.x h.b h.mem.r
  obtain ⟨f1, f2, f3⟩ := first_ok h
  obtain ⟨l1, l2, l3, l4, l5, l6⟩ := biLoop_ok h.A h.prec (b := b) _ S.maxIter 0 _ f1 f2 k t hc
  refine ⟨by omega, by rw [f3] at l5; omega, l1.x, fun hk => ?_⟩
  have hlt := l6 (by omega)
  have htol : (S.prepare b x m.r).2.2 = tolOf S M b := by
    rw [p5]; unfold tolOf Solver.norm; rw [mydot_V _ _ p2, p4, p3]
  rw [htol] at hlt
  unfold Solver.norm at hlt
  rw [mydot_V _ _ l1.r, l2] at hlt
  cases hs : S.sqrt ((toV S.n b - M.mulVec (toV S.n t.x)) ⬝ᵥ (toV S.n b - M.mulVec (toV S.n t.x))) with
  | none => rw [hs] at hlt; cases hlt
  | some c =>
    rw [hs] at hlt
    cases ht : tolOf S M b with
    | none => rw [ht] at hlt; cases hlt
    | some tol => rw [ht] at hlt; exact ⟨c, tol, of_decide_eq_true hlt, rfl, hs⟩

/-- The remaining part of the property: a zero initial residual returns the initial guess. -/
def ZeroResidualOK (S : Solver K) (M : Matrix (Fin S.n) (Fin S.n) K) : Prop :=
  ∀ b x m, Call S M b x m → toV S.n b = M.mulVec S.guess → ∃ k t, S.bicgstab b x m = some (k, t) ∧ toV S.n t.x = S.guess

/-- It fails for every operator and every linear preconditioner: there is no check before the first iteration,
which divides zero by zero, so that the whole solution becomes NaN. -/
theorem zero_residual_breakdown {N : Matrix (Fin S.n) (Fin S.n) K} (hN : S.PrecIs N) {b x : List K} {m} (h : Call S M b x m)
    (hz : toV S.n b = M.mulVec S.guess) (hm : 0 < S.maxIter) : S.bicgstab b x m = none := by
  obtain ⟨p1, p2, p3, p4, _⟩ := prepare_V h.A h.x0 h.x h.b h.mem.r
  obtain ⟨c1, c2, c3, c4, c5, c6⟩ := biStart_ok h.prec p1 p2 h.mem.r0 h.mem.p h.mem.p2 h.mem.s h.mem.s2 h.mem.temp h.mem.temp2
  rw [p3, hz, sub_self] at p4
  unfold Solver.bicgstab
  obtain ⟨j, hj⟩ : ∃ j, S.maxIter = j + 1 := ⟨S.maxIter - 1, by omega⟩
  rw [hj]
  unfold Solver.biLoop
  have : S.biAdvance (first S b x m) = none := by
    have hk : (first S b x m).kappa = 0 := by
      unfold first
      rw [c6, mydot_V _ _ p2, p4, zero_dotProduct]
    have hp2 : toV S.n (S.applyPrec (first S b x m).p (first S b x m).p2) = 0 := by
      have hp : toV S.n (first S b x m).p = 0 := by unfold first; rw [c5, p4]
      have hl : (first S b x m).p.length = S.n := c1.p
      have hl2 : (first S b x m).p2.length = S.n := c1.p2
      unfold Solver.applyPrec
      unfold Solver.PrecIs at hN
      cases hpr : S.prec with
      | none => exact hp
      | some P => rw [hpr] at hN; simp only; rw [(hN _ _ hl hl2).2, hp, Matrix.mulVec_zero]
    have htt := h.A _ (first S b x m).temp (applyPrec_length h.prec (show (first S b x m).p.length = S.n from c1.p)
      (show (first S b x m).p2.length = S.n from c1.p2)) c1.temp
    unfold Solver.biAdvance
    dsimp only
    rw [mydot_V _ _ htt.1, htt.2, hp2, Matrix.mulVec_zero, zero_dotProduct]
    unfold div?
    rw [if_pos rfl]
    rfl
  show (S.biAdvance (first S b x m) >>= _) = none
  rw [this]
  rfl

/-- It also fails whenever the first half step is exact, that is with the exact inverse (or a multiple of it) as
preconditioner, and without preconditioner for every multiple of the identity: then `s = 0` and `omega` is zero
divided by zero, for every right hand side and initial guess. -/
theorem exact_half_step_breakdown {N : Matrix (Fin S.n) (Fin S.n) K} (hN : S.PrecIs N) {c : K} (hMN : M * N = c • 1)
    (hsqrt : S.sqrt 0 = some 0) {b x : List K} {m} (h : Call S M b x m) (hm : 0 < S.maxIter) : S.bicgstab b x m = none := by
  have hMNv : ∀ v, M.mulVec (N.mulVec v) = c • v := fun v => by
    rw [Matrix.mulVec_mulVec, hMN, Matrix.smul_mulVec, Matrix.one_mulVec]
  have hprec : ∀ v w : List K, v.length = S.n → w.length = S.n → toV S.n (S.applyPrec v w) = N.mulVec (toV S.n v) := by
    intro v w hv hw
    unfold Solver.applyPrec
    unfold Solver.PrecIs at hN
    cases hpr : S.prec with
    | none => rw [hpr] at hN; simp only at hN ⊢; rw [hN, Matrix.one_mulVec]
    | some P => rw [hpr] at hN; exact (hN _ _ hv hw).2
  obtain ⟨p1, p2, p3, p4, _⟩ := prepare_V h.A h.x0 h.x h.b h.mem.r
  obtain ⟨c1, c2, c3, c4, c5, c6⟩ := biStart_ok h.prec p1 p2 h.mem.r0 h.mem.p h.mem.p2 h.mem.s h.mem.s2 h.mem.temp h.mem.temp2
  unfold Solver.bicgstab
  obtain ⟨j, hj⟩ : ∃ j, S.maxIter = j + 1 := ⟨S.maxIter - 1, by omega⟩
  rw [hj]
  unfold Solver.biLoop
  have : S.biAdvance (first S b x m) = none := by
    change (first S b x m).Sized S.n at c1
    have hpr : (first S b x m).p = (first S b x m).r := by unfold first; rw [c5, c3]
    have hk : (first S b x m).kappa = toV S.n (first S b x m).r ⬝ᵥ toV S.n (first S b x m).r0 := by
      rw [← mydot_V _ _ c1.r]; unfold first; rw [c6, c3]
    generalize first S b x m = t at *
    have hl := applyPrec_length h.prec c1.p c1.p2
    have htt := h.A _ t.temp hl c1.temp
    rw [hprec _ _ c1.p c1.p2, hMNv, hpr] at htt
    unfold Solver.biAdvance
    dsimp only
    rw [hpr]
    generalize S.A (S.applyPrec t.r t.p2) t.temp = temp at htt
    rw [mydot_V _ _ htt.1, htt.2, smul_dotProduct, hk, smul_eq_mul]
    unfold div?
    split
    · rfl
    · rename_i hne
      have hs := assign3_V t.s t.r 1 temp (-(toV S.n t.r ⬝ᵥ toV S.n t.r0 / (c * (toV S.n t.r ⬝ᵥ toV S.n t.r0)))) c1.s c1.r
      simp only [Option.bind_eq_bind, Option.bind_some]
      generalize assign3 t.s t.r 1 temp _ = s at hs
      have hc : c ≠ 0 := fun e => hne (by rw [e, zero_mul])
      have hd : toV S.n t.r ⬝ᵥ toV S.n t.r0 ≠ 0 := fun e => hne (by rw [e, mul_zero])
      have hs0 : toV S.n s = 0 := by
        have e : -(toV S.n t.r ⬝ᵥ toV S.n t.r0 / (c * (toV S.n t.r ⬝ᵥ toV S.n t.r0))) * c = -1 := by field_simp
        rw [hs.2, htt.2, smul_smul, e, one_smul, neg_smul, one_smul, add_neg_cancel]
      have hl2 := applyPrec_length h.prec hs.1 c1.s2
      have ht2 := h.A _ t.temp2 hl2 c1.temp2
      rw [hprec _ _ hs.1 c1.s2, hMNv, hs0, smul_zero] at ht2
      unfold Solver.norm
      rw [mydot_V _ _ ht2.1, ht2.2, zero_dotProduct, hsqrt]
      simp only [Option.bind_some]
      rw [if_pos (mul_zero _)]
      rfl
  show (S.biAdvance (first S b x m) >>= _) = none
  rw [this]
  rfl

/-! ### Examples -/

/-- `[[1, 2], [0, 1]]` with right hand side `[3, 1]`. -/
def demo (x0 : Option (List ℚ)) : Solver ℚ :=
  ⟨2, fun x _ => [x.getD 0 0 + 2 * x.getD 1 0, x.getD 1 0], none, true, false, 1/2, 5, x0,
    fun a => if a = 4 then some 2 else if a < 0 then none else some a⟩

/-- Matrix of the example. -/
theorem demo_applies (x0 : Option (List ℚ)) : Applies 2 (demo x0).A !![1, 2; 0, 1] := by
  intro x y _ _
  refine ⟨rfl, ?_⟩
  funext i
  fin_cases i <;> simp [demo, toV, Matrix.mulVec, Matrix.vecHead, Matrix.vecTail]

/-- Scratch memory. -/
def mem2 : BiMem ℚ := ⟨[9, 9], [9, 9], [9, 9], [9, 9], [9, 9], [9, 9], [9, 9], [9, 9]⟩

private theorem demo_call (x0 : Option (List ℚ)) (h : ∀ l, x0 = some l → l.length = 2) : Call (demo x0) !![1, 2; 0, 1] [3, 1] [7, 7] mem2 :=
  ⟨demo_applies x0, fun P hP => by simp [demo] at hP, h, rfl, rfl, ⟨rfl, rfl, rfl, rfl, rfl, rfl, rfl, rfl⟩⟩

/-- Started from the exact solution `[1, 1]` the solver destroys it. -/
theorem zero_residual_fails : ¬ ZeroResidualOK (demo (some [1, 1])) !![1, 2; 0, 1] := by
  intro h
  have hz : toV 2 [3, 1] = Matrix.mulVec !![1, 2; 0, 1] (demo (some [1, 1])).guess := by
    funext i
    fin_cases i <;> simp [demo, Solver.guess, toV, Matrix.mulVec, Matrix.vecHead, Matrix.vecTail]
    norm_num
  have hc := demo_call (some [1, 1]) (fun l e => by cases e; rfl)
  obtain ⟨k, t, e, _⟩ := h [3, 1] [7, 7] mem2 hc hz
  rw [zero_residual_breakdown (S := demo (some [1, 1])) (N := 1) (show (1 : Matrix (Fin 2) (Fin 2) ℚ) = 1 from rfl) hc hz (by decide)] at e
  cases e

/-- From zero it converges in the first iteration for `b = [0, 1]`. -/
example : ((demo none).bicgstab [0, 1] [7, 7] mem2).map (fun q => (q.1, q.2.x)) = some (0, [-2, 1]) := by decide +kernel

/-- The one by one system `3 x = b`. -/
def three : Solver ℚ :=
  ⟨1, fun x _ => [3 * x.getD 0 0], none, true, false, 1/2, 5, none, fun a => if a = 0 then some 0 else some a⟩

private theorem three_mul : (!![3] : Matrix (Fin 1) (Fin 1) ℚ) * 1 = (3 : ℚ) • 1 := by
  rw [Matrix.mul_one]; ext i j; fin_cases i; fin_cases j; simp

private theorem three_applies : Applies 1 three.A !![3] := by
  intro x y _ _
  refine ⟨rfl, ?_⟩
  funext i
  fin_cases i
  simp [three, toV, Matrix.mulVec, dotProduct]

/-- It cannot be solved, whatever `b` is. -/
example (b : ℚ) : three.bicgstab [b] [0] ⟨[0], [0], [0], [0], [0], [0], [0], [0]⟩ = none :=
  exact_half_step_breakdown (S := three) (N := (1 : Matrix (Fin 1) (Fin 1) ℚ)) (show (1 : Matrix (Fin 1) (Fin 1) ℚ) = 1 from rfl)
    three_mul (by decide +kernel) ⟨three_applies, (fun P hP => by cases hP), (fun _ hx => by cases hx), rfl, rfl,
      ⟨rfl, rfl, rfl, rfl, rfl, rfl, rfl, rfl⟩⟩ (by decide)

end PyNucleus.Props.C25
