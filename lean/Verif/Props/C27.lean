import Verif.Proof.Smoothers2
import Mathlib.Algebra.Field.Rat
import Mathlib.Algebra.Order.Ring.Rat

/-!
# C27: Smoothers

Forward SOR returns `(D/w+L)^{-1} b`, backward SOR returns `(D/w+U)^{-1} b`, SSOR returns
`(2-w)(D/w+U)^{-1}(D/w)(D/w+L)^{-1} b`, Gauss-Seidel sweeps satisfy the row equations; the exact solution is a
fixed point of every smoother; pre-smoothing uses the configured pre-sweep direction and post-smoothing
the configured post-sweep direction.

Missing in the `_partial` theorems: matrices in symmetric storage, for which the preconditioner raises
(`sss_sor_fails`), and Gauss-Seidel for time steppers with a forward pre-sweep and a backward post-sweep (the
default), where the directions are exchanged (`time_stepper_direction_fails`).
-/

namespace PyNucleus.Props.C27

open PyNucleus.Spec PyNucleus.Smoothers PyNucleus.Direct PyNucleus.Loops

variable {K : Type} [Field K]

/-- After `setPre` (`setPost`) a SOR preconditioner solves with the lower triangle if the configured
direction of the pre-sweep (post-sweep) is forward and with the upper triangle otherwise. -/
theorem sor_solves_partial (A : SorOp K) (D : List K) (omega : K) (pre post : Bool) (n : Nat) (hA : A.OK n)
    (hD : D.length = n) (hD0 : ∀ i, i < n → D.getD i 0 ≠ 0) (ho : omega ≠ 0) (x r : List K)
    (hx : x.length = n) (hr : r.length = n) :
    ∃ P, mkSor A D omega pre post = some P ∧ ∀ isPost : Bool, ∃ z,
      P.use isPost x r = some z ∧ z.length = n ∧ SorEq n A.entry D omega (if isPost then post else pre) x z := by
  refine ⟨⟨A, D, omega, pre, post, false, none⟩, ?_, fun isPost => ?_⟩
  · cases A with
    | csr A => rfl
    | sss A d => exact hA.elim
    | ts M S fS fM =>
      have : M.indices.length = S.indices.length := by rw [hA.2.2.2.2.2.2.1]
      unfold mkSor
      dsimp only
      rw [if_pos this]
  · cases isPost with
    | true => exact sorMatvec_corrects (SorPrec.setPost ⟨A, D, omega, pre, post, false, none⟩) hA hD hD0 ho x r hx hr
    | false => exact sorMatvec_corrects (SorPrec.setPre ⟨A, D, omega, pre, post, false, none⟩) hA hD hD0 ho x r hx hr

/-- For a nonempty matrix in symmetric storage the preconditioner can be built but every application raises. -/
theorem sss_sor_fails (A : CSR K) (diag D : List K) (hD : D ≠ []) (omega : K) (pre post isPost : Bool) (x r : List K) :
    ∃ P, mkSor (.sss A diag) D omega pre post = some P ∧ P.use isPost x r = none := by
  refine ⟨_, rfl, ?_⟩
  have : D.length ≠ 0 := by simpa using hD
  cases isPost <;> simp [SorPrec.use, SorPrec.setPost, SorPrec.setPre, SorPrec.matvec, this]

theorem ssor_solves (A : CSR K) (hA : A.Valid) (hs : A.Sorted) (hsq : A.numCols = A.numRows) (D : List K)
    (hD : D.length = A.numRows) (hD0 : ∀ i, i < A.numRows → D.getD i 0 ≠ 0) (omega : K) (ho : omega ≠ 0)
    (x r : List K) (hx : x.length = A.numRows) (hr : r.length = A.numRows) :
    (ssorMatvec A D omega x r).length = A.numRows ∧ SsorEq A.numRows A.entry D omega x (ssorMatvec A D omega x r) := by
  obtain ⟨z, h1, h2, h3⟩ := ssor_corrects A hA hs hsq D hD hD0 omega ho x r hx hr
  cases h1
  exact ⟨h2, h3⟩

theorem jacobi_solves (n : Nat) (D : List K) (omega : K) (hD : D.length = n) (hD0 : ∀ i, i < n → D.getD i 0 ≠ 0)
    (x y : List K) (hx : x.length = n) (hy : y.length = n) :
    (jacobiMatvec D omega x y).length = n ∧ JacobiEq n D omega x (jacobiMatvec D omega x y) := by
  obtain ⟨z, h1, h2, h3⟩ := jacobi_corrects D omega hD hD0 x y hx hy
  cases h1
  exact ⟨h2, h3⟩

/-- The separable smoother adds, in every step, the preconditioned residual; the shortcut for the first
residual (`simple`) is right for a zero initial guess. -/
theorem separable_steps (n : Nat) (A : List K → List K → List K) (M : Nat → Nat → K) (hA : Acts n A M)
    (prec : Bool → List K → List K → Option (List K)) (R : Bool → List K → List K → Prop) (hP : ∀ post, Corrects n (prec post) (R post))
    (preSteps postSteps : Nat) (b y t t2 : List K) (post simple : Bool) (hb : b.length = n) (hy : y.length = n)
    (ht : t.length = n) (ht2 : t2.length = n) (hs : simple = true → ∀ i, i < n → y.getD i 0 = 0) :
    ∃ y' t', sepEval A prec preSteps postSteps b y post simple t t2 = some (y', t') ∧ y'.length = n ∧ t'.length = n ∧
      Chain (StepEq n M b (R post)) (if post then postSteps else preSteps) y y' :=
  sepLoop_chain hA (hP post) b hb _ simple y t t2 hy ht ht2 hs

/-- The smoothers SOR, SSOR and Jacobi do not move the exact solution. -/
theorem separable_fixed (n : Nat) (A : List K → List K → List K) (M : Nat → Nat → K) (hA : Acts n A M)
    (prec : Bool → List K → List K → Option (List K)) (D : List K) (hD0 : ∀ i, i < n → D.getD i 0 ≠ 0) (omega : K) (ho : omega ≠ 0)
    (hP : (∀ post, Corrects n (prec post) (JacobiEq n D omega)) ∨ (∀ post, Corrects n (prec post) (SsorEq n M D omega)) ∨
      ∀ post, ∃ fwd, Corrects n (prec post) (SorEq n M D omega fwd))
    (preSteps postSteps : Nat) (b y t t2 : List K) (post : Bool) (hb : b.length = n) (hy : y.length = n)
    (ht : t.length = n) (ht2 : t2.length = n) (hex : ∀ i, i < n → mulVec n M y i = b.getD i 0) :
    ∃ t', sepEval A prec preSteps postSteps b y post false t t2 = some (y, t') := by
  have key : ∀ R : List K → List K → Prop, Corrects n (prec post) R →
      (∀ r z : List K, r.length = n → z.length = n → (∀ i, i < n → r.getD i 0 = 0) → R r z → ∀ i, i < n → z.getD i 0 = 0) →
      ∃ t', sepEval A prec preSteps postSteps b y post false t t2 = some (y, t') := by
    intro R hR h0
    obtain ⟨y', t', h1, _, _, h3⟩ := sepLoop_chain hA hR b hb (if post then postSteps else preSteps) false y t t2 hy ht ht2 (by simp)
    unfold sepEval
    exact ⟨t', by rw [h1, chain_fixed (step_fixed h0 y hy hex) h3]⟩
  rcases hP with hP | hP | hP
  · exact key _ (hP post) fun r z _ _ => jacobiEq_zero D hD0 omega r z
  · exact key _ (hP post) fun r z _ _ => ssorEq_zero M D hD0 omega ho r z
  · obtain ⟨fwd, h⟩ := hP post
    exact key _ h fun r z _ _ => sorEq_zero M D hD0 omega ho fwd r z

/-- Gauss-Seidel on a CSR matrix performs the configured number of sweeps in the configured direction. -/
theorem gauss_seidel_sweeps (G : GS K) (A : CSR K) (hG : G.A = .csr A) (hA : A.Valid) (hsq : A.numCols = A.numRows)
    (hD : ∀ i, i < A.numRows → G.D.getD i 0 = A.entry i i ∧ A.entry i i ≠ 0) (b y t t2 : List K) (hy : y.length = A.numRows)
    (post : Bool) :
    ∃ y', G.eval b y post t t2 = some y' ∧ Chain (SweepEq A.numRows A.entry b (if post then G.postForward else G.preForward))
      (if post then G.postSteps else G.preSteps) y y' := by
  have h := (gsCSR_chain A hA hsq G.D b (fun i hi => ⟨(hD i hi).1, (hD i hi).1 ▸ (hD i hi).2⟩)
    (if post then G.postForward else G.preForward) (if post then G.postSteps else G.preSteps) y hy).1
  refine ⟨_, ?_, h⟩
  unfold GS.eval
  rw [hG]

/-- The same for time steppers, unless the pre-sweep is forward and the post-sweep backward. -/
theorem time_stepper_sweeps_partial (G : GS K) (M S : CSR K) (facS facM : K) (n : Nat) (hG : G.A = .ts M S facS facM)
    (hA : (SorOp.ts M S facS facM).OK n) (hop : Acts n G.op (SorOp.ts M S facS facM).entry) (hDl : G.D.length = n)
    (hD : ∀ i, i < n → G.D.getD i 0 = (SorOp.ts M S facS facM).entry i i ∧ G.D.getD i 0 ≠ 0) (b y t t2 : List K)
    (hb : b.length = n) (hy : y.length = n) (ht : t.length = n) (ht2 : t2.length = n) (post : Bool)
    (hdir : ¬ (G.preForward = true ∧ G.postForward = false)) :
    ∃ y', G.eval b y post t t2 = some y' ∧
      Chain (SweepEq n (SorOp.ts M S facS facM).entry b (if post then G.postForward else G.preForward))
        (if post then G.postSteps else G.preSteps) y y' := by
  have hmk : mkSor G.A G.D 1 G.preForward G.postForward = some ⟨G.A, G.D, 1, G.preForward, G.postForward, false, none⟩ := by
    rw [hG]
    have : M.indices.length = S.indices.length := by rw [hA.2.2.2.2.2.2.1]
    unfold mkSor
    dsimp only
    rw [if_pos this]
  have he : G.eval b y post t t2 = GS.loop G.op ⟨G.A, G.D, 1, G.preForward, G.postForward, false, none⟩ b
      (if post then G.postForward else G.preForward) (if post then G.postSteps else G.preSteps) y t t2 := by
    unfold GS.eval
    rw [hmk, hG]
    rfl
  have hfw : ∀ P : SorPrec K, P.preForward = G.preForward → P.postForward = G.postForward →
      (if (if post then G.postForward else G.preForward) then P.setPost else P.setPre).forward =
        (if post then G.postForward else G.preForward) := by
    intro P h1 h2
    cases hp : G.preForward <;> cases hq : G.postForward <;> cases post <;>
      simp_all [SorPrec.setPost, SorPrec.setPre]
  have hc : Corrects n (if (if post then G.postForward else G.preForward) then
        (⟨G.A, G.D, 1, G.preForward, G.postForward, false, none⟩ : SorPrec K).setPost
        else (⟨G.A, G.D, 1, G.preForward, G.postForward, false, none⟩ : SorPrec K).setPre).matvec
      (SorEq n (SorOp.ts M S facS facM).entry G.D 1 (if post then G.postForward else G.preForward)) := by
    have h := hfw ⟨G.A, G.D, 1, G.preForward, G.postForward, false, none⟩ rfl rfl
    cases hsw : (if post then G.postForward else G.preForward)
    · rw [hsw] at h
      rw [if_neg (by simp)] at h ⊢
      have := sorMatvec_corrects (SorPrec.setPre ⟨G.A, G.D, 1, G.preForward, G.postForward, false, none⟩)
        (n := n) (by show G.A.OK n; rw [hG]; exact hA) hDl (fun i hi => (hD i hi).2) one_ne_zero
      rw [h] at this
      rw [← hG]
      exact this
    · rw [hsw] at h
      rw [if_pos rfl] at h ⊢
      have := sorMatvec_corrects (SorPrec.setPost ⟨G.A, G.D, 1, G.preForward, G.postForward, false, none⟩)
        (n := n) (by show G.A.OK n; rw [hG]; exact hA) hDl (fun i hi => (hD i hi).2) one_ne_zero
      rw [h] at this
      rw [← hG]
      exact this
  obtain ⟨y', h1, _, h3⟩ := gsLoop_chain hop _ _ hc b hb (if post then G.postSteps else G.preSteps) y t t2 hy ht ht2
  exact ⟨y', he.trans h1, chain_mono (fun u v => step_sweep _ G.D (fun i hi => (hD i hi).1) b _ u v) h3⟩

/-- The exact solution is a fixed point of Gauss-Seidel on CSR matrices. -/
theorem gauss_seidel_fixed (G : GS K) (A : CSR K) (hG : G.A = .csr A) (hA : A.Valid) (hsq : A.numCols = A.numRows)
    (hD : ∀ i, i < A.numRows → G.D.getD i 0 = A.entry i i ∧ A.entry i i ≠ 0) (b y t t2 : List K) (hy : y.length = A.numRows)
    (hex : ∀ i, i < A.numRows → mulVec A.numRows A.entry y i = b.getD i 0) (post : Bool) :
    G.eval b y post t t2 = some y := by
  obtain ⟨y', h1, h2⟩ := gauss_seidel_sweeps G A hG hA hsq hD b y t t2 hy post
  rw [h1, chain_fixed (sweep_fixed A.entry (fun i hi => (hD i hi).2) b _ y hy hex) h2]

/-- Gauss-Seidel on a nonempty matrix in symmetric storage raises (if there is a step to do). -/
theorem sss_gauss_seidel_fails (G : GS K) (A : CSR K) (diag : List K) (hG : G.A = .sss A diag) (hD : G.D ≠ []) (post : Bool)
    (hsteps : 0 < if post then G.postSteps else G.preSteps) (b y t t2 : List K) : G.eval b y post t t2 = none := by
  unfold GS.eval
  rw [hG]
  dsimp only [mkSor]
  obtain ⟨s, hs⟩ := Nat.exists_eq_add_of_lt hsteps
  rw [hs, Nat.zero_add]
  have h0 : G.D.length ≠ 0 := by simpa using hD
  simp only [Option.bind_eq_bind, Option.bind_some]
  unfold GS.loop
  have : ∀ u v : List K, (if (if post then G.postForward else G.preForward) = true then
      (⟨.sss A diag, G.D, 1, G.preForward, G.postForward, false, none⟩ : SorPrec K).setPost else
      (⟨.sss A diag, G.D, 1, G.preForward, G.postForward, false, none⟩ : SorPrec K).setPre).matvec u v = none := by
    intro u v
    generalize (if post then G.postForward else G.preForward) = sw
    cases sw <;> simp [SorPrec.setPost, SorPrec.setPre, SorPrec.matvec, h0]
  dsimp only
  rw [this]
  rfl

/-! ### concrete cases -/

/-- `[[2, 1], [1, 2]]` -/
def M2 : CSR ℚ := ⟨[0, 2, 4], [0, 1, 0, 1], [2, 1, 1, 2], 2, 2⟩
/-- `[[1, 0], [0, 1]]` with the same pattern. -/
def I2 : CSR ℚ := ⟨[0, 2, 4], [0, 1, 0, 1], [1, 0, 0, 1], 2, 2⟩

theorem M2_valid : M2.Valid := ⟨⟨by decide, by decide, by decide, by decide⟩, by decide, by decide⟩
theorem I2_valid : I2.Valid := ⟨⟨by decide, by decide, by decide, by decide⟩, by decide, by decide⟩
theorem M2_sorted : M2.Sorted := by
  intro i hi
  have : i = 0 ∨ i = 1 := by simp [M2] at hi; omega
  rcases this with rfl | rfl <;> decide

theorem ts_ok : (SorOp.ts I2 M2 1 1).OK 2 := ⟨M2_valid, M2_sorted, rfl, rfl, I2_valid, rfl, rfl, rfl⟩

/-- The matrix-vector product of `I + M2`. -/
def op2 (x _ : List ℚ) : List ℚ := [3 * x.getD 0 0 + x.getD 1 0, x.getD 0 0 + 3 * x.getD 1 0]

theorem op2_acts : Acts 2 op2 (SorOp.ts I2 M2 1 1).entry := by
  intro x y _ _
  refine ⟨rfl, fun i hi => ?_⟩
  have e : ∀ i j, i < 2 → j < 2 → (SorOp.ts I2 M2 1 1).entry i j = if i = j then 3 else 1 := by
    intro i j hi hj
    have h1 : i = 0 ∨ i = 1 := by omega
    have h2 : j = 0 ∨ j = 1 := by omega
    rcases h1 with rfl | rfl <;> rcases h2 with rfl | rfl <;> decide +kernel
  unfold mulVec
  rw [Finset.sum_range_succ, Finset.sum_range_succ, Finset.sum_range_zero, zero_add, e i 0 hi (by omega), e i 1 hi (by omega)]
  have h1 : i = 0 ∨ i = 1 := by omega
  rcases h1 with rfl | rfl <;> simp [op2]

/-- Defaults: forward pre-sweep, backward post-sweep, one step each. -/
def gsDefault : GS ℚ := ⟨.ts I2 M2 1 1, op2, [3, 3], true, false, 1, 1⟩

example : gsDefault.eval [9, 9] [0, 0] false [0, 0] [0, 0] = some [2, 3] := by decide +kernel
example : gsDefault.eval [9, 9] [0, 0] true [0, 0] [0, 0] = some [3, 2] := by decide +kernel
example : (GS.mk (.csr M2) op2 [2, 2] true false 1 1 : GS ℚ).eval [4, 4] [0, 0] false [] [] = some [2, 1] := by decide +kernel

/-- The full property is false: with the default settings the pre-smoothing of a time stepper is not the
configured forward sweep (it is the backward sweep), and the post-smoothing is not the configured backward sweep. -/
theorem time_stepper_direction_fails :
    ∃ (G : GS ℚ) (b y : List ℚ), G.preForward = true ∧ G.postForward = false ∧ G.preSteps = 1 ∧ G.postSteps = 1 ∧
      G.A.OK 2 ∧ Acts 2 G.op G.A.entry ∧ (∀ i, i < 2 → G.D.getD i 0 = G.A.entry i i ∧ G.D.getD i 0 ≠ 0) ∧
      b.length = 2 ∧ y.length = 2 ∧
      ∀ t t2 : List ℚ, t = [0, 0] → t2 = [0, 0] →
        (∃ y', G.eval b y false t t2 = some y' ∧ ¬ SweepEq 2 G.A.entry b true y y') ∧
        ∃ y', G.eval b y true t t2 = some y' ∧ ¬ SweepEq 2 G.A.entry b false y y' := by
  refine ⟨gsDefault, [9, 9], [0, 0], rfl, rfl, rfl, rfl, ts_ok, op2_acts, ?_, rfl, rfl, ?_⟩
  · intro i hi
    have h1 : i = 0 ∨ i = 1 := by omega
    rcases h1 with rfl | rfl <;> exact ⟨by decide +kernel, by decide +kernel⟩
  · rintro t t2 rfl rfl
    refine ⟨⟨[2, 3], by decide +kernel, fun h => ?_⟩, [3, 2], by decide +kernel, fun h => ?_⟩
    · have := h.2 0 (by omega)
      revert this
      decide +kernel
    · have := h.2 1 (by omega)
      revert this
      decide +kernel

/-- The hypotheses of the sweep theorems are met. -/
example : ∃ y', (GS.mk (.ts I2 M2 1 1) op2 [3, 3] false true 2 3 : GS ℚ).eval [9, 9] [1, 0] true [0, 0] [0, 0] = some y' ∧
    Chain (SweepEq 2 (SorOp.ts I2 M2 1 1).entry [9, 9] true) 3 [1, 0] y' :=
  time_stepper_sweeps_partial (GS.mk (.ts I2 M2 1 1) op2 [3, 3] false true 2 3) I2 M2 1 1 2 rfl ts_ok op2_acts rfl
    (by
      intro i hi
      have h1 : i = 0 ∨ i = 1 := by omega
      rcases h1 with rfl | rfl <;> exact ⟨by decide +kernel, by decide +kernel⟩) [9, 9] [1, 0] [0, 0] [0, 0] rfl rfl rfl rfl true (by simp)

example : ssorMatvec M2 [2, 2] 1 [4, 4] [7, 7] = [3 / 2, 1] := by decide +kernel
example : jacobiMatvec [2, 4] (1 / 2) [4, 4] [7, 7] = [(1 : ℚ), 1 / 2] := by decide +kernel

end PyNucleus.Props.C27
