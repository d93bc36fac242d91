import Verif.Spec.Krylov
import Verif.Proof.Vec
import Verif.Proof.CGTheory
import Mathlib.LinearAlgebra.Matrix.ToLin

/-! # The conjugate gradient solver -/

namespace PyNucleus.Krylov

open PyNucleus.Loops PyNucleus.Blas PyNucleus.Spec PyNucleus.CGTheory

variable {K : Type} [Field K] [LinearOrder K]

theorem div?_some {a b c : K} (h : div? a b = some c) : b ≠ 0 ∧ c = a / b := by
  unfold div? at h
  split at h
  · cases h
  · rename_i hb; exact ⟨hb, (Option.some.inj h).symm⟩

variable {S : Solver K} {M : Matrix (Fin S.n) (Fin S.n) K}

theorem residual_V (hA : Applies S.n S.A M) {x b r : List K} (hx : x.length = S.n) (hb : b.length = S.n) (hr : r.length = S.n) :
    (S.residual x b r false).length = S.n ∧ toV S.n (S.residual x b r false) = toV S.n b - M.mulVec (toV S.n x) := by
  have h1 := hA x r hx hr
  have h2 := assign3Self_V (S.A x r) (-1) b 1 h1.1
  unfold Solver.residual
  rw [if_neg (by decide)]
  refine ⟨h2.1, ?_⟩
  rw [h2.2, h1.2]
  simp only [neg_smul, one_smul]
  abel

theorem prepare_V (hA : Applies S.n S.A M) (hx0 : ∀ x0, S.x0 = some x0 → x0.length = S.n) {b x r : List K} (hx : x.length = S.n)
    (hb : b.length = S.n) (hr : r.length = S.n) :
    (S.prepare b x r).1.length = S.n ∧ (S.prepare b x r).2.1.length = S.n ∧ toV S.n (S.prepare b x r).1 = S.guess ∧
    toV S.n (S.prepare b x r).2.1 = toV S.n b - M.mulVec (toV S.n (S.prepare b x r).1) ∧
    (S.prepare b x r).2.2 = if S.relTol then (S.norm (S.prepare b x r).2.1).map (fun res => S.tolerance * res) else some S.tolerance := by
  unfold Solver.prepare Solver.guess
  cases h0 : S.x0 with
  | none =>
    have hz := zero_V x hx
    simp only [Option.isNone_none]
    refine ⟨hz.1, ?_, hz.2, ?_, trivial⟩
    · unfold Solver.residual; rw [if_pos rfl, assign_eq _ _ (by omega)]; exact hb
    · unfold Solver.residual; rw [if_pos rfl, assign_eq _ _ (by omega), hz.2, Matrix.mulVec_zero, sub_zero]
  | some x0 =>
    have hl := hx0 x0 h0
    simp only [Option.isNone_some]
    rw [assign_eq _ _ (by omega)]
    have := residual_V hA hl hb hr
    exact ⟨hl, this.1, rfl, this.2, trivial⟩

/-- Sizes of the arrays. -/
structure CG.Sized (n : Nat) (s : CG K) : Prop where
  x : s.x.length = n
  r : s.r.length = n
  p : s.p.length = n
  Ap : s.Ap.length = n
  Br : s.Br.length = n

theorem cgStart_ok (hP : S.PrecOK) {x r p Ap Br : List K} (hx : x.length = S.n) (hr : r.length = S.n) (hp : p.length = S.n)
    (hAp : Ap.length = S.n) (hBr : Br.length = S.n) :
    (S.cgStart x r p Ap Br).1.Sized S.n ∧ (S.cgStart x r p Ap Br).1.x = x ∧ (S.cgStart x r p Ap Br).1.r = r ∧
    (S.cgStart x r p Ap Br).1.residuals.length = 1 := by
  unfold Solver.cgStart
  cases h : S.prec with
  | none => exact ⟨⟨hx, hr, by simp only; rw [assign_eq _ _ (by omega)]; exact hr, hAp, hBr⟩, rfl, rfl, rfl⟩
  | some P => exact ⟨⟨hx, hr, hP P h r p hr hp, hAp, hBr⟩, rfl, rfl, rfl⟩

theorem cgAdvance_ok (hA : Applies S.n S.A M) {b : List K} (hb : b.length = S.n) {s t : CG K} (hs : s.Sized S.n)
    (hres : toV S.n s.r = toV S.n b - M.mulVec (toV S.n s.x)) (h : S.cgAdvance b s = some t) :
    t.Sized S.n ∧ (toV S.n s.p ⬝ᵥ M.mulVec (toV S.n s.p) ≠ 0) ∧
    toV S.n t.x = toV S.n s.x + (s.betaOld / (toV S.n s.p ⬝ᵥ M.mulVec (toV S.n s.p))) • toV S.n s.p ∧
    toV S.n t.r = toV S.n s.r - (s.betaOld / (toV S.n s.p ⬝ᵥ M.mulVec (toV S.n s.p))) • M.mulVec (toV S.n s.p) ∧
    toV S.n t.r = toV S.n b - M.mulVec (toV S.n t.x) ∧ t.p = s.p ∧ t.betaOld = s.betaOld ∧ t.residuals = s.residuals := by
  unfold Solver.cgAdvance at h
  have hAp := hA s.p s.Ap hs.p hs.Ap
  have hdot : mydot s.p (S.A s.p s.Ap) = toV S.n s.p ⬝ᵥ M.mulVec (toV S.n s.p) := by rw [mydot_V s.p _ hs.p, hAp.2]
  dsimp only at h
  rw [hdot] at h
  cases hd : div? s.betaOld (toV S.n s.p ⬝ᵥ M.mulVec (toV S.n s.p)) with
  | none => rw [hd] at h; cases h
  | some alpha =>
    rw [hd] at h
    obtain ⟨hne, ha⟩ := div?_some hd
    rw [← ha]
    have hx := updateScaled_V s.x s.p alpha hs.x
    have hr := updateScaled_V s.r (S.A s.p s.Ap) (-alpha) hs.r
    have hxr : toV S.n (updateScaled s.r (S.A s.p s.Ap) (-alpha)) = toV S.n b - M.mulVec (toV S.n (updateScaled s.x s.p alpha)) := by
      rw [hr.2, hx.2, hres, hAp.2, Matrix.mulVec_add, Matrix.mulVec_smul, neg_smul]
      abel
    have hrs := residual_V hA hx.1 hb hr.1
    have hrV : toV S.n (updateScaled s.r (S.A s.p s.Ap) (-alpha)) = toV S.n s.r - alpha • M.mulVec (toV S.n s.p) := by
      rw [hr.2, hAp.2, neg_smul]; abel
    cases h
    by_cases hk : s.k = 50
    · simp only [hk, if_true]
      exact ⟨⟨hx.1, hrs.1, hs.p, hAp.1, hs.Br⟩, hne, hx.2, by rw [hrs.2, ← hxr, hrV], hrs.2, trivial, trivial, trivial⟩
    · simp only [hk, if_false]
      exact ⟨⟨hx.1, hr.1, hs.p, hAp.1, hs.Br⟩, hne, hx.2, hrV, hxr, trivial, trivial, trivial⟩

theorem cgMeasure_ok (hP : S.PrecOK) {s : CG K} (hs : s.Sized S.n) :
    (S.cgMeasure s).1.Sized S.n ∧ (S.cgMeasure s).1.x = s.x ∧ (S.cgMeasure s).1.r = s.r ∧ (S.cgMeasure s).1.p = s.p ∧
    (S.cgMeasure s).1.betaOld = s.betaOld ∧ (S.cgMeasure s).1.residuals = s.residuals ++ [(S.cgMeasure s).2.1] := by
  unfold Solver.cgMeasure
  cases h : S.prec with
  | none => exact ⟨⟨hs.x, hs.r, hs.p, hs.Ap, hs.Br⟩, rfl, rfl, rfl, rfl, rfl⟩
  | some P => exact ⟨⟨hs.x, hs.r, hs.p, hs.Ap, hP P h _ _ hs.r hs.Br⟩, rfl, rfl, rfl, rfl, rfl⟩

theorem cgDirect_ok {s t : CG K} {beta : K} (hs : s.Sized S.n) (h : S.cgDirect s beta = some t) :
    t.Sized S.n ∧ t.x = s.x ∧ t.r = s.r ∧ t.residuals = s.residuals ∧ t.betaOld = beta ∧
    toV S.n t.p = (beta / s.betaOld) • toV S.n s.p + toV S.n (match S.prec with | none => s.r | some _ => s.Br) := by
  unfold Solver.cgDirect at h
  cases hd : div? beta s.betaOld with
  | none => rw [hd] at h; cases h
  | some q =>
    rw [hd] at h
    obtain ⟨_, hq⟩ := div?_some hd
    cases h
    have hp := assign3Self_V s.p q (match S.prec with | none => s.r | some _ => s.Br) 1 hs.p
    refine ⟨⟨hs.x, hs.r, hp.1, hs.Ap, hs.Br⟩, rfl, rfl, rfl, rfl, ?_⟩
    rw [← hq, ← one_smul K (toV S.n (match S.prec with | none => s.r | some _ => s.Br))]
    exact hp.2

/-- What the stopping criterion measures. -/
def Solver.crit (S : Solver K) (s : CG K) : Option K :=
  match S.prec with
  | none => S.norm s.r
  | some P => if S.use2norm then S.norm s.r else S.sqrt (mydot s.r (P s.r s.Br))

/-- Invariant of the loop: the final state is reached from a sized state with the true residual. -/
theorem cgLoop_ok (hA : Applies S.n S.A M) (hP : S.PrecOK) {b : List K} (hb : b.length = S.n) (tol : Option K) :
    ∀ (m i : Nat) (s : CG K), s.Sized S.n → toV S.n s.r = toV S.n b - M.mulVec (toV S.n s.x) →
    ∀ k t, S.cgLoop b tol m i s = some (k, t) → t.Sized S.n ∧ toV S.n t.r = toV S.n b - M.mulVec (toV S.n t.x) ∧
      i ≤ k ∧ k ≤ i + m ∧ t.residuals.length ≤ s.residuals.length + m ∧
      (k < i + m → ∃ c, t.residuals.getLast? = some c ∧ le? c tol = true ∧
        ∃ Br, Br.length = S.n ∧ c = S.crit { t with Br := Br }) := by
  intro m
  induction m with
  | zero =>
    intro i s hs hr k t h
    unfold Solver.cgLoop at h
    cases h
    exact ⟨hs, hr, by omega, by omega, by omega, fun h => by omega⟩
  | succ m ih =>
    intro i s hs hr k t h
    unfold Solver.cgLoop at h
    cases ha : S.cgAdvance b s with
    | none => rw [ha] at h; cases h
    | some u =>
      rw [ha] at h
      obtain ⟨u1, _, _, _, u5, u6, u7, u8⟩ := cgAdvance_ok hA hb hs hr ha
      obtain ⟨v1, v2, v3, v4, v5, v6⟩ := cgMeasure_ok hP u1
      have hvr : toV S.n (S.cgMeasure u).1.r = toV S.n b - M.mulVec (toV S.n (S.cgMeasure u).1.x) := by rw [v2, v3, u5]
      have hlen : (S.cgMeasure u).1.residuals.length = s.residuals.length + 1 := by rw [v6, u8]; simp
      replace h : (if le? (S.cgMeasure u).2.1 tol then some (i, (S.cgMeasure u).1)
          else match (S.cgMeasure u).2.2.bind (S.cgDirect (S.cgMeasure u).1) with
            | some s => S.cgLoop b tol m (i + 1) s
            | none => if m = 0 then some (i + 1, (S.cgMeasure u).1) else none) = some (k, t) := h
      split at h
      · rename_i hle
        cases h
        refine ⟨v1, hvr, by omega, by omega, by omega, fun _ => ⟨(S.cgMeasure u).2.1, by rw [v6]; simp, hle, u.Br, u1.Br, ?_⟩⟩
        unfold Solver.crit Solver.cgMeasure
        cases hp : S.prec <;> rfl
      · split at h
        · rename_i w hw
          cases hq : (S.cgMeasure u).2.2 with
          | none => rw [hq] at hw; cases hw
          | some beta =>
            rw [hq] at hw
            obtain ⟨w1, w2, w3, w4, w5, _⟩ := cgDirect_ok v1 hw
            obtain ⟨r1, r2, r3, r4, r5, r6⟩ := ih (i + 1) w w1 (by rw [w2, w3]; exact hvr) k t h
            exact ⟨r1, r2, by omega, by omega, by rw [w4] at r5; omega, fun hk => r6 (by omega)⟩
        · split at h
          · rename_i hm
            cases h
            exact ⟨v1, hvr, by omega, by omega, by omega, fun hk => by omega⟩
          · cases h

/-! ### Symmetric positive definite systems -/

section
variable [IsStrictOrderedRing K] {n : Nat}

/-- The inner product as a bilinear map. -/
def ipD (n : Nat) : (Fin n → K) →ₗ[K] (Fin n → K) →ₗ[K] K :=
  LinearMap.mk₂ K (fun u v => u ⬝ᵥ v) (fun _ _ _ => add_dotProduct _ _ _) (fun _ _ _ => smul_dotProduct _ _ _)
    (fun _ _ _ => dotProduct_add _ _ _) (fun _ _ _ => dotProduct_smul _ _ _)

theorem ipD_apply (u v : Fin n → K) : ipD n u v = u ⬝ᵥ v := rfl

/-- Residuals and directions. -/
def cgSeq (A N : Matrix (Fin n) (Fin n) K) (r0 : Fin n → K) : Nat → (Fin n → K) × (Fin n → K)
  | 0 => (r0, N.mulVec r0)
  | j + 1 =>
    let q := cgSeq A N r0 j
    let r := q.1 - ((q.1 ⬝ᵥ N.mulVec q.1) / (q.2 ⬝ᵥ A.mulVec q.2)) • A.mulVec q.2
    (r, N.mulVec r + ((r ⬝ᵥ N.mulVec r) / (q.1 ⬝ᵥ N.mulVec q.1)) • q.2)

theorem cgSeq_rec (A N : Matrix (Fin n) (Fin n) K) (r0 : Fin n → K) (m : Nat) :
    Rec (ipD n) A.mulVecLin N.mulVecLin m (fun j => (cgSeq A N r0 j).1) (fun j => (cgSeq A N r0 j).2) :=
  ⟨rfl, fun _ _ => rfl, fun _ _ => rfl⟩

theorem selfAdj {A N : Matrix (Fin n) (Fin n) K} (hA : A.IsSymm) (hN : N.IsSymm) :
    SelfAdj (ipD n) A.mulVecLin N.mulVecLin := by
  have key : ∀ B : Matrix (Fin n) (Fin n) K, B.IsSymm → ∀ u v, B.mulVec u ⬝ᵥ v = u ⬝ᵥ B.mulVec v := by
    intro B hB u v
    rw [Matrix.dotProduct_mulVec, ← Matrix.mulVec_transpose, hB.eq]
  exact ⟨fun u v => dotProduct_comm u v, key A hA, key N hN⟩

theorem cgSeq_p {A N : Matrix (Fin n) (Fin n) K} (hA : SPD A) (hN : SPD N) (r0 : Fin n → K) (m : Nat)
    (hr : ∀ j, j < m → (cgSeq A N r0 j).1 ≠ 0) :
    ∀ j, j < m → 0 < (cgSeq A N r0 j).2 ⬝ᵥ A.mulVec (cgSeq A N r0 j).2 := by
  intro j
  induction j using Nat.strong_induction_on with
  | _ j ih =>
    intro hj
    have ho := orth (selfAdj hA.1 hN.1) (cgSeq_rec A N r0 j) (fun i hi => (hN.2 _ (hr i (by omega))).ne')
      (fun i hi => (ih i hi (by omega)).ne') j (Nat.le_refl _)
    refine hA.2 _ fun h0 => ?_
    have := ho.rpj
    simp only [h0, map_zero] at this
    exact (hN.2 _ (hr j hj)).ne this

theorem cgSeq_dim {A N : Matrix (Fin n) (Fin n) K} (hA : SPD A) (hN : SPD N) (r0 : Fin n → K) (m : Nat)
    (hr : ∀ j, j < m → (cgSeq A N r0 j).1 ≠ 0) : m ≤ n := by
  have := terminates (selfAdj hA.1 hN.1) (cgSeq_rec A N r0 m) hN.2 (fun j hj => (cgSeq_p hA hN r0 m hr j hj).ne') hr
  simpa using this

variable {N : Matrix (Fin S.n) (Fin S.n) K}

theorem dot_self_nonneg (u : Fin n → K) : 0 ≤ u ⬝ᵥ u :=
  Finset.sum_nonneg fun i _ => mul_self_nonneg (u i)

theorem dot_self_zero {u : Fin n → K} (h : u ⬝ᵥ u = 0) : u = 0 := by
  funext i
  have := (Finset.sum_eq_zero_iff_of_nonneg (fun i _ => mul_self_nonneg (u i))).1 h i (Finset.mem_univ i)
  exact mul_self_eq_zero.1 this

theorem PrecIs.ok (h : S.PrecIs N) : S.PrecOK := by
  intro P hP x y hx hy
  unfold Solver.PrecIs at h
  rw [hP] at h
  exact (h x y hx hy).1

/-- The criterion is a norm. -/
theorem crit_V (hq : SqrtOK S.sqrt) (hN : SPD N) (h : S.PrecIs N) {s : CG K} (hs : s.Sized S.n) :
    ∃ c, S.crit s = some c ∧ 0 ≤ c ∧ (c ≤ 0 → toV S.n s.r = 0) ∧
      (c * c = toV S.n s.r ⬝ᵥ toV S.n s.r ∨ c * c = toV S.n s.r ⬝ᵥ N.mulVec (toV S.n s.r)) := by
  have h2 : ∃ c, S.norm s.r = some c ∧ 0 ≤ c ∧ (c ≤ 0 → toV S.n s.r = 0) ∧ c * c = toV S.n s.r ⬝ᵥ toV S.n s.r := by
    obtain ⟨c, e, c0, cc⟩ := hq _ (dot_self_nonneg (toV S.n s.r))
    refine ⟨c, by unfold Solver.norm; rw [mydot_V _ _ hs.r]; exact e, c0, fun hc => dot_self_zero ?_, cc⟩
    rw [← cc, le_antisymm hc c0, mul_zero]
  unfold Solver.crit
  unfold Solver.PrecIs at h
  cases hp : S.prec with
  | none => obtain ⟨c, a1, a2, a3, a4⟩ := h2; exact ⟨c, a1, a2, a3, Or.inl a4⟩
  | some P =>
    rw [hp] at h
    simp only
    split
    · obtain ⟨c, a1, a2, a3, a4⟩ := h2; exact ⟨c, a1, a2, a3, Or.inl a4⟩
    · have hnn : 0 ≤ toV S.n s.r ⬝ᵥ N.mulVec (toV S.n s.r) := by
        by_cases h0 : toV S.n s.r = 0
        · rw [h0]; simp
        · exact (hN.2 _ h0).le
      obtain ⟨c, e, c0, cc⟩ := hq _ hnn
      refine ⟨c, by rw [mydot_V _ _ hs.r, (h _ _ hs.r hs.Br).2]; exact e, c0, fun hc => ?_, Or.inr cc⟩
      by_contra h0
      have := hN.2 _ h0
      rw [← cc, le_antisymm hc c0, mul_zero] at this
      exact lt_irrefl _ this

theorem measure_V (hq : SqrtOK S.sqrt) (h : S.PrecIs N) {s : CG K} (hs : s.Sized S.n) :
    (S.cgMeasure s).2.1 = S.crit s ∧ (S.cgMeasure s).2.2 = some (toV S.n s.r ⬝ᵥ N.mulVec (toV S.n s.r)) ∧
    toV S.n (match S.prec with | none => (S.cgMeasure s).1.r | some _ => (S.cgMeasure s).1.Br) = N.mulVec (toV S.n s.r) := by
  unfold Solver.cgMeasure Solver.crit
  unfold Solver.PrecIs at h
  cases hp : S.prec with
  | none =>
    rw [hp] at h
    subst h
    refine ⟨rfl, ?_, by simp⟩
    obtain ⟨c, e, c0, cc⟩ := hq _ (dot_self_nonneg (toV S.n s.r))
    simp only
    unfold Solver.norm
    rw [mydot_V _ _ hs.r, e, Matrix.one_mulVec, ← cc]
    rfl
  | some P =>
    rw [hp] at h
    refine ⟨rfl, ?_, (h _ _ hs.r hs.Br).2⟩
    simp only
    rw [mydot_V _ _ hs.r, (h _ _ hs.r hs.Br).2]

/-- State before iteration `i`. -/
structure CGInv (S : Solver K) (M N : Matrix (Fin S.n) (Fin S.n) K) (b : List K) (r0 : Fin S.n → K) (i : Nat) (s : CG K) : Prop where
  sized : s.Sized S.n
  res : toV S.n s.r = toV S.n b - M.mulVec (toV S.n s.x)
  r : toV S.n s.r = (cgSeq M N r0 i).1
  p : toV S.n s.p = (cgSeq M N r0 i).2
  beta : s.betaOld = toV S.n s.r ⬝ᵥ N.mulVec (toV S.n s.r)
  ne : ∀ j, j ≤ i → (cgSeq M N r0 j).1 ≠ 0

theorem cgLoop_spd (hA : Applies S.n S.A M) (hM : SPD M) (hN : SPD N) (hP : S.PrecIs N) (hq : SqrtOK S.sqrt) {b : List K}
    (hb : b.length = S.n) {tol : K} (ht : 0 ≤ tol) (r0 : Fin S.n → K) :
    ∀ (m i : Nat) (s : CG K), CGInv S M N b r0 i s →
    ∃ k t, S.cgLoop b (some tol) m i s = some (k, t) ∧ (k < i + m ∧ k + 1 ≤ S.n ∨ i + m + 1 ≤ S.n) := by
  intro m
  induction m with
  | zero =>
    intro i s h
    exact ⟨i, s, rfl, Or.inr (cgSeq_dim hM hN r0 (i + 1) fun j hj => h.ne j (by omega))⟩
  | succ m ih =>
    intro i s h
    have hdim : i + 1 ≤ S.n := cgSeq_dim hM hN r0 (i + 1) fun j hj => h.ne j (by omega)
    have hpAp := cgSeq_p hM hN r0 (i + 1) (fun j hj => h.ne j (by omega)) i (by omega)
    have hρ := hN.2 _ (h.ne i (Nat.le_refl _))
    have hadv : ∃ u, S.cgAdvance b s = some u := by
      unfold Solver.cgAdvance
      have hAp := hA s.p s.Ap h.sized.p h.sized.Ap
      dsimp only
      rw [mydot_V s.p _ h.sized.p, hAp.2, h.p]
      unfold div?
      rw [if_neg hpAp.ne']
      exact ⟨_, rfl⟩
    obtain ⟨u, hu⟩ := hadv
    obtain ⟨u1, _, _, u4, u5, u6, u7, _⟩ := cgAdvance_ok hA hb h.sized h.res hu
    have hur : toV S.n u.r = (cgSeq M N r0 (i + 1)).1 := by
      rw [u4, h.beta, h.r, h.p]; rfl
    obtain ⟨v1, v2, v3, v4, v5, _⟩ := cgMeasure_ok (PrecIs.ok hP) u1
    obtain ⟨m1, m2, m3⟩ := measure_V hq hP u1
    obtain ⟨c, c1, c2, c3, _⟩ := crit_V hq hN hP u1
    unfold Solver.cgLoop
    rw [hu]
    show ∃ k t, (if le? (S.cgMeasure u).2.1 (some tol) then some (i, (S.cgMeasure u).1)
          else match (S.cgMeasure u).2.2.bind (S.cgDirect (S.cgMeasure u).1) with
            | some s => S.cgLoop b (some tol) m (i + 1) s
            | none => if m = 0 then some (i + 1, (S.cgMeasure u).1) else none) = some (k, t) ∧ _
    rw [m1, c1, m2]
    by_cases hle : c ≤ tol
    · rw [if_pos (by exact decide_eq_true hle)]
      exact ⟨i, _, rfl, Or.inl ⟨by omega, hdim⟩⟩
    · rw [if_neg (by simpa [le?] using hle)]
      have hne : (cgSeq M N r0 (i + 1)).1 ≠ 0 := by
        intro h0
        apply hle
        rcases ‹c * c = _ ∨ c * c = _› with e | e
        · rw [hur, h0] at e
          simp only [dotProduct_zero, mul_self_eq_zero] at e
          rw [e]; exact ht
        · rw [hur, h0] at e
          simp only [Matrix.mulVec_zero, dotProduct_zero, mul_self_eq_zero] at e
          rw [e]; exact ht
      have hdir : ∃ w, S.cgDirect (S.cgMeasure u).1 (toV S.n u.r ⬝ᵥ N.mulVec (toV S.n u.r)) = some w := by
        unfold Solver.cgDirect div?
        rw [if_neg (by rw [v5, u7, h.beta, h.r]; exact hρ.ne')]
        exact ⟨_, rfl⟩
      obtain ⟨w, hw⟩ := hdir
      obtain ⟨w1, w2, w3, _, w5, w6⟩ := cgDirect_ok v1 hw
      have hb' : (some (toV S.n u.r ⬝ᵥ N.mulVec (toV S.n u.r))).bind (S.cgDirect (S.cgMeasure u).1) = some w := hw
      rw [hb']
      have hinv : CGInv S M N b r0 (i + 1) w := by
        refine ⟨w1, by rw [w2, w3, v2, v3, u5], by rw [w3, v3, hur], ?_, by rw [w5, w3, v3], fun j hj => ?_⟩
        · rw [w6, m3, v4, u6, v5, u7, h.beta, hur, h.r, h.p, add_comm]; rfl
        · rcases Nat.lt_or_ge j (i + 1) with hl | hl
          · exact h.ne j (by omega)
          · obtain rfl : j = i + 1 := by omega
            exact hne
      obtain ⟨k, t, e, hk⟩ := ih (i + 1) w hinv
      exact ⟨k, t, e, by omega⟩

end

end PyNucleus.Krylov
