import Verif.Proof.CG

/-! # The BiCGStab solver -/

namespace PyNucleus.Krylov

open PyNucleus.Loops PyNucleus.Blas PyNucleus.Spec

variable {K : Type} [Field K] [LinearOrder K] {S : Solver K} {M : Matrix (Fin S.n) (Fin S.n) K}

/-- Sizes of the arrays. -/
structure Bi.Sized (n : Nat) (t : Bi K) : Prop where
  x : t.x.length = n
  r : t.r.length = n
  r0 : t.r0.length = n
  p : t.p.length = n
  p2 : t.p2.length = n
  s : t.s.length = n
  s2 : t.s2.length = n
  temp : t.temp.length = n
  temp2 : t.temp2.length = n

theorem forRange_pair (n : Nat) (r p q : List K) :
    (forRange 0 n (p, q) fun q i => (q.1.set i (r.getD i 0), q.2.set i (r.getD i 0))) =
      (forRange 0 n p fun p i => p.set i (r.getD i 0), forRange 0 n q fun p i => p.set i (r.getD i 0)) := by
  induction n with
  | zero => rfl
  | succ n ih => rw [forRange_succ, ih, forRange_succ, forRange_succ]

theorem biStart_ok (hP : S.PrecOK) {x r r0 p p2 s s2 temp temp2 : List K} (hx : x.length = S.n) (hr : r.length = S.n)
    (hr0 : r0.length = S.n) (hp : p.length = S.n) (hp2 : p2.length = S.n) (hs : s.length = S.n) (hs2 : s2.length = S.n)
    (ht : temp.length = S.n) (ht2 : temp2.length = S.n) :
    (S.biStart x r r0 p p2 s s2 temp temp2).Sized S.n ∧ (S.biStart x r r0 p p2 s s2 temp temp2).x = x ∧
    (S.biStart x r r0 p p2 s s2 temp temp2).r = r ∧ (S.biStart x r r0 p p2 s s2 temp temp2).residuals.length = 1 ∧
    (S.biStart x r r0 p p2 s s2 temp temp2).p = r ∧
    (S.biStart x r r0 p p2 s s2 temp temp2).kappa = mydot r (S.biStart x r r0 p p2 s s2 temp temp2).r0 := by
  unfold Solver.biStart
  cases h : S.prec with
  | none =>
    have e : ∀ p : List K, p.length = S.n → (forRange 0 S.n p fun p i => p.set i (r.getD i 0)) = r := by
      intro p hp
      have := assign_eq p r (by omega)
      unfold assign at this
      rwa [hr] at this
    simp only
    rw [forRange_pair, e p hp, e r0 hr0]
    exact ⟨⟨hx, hr, hr, hr, hp2, hs, hs2, ht, ht2⟩, trivial, trivial, rfl, rfl, trivial⟩
  | some P =>
    simp only
    rw [assign_eq _ _ (by omega)]
    exact ⟨⟨hx, hr, hP P h r r0 hr hr0, hr, hp2, hs, hs2, ht, ht2⟩, trivial, trivial, rfl, rfl, trivial⟩

/-- The new solution, entry by entry. -/
theorem biX (x p2 s2 : List K) (n : Nat) (a w : K) (hx : x.length = n) :
    (forRange 0 n x fun x i => x.set i (x.getD i 0 + (a * p2.getD i 0 + w * s2.getD i 0))).length = n ∧
    toV n (forRange 0 n x fun x i => x.set i (x.getD i 0 + (a * p2.getD i 0 + w * s2.getD i 0))) =
      toV n x + (a • toV n p2 + w • toV n s2) := by
  have h := CSR.forRange_set x n (by omega) fun i o => o + (a * p2.getD i 0 + w * s2.getD i 0)
  exact ⟨h.1.trans hx, toV_ext fun i hi => by rw [h.2 i, if_pos hi]; rfl⟩

theorem applyPrec_length (hP : S.PrecOK) {v w : List K} (hv : v.length = S.n) (hw : w.length = S.n) : (S.applyPrec v w).length = S.n := by
  unfold Solver.applyPrec
  cases hp : S.prec with
  | none => exact hv
  | some P => exact hP P hp _ _ hv hw

theorem biAdvance_ok (hA : Applies S.n S.A M) (hP : S.PrecOK) {b : List K} {t : Bi K} (ht : t.Sized S.n)
    (hres : toV S.n t.r = toV S.n b - M.mulVec (toV S.n t.x)) {q : Bi K × K × K} (h : S.biAdvance t = some q) :
    q.1.Sized S.n ∧ toV S.n q.1.r = toV S.n b - M.mulVec (toV S.n q.1.x) ∧ q.1.residuals = t.residuals ++ [S.norm q.1.r] := by
  unfold Solver.biAdvance at h
  dsimp only at h
  have hp2 := applyPrec_length hP ht.p ht.p2
  generalize S.applyPrec t.p t.p2 = p2 at h hp2
  have htemp := hA p2 t.temp hp2 ht.temp
  generalize S.A p2 t.temp = temp at h htemp
  cases hd : div? t.kappa (mydot temp t.r0) with
  | none => rw [hd] at h; cases h
  | some alpha =>
    rw [hd] at h
    simp only [Option.bind_eq_bind, Option.bind_some] at h
    have hs := assign3_V t.s t.r 1 temp (-alpha) ht.s ht.r
    generalize assign3 t.s t.r 1 temp (-alpha) = s at h hs
    have hs2 := applyPrec_length hP hs.1 ht.s2
    generalize S.applyPrec s t.s2 = s2 at h hs2
    have htemp2 := hA s2 t.temp2 hs2 ht.temp2
    generalize S.A s2 t.temp2 = temp2 at h htemp2
    cases hn : S.norm temp2 with
    | none => rw [hn] at h; cases h
    | some nt =>
      rw [hn] at h
      simp only [Option.bind_some] at h
      cases hw : div? (mydot temp2 s) (nt * nt) with
      | none => rw [hw] at h; cases h
      | some omega =>
        rw [hw] at h
        simp only [Option.bind_some] at h
        have hx := biX t.x p2 s2 S.n alpha omega ht.x
        have hr := assign3_V t.r s 1 temp2 (-omega) ht.r hs.1
        cases h
        refine ⟨⟨hx.1, hr.1, ht.r0, ht.p, hp2, hs.1, hs2, htemp.1, htemp2.1⟩, ?_, rfl⟩
        simp only
        rw [hr.2, hx.2, hs.2, htemp.2, htemp2.2, hres, Matrix.mulVec_add, Matrix.mulVec_add, Matrix.mulVec_smul, Matrix.mulVec_smul]
        simp only [neg_smul, one_smul]
        abel

theorem biDirect_ok {t u : Bi K} {alpha omega : K} (ht : t.Sized S.n) (h : S.biDirect t alpha omega = some u) :
    u.Sized S.n ∧ u.x = t.x ∧ u.r = t.r ∧ u.residuals = t.residuals := by
  unfold Solver.biDirect at h
  dsimp only at h
  cases h1 : div? (mydot t.r t.r0) t.kappa with
  | none => rw [h1] at h; cases h
  | some q =>
    rw [h1] at h
    simp only [Option.bind_eq_bind, Option.bind_some] at h
    cases h2 : div? (q * alpha) omega with
    | none => rw [h2] at h; cases h
    | some beta =>
      rw [h2] at h
      simp only [Option.bind_some] at h
      cases h
      have hp := CSR.forRange_set t.p S.n (by rw [ht.p]) fun i o => t.r.getD i 0 + beta * (o - omega * t.temp.getD i 0)
      exact ⟨⟨ht.x, ht.r, ht.r0, hp.1.trans ht.p, ht.p2, ht.s, ht.s2, ht.temp, ht.temp2⟩, rfl, rfl, rfl⟩

theorem biLoop_ok (hA : Applies S.n S.A M) (hP : S.PrecOK) {b : List K} (tol : Option K) :
    ∀ (m i : Nat) (t : Bi K), t.Sized S.n → toV S.n t.r = toV S.n b - M.mulVec (toV S.n t.x) →
    ∀ k u, S.biLoop tol m i t = some (k, u) → u.Sized S.n ∧ toV S.n u.r = toV S.n b - M.mulVec (toV S.n u.x) ∧
      i ≤ k ∧ k ≤ i + m ∧ u.residuals.length ≤ t.residuals.length + m ∧ (k < i + m → lt? (S.norm u.r) tol = true) := by
  intro m
  induction m with
  | zero =>
    intro i t ht hr k u h
    unfold Solver.biLoop at h
    cases h
    exact ⟨ht, hr, by omega, by omega, by omega, fun h => by omega⟩
  | succ m ih =>
    intro i t ht hr k u h
    unfold Solver.biLoop at h
    cases ha : S.biAdvance t with
    | none => rw [ha] at h; cases h
    | some q =>
      rw [ha] at h
      obtain ⟨q1, q2, q3⟩ := biAdvance_ok hA hP ht hr ha
      have hl : q.1.residuals.length = t.residuals.length + 1 := by rw [q3]; simp
      replace h : (if lt? (S.norm q.1.r) tol then some (i, q.1)
          else match S.biDirect q.1 q.2.1 q.2.2 with
            | some t => S.biLoop tol m (i + 1) t
            | none => if m = 0 then some (i + 1, q.1) else none) = some (k, u) := h
      split at h
      · rename_i hlt
        cases h
        exact ⟨q1, q2, by omega, by omega, by omega, fun _ => hlt⟩
      · split at h
        · rename_i w hw
          obtain ⟨w1, w2, w3, w4⟩ := biDirect_ok q1 hw
          obtain ⟨r1, r2, r3, r4, r5, r6⟩ := ih (i + 1) w w1 (by rw [w2, w3]; exact q2) k u h
          exact ⟨r1, r2, by omega, by omega, by rw [w4] at r5; omega, fun hk => r6 (by omega)⟩
        · split at h
          · cases h
            exact ⟨q1, q2, by omega, by omega, by omega, fun hk => by omega⟩
          · cases h

end PyNucleus.Krylov
