import Verif.Proof.Multigrid
import Mathlib.Tactic.NoncommRing

/-! # Symmetry, error propagation, outer loop -/

namespace PyNucleus.Multigrid

open PyNucleus.Loops PyNucleus.Spec PyNucleus.Blas PyNucleus.Smoothers PyNucleus.Krylov

variable {K : Type} [Field K]

theorem iter_comm {m : Nat} (B A : Matrix (Fin m) (Fin m) K) : ∀ k, B * A * iter B A k = iter B A k * A * B := by
  intro k
  induction k with
  | zero => simp [iter]
  | succ k ih =>
    simp only [iter, Matrix.mul_add, Matrix.add_mul, Matrix.mul_sub, Matrix.sub_mul, Matrix.mul_one]
    have h2 : B * A * (B * (A * iter B A k)) = B * (A * iter B A k) * A * B := by
      have : B * (A * iter B A k) = B * A * iter B A k := by rw [Matrix.mul_assoc]
      rw [this]
      calc B * A * (B * A * iter B A k) = B * A * (iter B A k * A * B) := by rw [ih]
        _ = B * A * iter B A k * A * B := by simp only [Matrix.mul_assoc]
    rw [ih, h2]

theorem iter_succ' {m : Nat} (B A : Matrix (Fin m) (Fin m) K) (k : Nat) :
    iter B A (k + 1) = iter B A k + (1 - iter B A k * A) * B := by
  have := iter_comm B A k
  simp only [iter, Matrix.mul_sub, Matrix.sub_mul, Matrix.mul_one, Matrix.one_mul]
  rw [← Matrix.mul_assoc, this]

theorem iter_transpose {m : Nat} (B A : Matrix (Fin m) (Fin m) K) (hA : A.IsSymm) (k : Nat) :
    (iter B A k).transpose = iter B.transpose A k := by
  induction k with
  | zero => simp [iter]
  | succ k ih =>
    rw [iter_succ']
    simp only [iter, Matrix.transpose_add, Matrix.transpose_mul, Matrix.transpose_sub, Matrix.transpose_one, ih, hA.eq]

theorem iter_one {m : Nat} (B A : Matrix (Fin m) (Fin m) K) : iter B A 1 = B := by simp [iter]

theorem iter_error {m : Nat} (B A : Matrix (Fin m) (Fin m) K) (k : Nat) : 1 - iter B A k * A = (1 - B * A) ^ k := by
  induction k with
  | zero => simp [iter]
  | succ k ih =>
    rw [pow_succ', ← ih]
    simp only [iter]
    noncomm_ring

/-- Coarse grid correction of level `l + 1`. -/
theorem B_error {n : Nat → Nat} (T : Mats K n) (cycle l : Nat) :
    1 - T.B cycle (l + 1) * T.A (l + 1) = (1 - T.N (l + 1) true * T.A (l + 1)) *
      (1 - T.P l * (if l = 0 then T.B cycle l else iter (T.B cycle l) (T.A l) cycle) * T.R l * T.A (l + 1)) *
      (1 - T.N (l + 1) false * T.A (l + 1)) := by
  conv_lhs => unfold Mats.B
  dsimp only
  generalize T.P l * (if l = 0 then T.B cycle l else iter (T.B cycle l) (T.A l) cycle) * T.R l = G
  noncomm_ring

theorem B_symm {n : Nat → Nat} (T : Mats K n) (cycle : Nat) (L : Nat) (hA : ∀ l, l ≤ L → (T.A l).IsSymm) (hC : T.C.IsSymm)
    (hR : ∀ l, l < L → T.R l = (T.P l).transpose)
    (hN : ∀ l, l < L → T.N (l + 1) true = (T.N (l + 1) false).transpose) : ∀ l, l ≤ L → (T.B cycle l).IsSymm := by
  intro l
  induction l with
  | zero => intro _; exact hC
  | succ l ih =>
    intro hl
    have h1 := ih (by omega)
    have hX : (if l = 0 then T.B cycle l else iter (T.B cycle l) (T.A l) cycle).IsSymm := by
      split
      · exact h1
      · unfold Matrix.IsSymm
        rw [iter_transpose _ _ (hA l (by omega)), h1.eq]
    have hA' := (hA (l + 1) hl).eq
    unfold Matrix.IsSymm
    unfold Mats.B
    dsimp only
    rw [hN l (by omega), hR l (by omega)]
    generalize (if l = 0 then T.B cycle l else iter (T.B cycle l) (T.A l) cycle) = X at *
    generalize T.N (l + 1) false = N1
    generalize T.A (l + 1) = A at *
    have hG : (T.P l * X * (T.P l).transpose).transpose = T.P l * X * (T.P l).transpose := by
      simp only [Matrix.transpose_mul, Matrix.transpose_transpose, hX.eq, Matrix.mul_assoc]
    generalize T.P l * X * (T.P l).transpose = G at *
    simp only [Matrix.transpose_add, Matrix.transpose_mul, Matrix.transpose_sub, Matrix.transpose_one, Matrix.transpose_transpose, hG, hA']
    noncomm_ring

/-- `x -> x + B (b - A x)` repeated. -/
theorem iter_step {m : Nat} (B A : Matrix (Fin m) (Fin m) K) (k : Nat) (b x y : Fin m → K)
    (h : y = x + (iter B A k).mulVec (b - A.mulVec x)) :
    y + B.mulVec (b - A.mulVec y) = x + (iter B A (k + 1)).mulVec (b - A.mulVec x) := by
  subst h
  simp only [iter, Matrix.mulVec_mulVec, Matrix.mulVec_sub, Matrix.mulVec_add, Matrix.add_mulVec, Matrix.sub_mulVec, Matrix.mul_sub,
    Matrix.mul_add, Matrix.mul_one, ← Matrix.mul_assoc, Matrix.add_mul, Matrix.sub_mul]
  abel

theorem precLoop_ok {H : Hier K} {T : Mats K H.n} {L : Nat} (hD : Describes H T L) (hL : 0 < L) {cycle : Nat} (hc : 1 ≤ cycle)
    (x : List K) (hx : x.length = H.n L) : ∀ m k y simple mem, y.length = H.n L → MemOK H.n L mem → (simple = true → k = 0) →
    toV (H.n L) y = (iter (T.B cycle L) (T.A L) k).mulVec (toV _ x) →
    ∃ y' mem', precLoop H cycle L x m y simple mem = some (y', mem') ∧ y'.length = H.n L ∧ MemOK H.n L mem' ∧
      toV (H.n L) y' = (iter (T.B cycle L) (T.A L) (k + m)).mulVec (toV _ x) := by
  intro m
  induction m with
  | zero => intro k y simple mem hy hm _ h; exact ⟨y, mem, rfl, hy, hm, h⟩
  | succ m ih =>
    intro k y simple mem hy hm hs h
    obtain ⟨y1, m1, a1, a2, a3, _, a5⟩ := level_ok hD hc L (le_refl _) x y simple mem hx hy hm (fun e => by rw [h, hs e]; simp [iter])
    rw [if_neg (by omega)] at a5
    obtain ⟨y2, m2, b1, b2, b3, b4⟩ := ih (k + 1) y1 false m1 a2 a3 (by simp) (by
      have := iter_step (T.B cycle L) (T.A L) k (toV _ x) 0 (toV _ y) (by simpa using h)
      rw [a5, this]; simp)
    refine ⟨y2, m2, ?_, b2, b3, by rw [show k + (m + 1) = k + 1 + m by omega]; exact b4⟩
    unfold precLoop
    rw [a1]
    simp only [Option.bind_eq_bind, Option.bind_some]
    exact b1

/-! ## Separable smoothers -/

theorem sepLoop_V {m : Nat} {A : List K → List K → List K} {M Q : Matrix (Fin m) (Fin m) K} (hA : Applies m A M)
    {prec : List K → List K → Option (List K)} (hQ : PrecApplies m prec Q) (b : List K) (hb : b.length = m) :
    ∀ steps simple y t t2, y.length = m → t.length = m → t2.length = m → (simple = true → toV m y = 0) →
    ∃ y' t', sepLoop A prec b steps simple y t t2 = some (y', t') ∧ y'.length = m ∧ t'.length = m ∧
      toV m y' = toV m y + (iter Q M steps).mulVec (toV m b - M.mulVec (toV m y)) := by
  intro steps
  induction steps with
  | zero => intro simple y t t2 hy ht _ _; exact ⟨y, t, rfl, hy, ht, by simp [iter]⟩
  | succ steps ih =>
    intro simple y t t2 hy ht ht2 hs
    obtain ⟨r1, r2⟩ := residual_V hA y b t hy hb ht simple hs
    obtain ⟨z, z1, z2, z3⟩ := hQ (residual A y b t simple) t2 r1 ht2
    obtain ⟨u1, u2⟩ := update_V y z hy
    obtain ⟨y', t', a1, a2, a3, a4⟩ := ih false (update y z) (residual A y b t simple) z u1 r1 z2 (by simp)
    refine ⟨y', t', ?_, a2, a3, ?_⟩
    · unfold sepLoop
      simp only [z1, Option.bind_eq_bind, Option.bind_some]
      exact a1
    · rw [a4, u2, z3, r2, iter_succ']
      simp only [Matrix.mulVec_mulVec, Matrix.mulVec_sub, Matrix.mulVec_add, Matrix.add_mulVec, Matrix.sub_mulVec, Matrix.mul_sub,
        Matrix.mul_add, Matrix.mul_one, Matrix.one_mul, ← Matrix.mul_assoc, Matrix.add_mul, Matrix.sub_mul, Matrix.one_mulVec]
      abel

/-! ## Full multigrid start -/

theorem coarsen_ok {H : Hier K} {T : Mats K H.n} {L : Nat} (hD : Describes H T L) : ∀ l, l ≤ L → ∀ (b : List K) (mem : Mems K),
    b.length = H.n l → MemOK H.n L mem →
    MemOK H.n L (coarsenRhs H l b mem) ∧ (∀ k, l ≤ k → coarsenRhs H l b mem k = mem k) ∧
    (∀ k, k + 1 < l → toV (H.n k) (coarsenRhs H l b mem k).rhs = (T.R k).mulVec (toV _ (coarsenRhs H l b mem (k + 1)).rhs)) ∧
    ∀ k, l = k + 1 → toV (H.n k) (coarsenRhs H l b mem k).rhs = (T.R k).mulVec (toV _ b) := by
  intro l
  induction l with
  | zero => intro _ b mem _ hm; exact ⟨hm, fun k _ => rfl, fun k hk => absurd hk (by omega), fun k hk => absurd hk (by omega)⟩
  | succ l ih =>
    intro hl b mem hb hm
    obtain ⟨r1, r2⟩ := hD.R l (by omega) b (mem l).rhs hb (hm.1 l (by omega)).1
    have hm1 : MemOK H.n L (put mem l ⟨H.R (l + 1) b (mem l).rhs, (mem l).sol, (mem l).temp⟩) :=
      memOK_put hm l _ (fun h => ⟨r1, (hm.1 l h).2⟩) (fun k hk hkL => by subst hk; exact hm.2 k hkL)
    obtain ⟨a1, a2, a3, a4⟩ := ih (by omega) (H.R (l + 1) b (mem l).rhs) _ r1 hm1
    unfold coarsenRhs
    dsimp only
    have hl' := a2 l (le_refl _)
    rw [put_same] at hl'
    refine ⟨a1, fun k hk => ?_, fun k hk => ?_, fun k hk => ?_⟩
    · rw [a2 k (by omega), put_ne _ _ _ _ (by omega)]
    · by_cases e : l = k + 1
      · rw [a4 k e]
        subst e
        rw [hl']
      · exact a3 k (by omega)
    · have : k = l := by omega
      subst this
      rw [hl']
      exact r2

theorem solve_F {H : Hier K} {T : Mats K H.n} {L : Nat} (hD : Describes H T L) {cycle : Nat} (hc : 1 ≤ cycle) (l : Nat) (hl : l ≤ L)
    (b x : List K) (mem : Mems K) (hb : b.length = H.n l) (hx : x.length = H.n l) (hm : MemOK H.n L mem)
    (hs : ∀ k, (h : l = k + 1) → toV (H.n (k + 1)) x = (T.P k * T.F cycle k * T.R k).mulVec (toV _ b)) :
    ∃ x' mem', solveOnLevel H cycle l b x false mem = some (x', mem') ∧ x'.length = H.n l ∧ MemOK H.n L mem' ∧
      SameAbove l mem mem' ∧ toV (H.n l) x' = (T.F cycle l).mulVec (toV _ b) := by
  obtain ⟨x', m', a1, a2, a3, a4, a5⟩ := level_ok hD hc l hl b x false mem hb hx hm (by simp)
  refine ⟨x', m', a1, a2, a3, a4, ?_⟩
  cases l with
  | zero => rw [a5, if_pos rfl]; rfl
  | succ k =>
    rw [a5, if_neg (by omega), hs k rfl]
    conv_rhs => unfold Mats.F
    simp only [Matrix.add_mulVec, Matrix.mulVec_mulVec, Matrix.mulVec_sub, Matrix.mul_sub, Matrix.mul_one, Matrix.sub_mulVec, ← Matrix.mul_assoc]

theorem fmgUp_ok {H : Hier K} {T : Mats K H.n} {L : Nat} (hD : Describes H T L) {cycle : Nat} (hc : 1 ≤ cycle) :
    ∀ m l mem, l + m < L → MemOK H.n L mem →
    (∀ k, l ≤ k → k + 1 < L → toV (H.n k) (mem k).rhs = (T.R k).mulVec (toV _ (mem (k + 1)).rhs)) →
    (∀ k, l = k + 1 → toV (H.n (k + 1)) (mem l).sol = (T.P k * T.F cycle k * T.R k).mulVec (toV _ (mem l).rhs)) →
    ∃ mem', fmgUp H cycle m l mem = some mem' ∧ MemOK H.n L mem' ∧ (∀ k, l + m ≤ k → (mem' k).rhs = (mem k).rhs) ∧
      (∀ k, l + m = k + 1 → toV (H.n (k + 1)) (mem' (l + m)).sol = (T.P k * T.F cycle k * T.R k).mulVec (toV _ (mem' (l + m)).rhs)) := by
  intro m
  induction m with
  | zero => intro l mem _ hm _ hs; exact ⟨mem, rfl, hm, fun k _ => rfl, hs⟩
  | succ m ih =>
    intro l mem hl hm hr hs
    obtain ⟨x, m1, a1, a2, a3, a4, a5⟩ := solve_F hD hc l (by omega) (mem l).rhs (mem l).sol mem (hm.1 l (by omega)).1
      (hm.1 l (by omega)).2 hm hs
    obtain ⟨p1, p2⟩ := hD.P l (by omega) x (m1 (l + 1)).sol a2 (a3.1 (l + 1) (by omega)).2
    have hm2 : MemOK H.n L (put m1 l ⟨(m1 l).rhs, x, (m1 l).temp⟩) :=
      memOK_put a3 l _ (fun h => ⟨(a3.1 l h).1, a2⟩) (fun k hk hkL => by subst hk; exact a3.2 k hkL)
    have e2 : put m1 l ⟨(m1 l).rhs, x, (m1 l).temp⟩ (l + 1) = m1 (l + 1) := put_ne _ _ _ _ (by omega)
    have hm3 : MemOK H.n L (put (put m1 l ⟨(m1 l).rhs, x, (m1 l).temp⟩) (l + 1)
        ⟨(m1 (l + 1)).rhs, H.P (l + 1) x (m1 (l + 1)).sol, (m1 (l + 1)).temp⟩) :=
      memOK_put hm2 (l + 1) _ (fun h => ⟨(a3.1 (l + 1) h).1, p1⟩) (fun k hk hkL => by
        have : k = l := by omega
        subst this; exact a3.2 k hkL)
    have hrhs : ∀ k, l + 1 ≤ k → (put (put m1 l ⟨(m1 l).rhs, x, (m1 l).temp⟩) (l + 1)
        ⟨(m1 (l + 1)).rhs, H.P (l + 1) x (m1 (l + 1)).sol, (m1 (l + 1)).temp⟩ k).rhs = (mem k).rhs := by
      intro k hk
      by_cases h : k = l + 1
      · subst h; rw [put_same]; exact (a4 _ (by omega)).1
      · rw [put_ne _ _ _ _ h, put_ne _ _ _ _ (by omega)]; exact (a4 _ (by omega)).1
    obtain ⟨m', b1, b2, b3, b4⟩ := ih (l + 1) _ (by omega) hm3
      (fun k hk hkL => by rw [hrhs k hk, hrhs (k + 1) (by omega)]; exact hr k (by omega) hkL)
      (fun k hk => by
        have : k = l := by omega
        subst this
        rw [put_same]
        dsimp only
        rw [p2, a5, (a4 (k + 1) (by omega)).1, hr k (le_refl _) (by omega)]
        simp only [Matrix.mulVec_mulVec, Matrix.mul_assoc])
    refine ⟨m', ?_, b2, fun k hk => (b3 k (by omega)).trans (hrhs k (by omega)), fun k hk => ?_⟩
    · unfold fmgUp
      rw [a1]
      simp only [Option.bind_eq_bind, Option.bind_some, e2]
      exact b1
    · rw [show l + (m + 1) = l + 1 + m by omega]
      exact b4 k (by omega)

theorem fmgStart_ok {H : Hier K} {T : Mats K H.n} {l : Nat} (hD : Describes H T (l + 1)) {cycle : Nat} (hc : 1 ≤ cycle)
    (b x : List K) (mem : Mems K) (hb : b.length = H.n (l + 1)) (hx : x.length = H.n (l + 1)) (hm : MemOK H.n (l + 1) mem) :
    ∃ x' mem', fmgStart H cycle (l + 1) b x mem = some (x', mem') ∧ x'.length = H.n (l + 1) ∧ MemOK H.n (l + 1) mem' ∧
      toV (H.n (l + 1)) x' = (T.start cycle (l + 1)).mulVec (toV _ b) := by
  obtain ⟨a1, a2, a3, a4⟩ := coarsen_ok hD (l + 1) (le_refl _) b mem hb hm
  obtain ⟨m1, b1, b2, b3, b4⟩ := fmgUp_ok hD hc l 0 _ (by omega) a1 (fun k _ hk => a3 k hk) (fun k hk => absurd hk (by omega))
  have hrl : toV (H.n l) (m1 l).rhs = (T.R l).mulVec (toV _ b) := by rw [b3 l (by omega)]; exact a4 l rfl
  simp only [Nat.zero_add] at b4
  obtain ⟨xc, m2, c1, c2, c3, c4, c5⟩ := solve_F hD hc l (by omega) (m1 l).rhs (m1 l).sol m1 (b2.1 l (by omega)).1
      (b2.1 l (by omega)).2 b2 b4
  obtain ⟨p1, p2⟩ := hD.P l (by omega) xc x c2 hx
  have hm3 : MemOK H.n (l + 1) (put m2 l ⟨(m2 l).rhs, xc, (m2 l).temp⟩) :=
    memOK_put c3 l _ (fun h => ⟨(c3.1 l h).1, c2⟩) (fun k hk hkL => by subst hk; exact c3.2 k hkL)
  have e2 : put m2 l ⟨(m2 l).rhs, xc, (m2 l).temp⟩ (l + 1) = m2 (l + 1) := put_ne _ _ _ _ (by omega)
  obtain ⟨x3, t3, d1, d2, d3, d4⟩ := hD.smooth l (by omega) true false b (H.P (l + 1) xc x) (m2 (l + 1)).temp hb p1 (c3.2 l (by omega)) (by simp)
  refine ⟨x3, put (put m2 l ⟨(m2 l).rhs, xc, (m2 l).temp⟩) (l + 1) ⟨(m2 (l + 1)).rhs, (m2 (l + 1)).sol, t3⟩, ?_, d2,
    memOK_put hm3 (l + 1) _ (fun h => absurd h (by omega)) (fun _ _ _ => d3), ?_⟩
  · unfold fmgStart
    simp only [Option.bind_eq_bind, b1, Option.bind_some, c1, e2, d1]
  · rw [d4, p2, c5, hrl]
    unfold Mats.start
    simp only [Matrix.add_mulVec, Matrix.mulVec_mulVec, Matrix.mulVec_sub, Matrix.mul_sub, Matrix.mul_one, Matrix.sub_mulVec, ← Matrix.mul_assoc]

theorem fmgStart_pos {H : Hier K} {T : Mats K H.n} {L : Nat} (hL : 0 < L) (hD : Describes H T L) {cycle : Nat} (hc : 1 ≤ cycle)
    (b x : List K) (mem : Mems K) (hb : b.length = H.n L) (hx : x.length = H.n L) (hm : MemOK H.n L mem) :
    ∃ x' mem', fmgStart H cycle L b x mem = some (x', mem') ∧ x'.length = H.n L ∧ MemOK H.n L mem' ∧
      toV (H.n L) x' = (T.start cycle L).mulVec (toV _ b) := by
  cases L with
  | zero => omega
  | succ l => exact fmgStart_ok hD hc b x mem hb hx hm

end PyNucleus.Multigrid
