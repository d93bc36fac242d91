import Verif.Proof.Multigrid2

/-! # Outer loop of the multigrid solver -/

namespace PyNucleus.Multigrid

open PyNucleus.Loops PyNucleus.Spec PyNucleus.Blas PyNucleus.Smoothers PyNucleus.Krylov

variable {K : Type} [Field K]

theorem iterate_eq {m : Nat} (B A : Matrix (Fin m) (Fin m) K) (b x : Fin m → K) (k : Nat) :
    iterate B A b x k = x + (iter B A k).mulVec (b - A.mulVec x) := by
  induction k with
  | zero => simp [iterate, iter]
  | succ k ih => exact (by rw [iterate]; exact iter_step B A k b x _ ih)

theorem iterate_fixed {m : Nat} (B A : Matrix (Fin m) (Fin m) K) (b x : Fin m → K) (h : A.mulVec x = b) (k : Nat) :
    iterate B A b x k = x := by
  rw [iterate_eq, h, sub_self, Matrix.mulVec_zero, add_zero]

variable [LinearOrder K]

theorem loop_ok (S : MG K) {T : Mats K S.H.n} (hD : Describes S.H T S.L) (hL : 0 < S.L) {cycle : Nat} (hc : 1 ≤ cycle) (b : List K)
    (hb : b.length = S.H.n S.L) (tol : Option K) (X : Fin (S.H.n S.L) → K) :
    ∀ m j iterNo x simple last mem, x.length = S.H.n S.L → MemOK S.H.n S.L mem → (simple = true → toV (S.H.n S.L) x = 0) →
    toV (S.H.n S.L) x = iterate (T.B cycle S.L) (T.A S.L) (toV _ b) X j →
    last = resNorm S.sqrt (T.A S.L) (toV _ b) (iterate (T.B cycle S.L) (T.A S.L) (toV _ b) X j) →
    ∃ k x' mem', S.loop cycle b tol m iterNo x simple
        ((List.range (j + 1)).map fun i => resNorm S.sqrt (T.A S.L) (toV _ b) (iterate (T.B cycle S.L) (T.A S.L) (toV _ b) X i)) last mem =
        some (iterNo + k, x', ((List.range (j + k + 1)).map fun i =>
          resNorm S.sqrt (T.A S.L) (toV _ b) (iterate (T.B cycle S.L) (T.A S.L) (toV _ b) X i)), mem') ∧
      x'.length = S.H.n S.L ∧ MemOK S.H.n S.L mem' ∧ toV (S.H.n S.L) x' = iterate (T.B cycle S.L) (T.A S.L) (toV _ b) X (j + k) ∧ k ≤ m ∧
      (k = m ∨ gt? (resNorm S.sqrt (T.A S.L) (toV _ b) (iterate (T.B cycle S.L) (T.A S.L) (toV _ b) X (j + k))) tol = false) ∧
      ∀ i, i < k → gt? (resNorm S.sqrt (T.A S.L) (toV _ b) (iterate (T.B cycle S.L) (T.A S.L) (toV _ b) X (j + i))) tol = true := by
  intro m
  induction m with
  | zero =>
    intro j iterNo x simple last mem hx hm _ h _
    exact ⟨0, x, mem, rfl, hx, hm, h, le_refl _, Or.inl rfl, fun i hi => absurd hi (by omega)⟩
  | succ m ih =>
    intro j iterNo x simple last mem hx hm hs h hlast
    unfold MG.loop
    by_cases hg : gt? last tol = true
    · rw [if_pos hg]
      obtain ⟨x1, m1, a1, a2, a3, _, a5⟩ := level_ok hD hc S.L (le_refl _) b x simple mem hb hx hm hs
      rw [if_neg (by omega)] at a5
      have hA : Applies (S.H.n S.L) (S.H.A S.L) (T.A S.L) := by
        obtain ⟨l, hl⟩ : ∃ l, S.L = l + 1 := ⟨S.L - 1, by omega⟩
        have := hD.A l (by omega)
        rwa [← hl] at this
      have ht : (m1 S.L).temp.length = S.H.n S.L := by
        obtain ⟨l, hl⟩ : ∃ l, S.L = l + 1 := ⟨S.L - 1, by omega⟩
        have := a3.2 l (by omega)
        rwa [← hl] at this
      obtain ⟨r1, r2⟩ := residual_V hA x1 b (m1 S.L).temp a2 hb ht false (by simp)
      have hx1 : toV (S.H.n S.L) x1 = iterate (T.B cycle S.L) (T.A S.L) (toV _ b) X (j + 1) := by rw [a5, h]; rfl
      have hn : S.norm (residual (S.H.A S.L) x1 b (m1 S.L).temp false) =
          resNorm S.sqrt (T.A S.L) (toV _ b) (iterate (T.B cycle S.L) (T.A S.L) (toV _ b) X (j + 1)) := by
        unfold MG.norm resNorm
        rw [mydot_V _ _ r1, r2, hx1]
      obtain ⟨k, x', m', b1, b2, b3, b4, b5, b6, b7⟩ := ih (j + 1) (iterNo + 1) x1 false _
        (put m1 S.L ⟨(m1 S.L).rhs, (m1 S.L).sol, residual (S.H.A S.L) x1 b (m1 S.L).temp false⟩) a2
        (memOK_put a3 _ _ (fun h => absurd h (by omega)) (fun _ _ _ => r1)) (by simp) hx1 hn
      refine ⟨k + 1, x', m', ?_, b2, b3, ?_, by omega, ?_, ?_⟩
      · rw [a1]
        simp only [Option.bind_eq_bind, Option.bind_some]
        rw [show iterNo + (k + 1) = iterNo + 1 + k by omega, show j + (k + 1) + 1 = j + 1 + k + 1 by omega, ← b1]
        congr 1
        conv_rhs => rw [List.range_succ, List.map_append]
        rw [hn]
        rfl
      · rw [show j + (k + 1) = j + 1 + k by omega]; exact b4
      · rw [show j + (k + 1) = j + 1 + k by omega]
        rcases b6 with h | h
        · exact Or.inl (by omega)
        · exact Or.inr h
      · intro i hi
        cases i with
        | zero => rw [← hg, hlast]; rfl
        | succ i => rw [show j + (i + 1) = j + 1 + i by omega]; exact b7 i (by omega)
    · rw [if_neg hg]
      refine ⟨0, x, mem, rfl, hx, hm, h, by omega, Or.inr ?_, fun i hi => absurd hi (by omega)⟩
      rw [Nat.add_zero, ← hlast]
      simpa using hg

theorem prepare_ok (S : MG K) {T : Mats K S.H.n} (hA : Applies (S.H.n S.L) (S.H.A S.L) (T.A S.L)) (b x r : List K)
    (hb : b.length = S.H.n S.L) (hx : x.length = S.H.n S.L) (hr : r.length = S.H.n S.L) (h0 : ∀ x0, S.x0 = some x0 → x0.length = S.H.n S.L) :
    (S.prepare b x r).1.length = S.H.n S.L ∧ toV (S.H.n S.L) (S.prepare b x r).1 = S.guess ∧
      (S.x0.isNone = true → toV (S.H.n S.L) (S.prepare b x r).1 = 0) ∧ (S.prepare b x r).2 = S.tol (T.A S.L) (toV _ b) S.guess := by
  have key : ∀ y : List K, y.length = S.H.n S.L → toV (S.H.n S.L) y = S.guess → (S.x0.isNone = true → toV (S.H.n S.L) y = 0) →
      (if S.relTol then (S.norm (residual (S.H.A S.L) y b r S.x0.isNone)).map fun res => S.tolerance * res else some S.tolerance) =
        S.tol (T.A S.L) (toV _ b) S.guess := by
    intro y hy e hs
    obtain ⟨r1, r2⟩ := residual_V hA y b r hy hb hr S.x0.isNone hs
    unfold MG.tol MG.norm resNorm
    rw [mydot_V _ _ r1, r2, e]
  unfold MG.prepare
  dsimp only
  cases h : S.x0 with
  | none =>
    obtain ⟨z1, z2⟩ := zero_V x hx
    have hg : S.guess = 0 := by unfold MG.guess; rw [h]; exact toV_ext fun i hi => rfl
    refine ⟨z1, z2.trans hg.symm, fun _ => z2, ?_⟩
    have := key _ z1 (z2.trans hg.symm) (fun _ => z2)
    rw [h] at this
    exact this
  | some x0 =>
    have e := assign_eq x x0 (by rw [hx, h0 x0 h])
    have hg : toV (S.H.n S.L) (assign x x0) = S.guess := by unfold MG.guess; rw [h, e]; rfl
    have hl : (assign x x0).length = S.H.n S.L := by rw [e]; exact h0 x0 h
    refine ⟨hl, hg, fun hh => by simp at hh, ?_⟩
    have := key _ hl hg (fun hh => by rw [h] at hh; simp at hh)
    rw [h] at this
    exact this

theorem solve_ok (S : MG K) {T : Mats K S.H.n} (hD : Describes S.H T S.L) (hL : 0 < S.L) (b x r : List K) (mem : Mems K)
    (hb : b.length = S.H.n S.L) (hx : x.length = S.H.n S.L) (hr : r.length = S.H.n S.L) (h0 : ∀ x0, S.x0 = some x0 → x0.length = S.H.n S.L)
    (hm : MemOK S.H.n S.L mem) :
    ∃ k x' mem', S.solve b x r mem = some (S.cycle.before + k, x', ((List.range (k + 1)).map fun i =>
          resNorm S.sqrt (T.A S.L) (toV _ b) (iterate (T.B S.cycle.gamma S.L) (T.A S.L) (toV _ b) (S.first T (toV _ b)) i)), mem') ∧
      x'.length = S.H.n S.L ∧ MemOK S.H.n S.L mem' ∧
      toV (S.H.n S.L) x' = iterate (T.B S.cycle.gamma S.L) (T.A S.L) (toV _ b) (S.first T (toV _ b)) k ∧ k ≤ S.maxIter - S.cycle.before ∧
      (k = S.maxIter - S.cycle.before ∨ gt? (resNorm S.sqrt (T.A S.L) (toV _ b)
        (iterate (T.B S.cycle.gamma S.L) (T.A S.L) (toV _ b) (S.first T (toV _ b)) k)) (S.tol (T.A S.L) (toV _ b) S.guess) = false) ∧
      ∀ i, i < k → gt? (resNorm S.sqrt (T.A S.L) (toV _ b)
        (iterate (T.B S.cycle.gamma S.L) (T.A S.L) (toV _ b) (S.first T (toV _ b)) i)) (S.tol (T.A S.L) (toV _ b) S.guess) = true := by
  have hA : Applies (S.H.n S.L) (S.H.A S.L) (T.A S.L) := by
    obtain ⟨l, hl⟩ : ∃ l, S.L = l + 1 := ⟨S.L - 1, by omega⟩
    have := hD.A l (by omega)
    rwa [← hl] at this
  have hT : ∀ mem : Mems K, MemOK S.H.n S.L mem → (mem S.L).temp.length = S.H.n S.L := by
    intro mem hm
    obtain ⟨l, hl⟩ : ∃ l, S.L = l + 1 := ⟨S.L - 1, by omega⟩
    have := hm.2 l (by omega)
    rwa [← hl] at this
  obtain ⟨p1, p2, p3, p4⟩ := prepare_ok S hA b x r hb hx hr h0
  -- the loop from any start
  have main : ∀ (x1 : List K) (mem1 : Mems K) (simple : Bool) (g N0 : Nat), 1 ≤ g → x1.length = S.H.n S.L → MemOK S.H.n S.L mem1 →
      (simple = true → toV (S.H.n S.L) x1 = 0) →
      ∃ k x' mem', S.loop g b (S.prepare b x r).2 (S.maxIter - N0) N0 x1 simple
          [S.norm (residual (S.H.A S.L) x1 b (mem1 S.L).temp simple)] (S.norm (residual (S.H.A S.L) x1 b (mem1 S.L).temp simple))
          (put mem1 S.L ⟨(mem1 S.L).rhs, (mem1 S.L).sol, residual (S.H.A S.L) x1 b (mem1 S.L).temp simple⟩) =
        some (N0 + k, x', ((List.range (k + 1)).map fun i =>
          resNorm S.sqrt (T.A S.L) (toV _ b) (iterate (T.B g S.L) (T.A S.L) (toV _ b) (toV _ x1) i)), mem') ∧
      x'.length = S.H.n S.L ∧ MemOK S.H.n S.L mem' ∧
      toV (S.H.n S.L) x' = iterate (T.B g S.L) (T.A S.L) (toV _ b) (toV _ x1) k ∧ k ≤ S.maxIter - N0 ∧
      (k = S.maxIter - N0 ∨ gt? (resNorm S.sqrt (T.A S.L) (toV _ b)
        (iterate (T.B g S.L) (T.A S.L) (toV _ b) (toV _ x1) k)) (S.tol (T.A S.L) (toV _ b) S.guess) = false) ∧
      ∀ i, i < k → gt? (resNorm S.sqrt (T.A S.L) (toV _ b)
        (iterate (T.B g S.L) (T.A S.L) (toV _ b) (toV _ x1) i)) (S.tol (T.A S.L) (toV _ b) S.guess) = true := by
    intro x1 mem1 simple g N0 hg h1 hm1 hs
    obtain ⟨r1, r2⟩ := residual_V hA x1 b (mem1 S.L).temp h1 hb (hT mem1 hm1) simple hs
    have hn : S.norm (residual (S.H.A S.L) x1 b (mem1 S.L).temp simple) =
        resNorm S.sqrt (T.A S.L) (toV _ b) (iterate (T.B g S.L) (T.A S.L) (toV _ b) (toV _ x1) 0) := by
      unfold MG.norm resNorm
      rw [mydot_V _ _ r1, r2]
      rfl
    have := loop_ok S hD hL hg b hb (S.prepare b x r).2 (toV _ x1) (S.maxIter - N0) 0 N0 x1 simple _
      (put mem1 S.L ⟨(mem1 S.L).rhs, (mem1 S.L).sol, residual (S.H.A S.L) x1 b (mem1 S.L).temp simple⟩) h1
      (memOK_put hm1 _ _ (fun h => absurd h (by omega)) (fun _ _ _ => r1)) hs rfl hn
    simp only [Nat.zero_add, p4] at this
    rw [p4]
    rw [show (List.map (fun i => resNorm S.sqrt (T.A S.L) (toV _ b) (iterate (T.B g S.L) (T.A S.L) (toV _ b) (toV _ x1) i)) (List.range 1)) =
      [S.norm (residual (S.H.A S.L) x1 b (mem1 S.L).temp simple)] by rw [hn]; rfl] at this
    exact this
  unfold MG.solve
  rw [if_neg (by omega)]
  cases hcy : S.cycle with
  | V =>
    obtain ⟨k, x', m', a⟩ := main (S.prepare b x r).1 mem S.x0.isNone 1 0 (le_refl _) p1 hm p3
    refine ⟨k, x', m', ?_⟩
    have e : S.first T (toV _ b) = toV _ (S.prepare b x r).1 := by unfold MG.first; rw [hcy, p2]; rfl
    rw [e]
    simpa [Cycle.value, Cycle.before, Cycle.full, Cycle.gamma] using a
  | W =>
    obtain ⟨k, x', m', a⟩ := main (S.prepare b x r).1 mem S.x0.isNone 2 0 (by omega) p1 hm p3
    refine ⟨k, x', m', ?_⟩
    have e : S.first T (toV _ b) = toV _ (S.prepare b x r).1 := by unfold MG.first; rw [hcy, p2]; rfl
    rw [e]
    simpa [Cycle.value, Cycle.before, Cycle.full, Cycle.gamma] using a
  | FMG_V =>
    obtain ⟨x1, mem1, f1, f2, f3, f4⟩ : ∃ x1 mem1, fmgStart S.H 1 S.L b (S.prepare b x r).1 mem = some (x1, mem1) ∧ x1.length = S.H.n S.L ∧
        MemOK S.H.n S.L mem1 ∧ toV (S.H.n S.L) x1 = (T.start 1 S.L).mulVec (toV _ b) :=
      fmgStart_pos hL hD (le_refl _) b _ mem hb p1 hm
    obtain ⟨k, x', m', a⟩ := main x1 mem1 false 1 1 (le_refl _) f2 f3 (by simp)
    refine ⟨k, x', m', ?_⟩
    have e : S.first T (toV _ b) = toV _ x1 := by unfold MG.first; rw [hcy, f4]; rfl
    rw [e]
    simpa [Cycle.value, Cycle.before, Cycle.full, Cycle.gamma, f1] using a
  | FMG_W =>
    obtain ⟨x1, mem1, f1, f2, f3, f4⟩ : ∃ x1 mem1, fmgStart S.H 2 S.L b (S.prepare b x r).1 mem = some (x1, mem1) ∧ x1.length = S.H.n S.L ∧
        MemOK S.H.n S.L mem1 ∧ toV (S.H.n S.L) x1 = (T.start 2 S.L).mulVec (toV _ b) :=
      fmgStart_pos hL hD (by omega) b _ mem hb p1 hm
    obtain ⟨k, x', m', a⟩ := main x1 mem1 false 2 1 (by omega) f2 f3 (by simp)
    refine ⟨k, x', m', ?_⟩
    have e : S.first T (toV _ b) = toV _ x1 := by unfold MG.first; rw [hcy, f4]; rfl
    rw [e]
    simpa [Cycle.value, Cycle.before, Cycle.full, Cycle.gamma, f1] using a

end PyNucleus.Multigrid
