import Verif.Spec.Multigrid
import Verif.Proof.Vec
import Verif.Proof.Smoothers
import Mathlib.Tactic.NoncommRing
import Mathlib.LinearAlgebra.Matrix.Symmetric

/-! # The multigrid recursion -/

namespace PyNucleus.Multigrid

open PyNucleus.Loops PyNucleus.Spec PyNucleus.Blas PyNucleus.Smoothers

variable {K : Type} [Field K]

theorem residual_V {m : Nat} {A : List K → List K → List K} {M : Matrix (Fin m) (Fin m) K} (hA : Applies m A M)
    (y b r : List K) (hy : y.length = m) (hb : b.length = m) (hr : r.length = m) (simple : Bool) (hs : simple = true → toV m y = 0) :
    (residual A y b r simple).length = m ∧ toV m (residual A y b r simple) = toV m b - M.mulVec (toV m y) := by
  unfold residual
  cases simple with
  | true =>
    rw [if_pos rfl, assign_eq r b (by omega), hs rfl, Matrix.mulVec_zero, sub_zero]
    exact ⟨hb, rfl⟩
  | false =>
    rw [if_neg (by simp)]
    obtain ⟨h1, h2⟩ := hA y r hy hr
    have h := assign3Self_V (A y r) (-1) b 1 h1
    refine ⟨h.1, ?_⟩
    rw [h.2, h2, neg_smul, one_smul, one_smul]
    abel

/-- Levels from `l` on keep their `rhs` and `sol`. -/
def SameAbove (l : Nat) (mem mem' : Mems K) : Prop :=
  ∀ k, l ≤ k → (mem' k).rhs = (mem k).rhs ∧ (mem' k).sol = (mem k).sol

theorem put_same (mem : Mems K) (l : Nat) (m : Mem K) : put mem l m l = m := if_pos rfl

theorem put_ne (mem : Mems K) (l k : Nat) (m : Mem K) (h : k ≠ l) : put mem l m k = mem k := if_neg h

theorem memOK_put {n : Nat → Nat} {L : Nat} {mem : Mems K} (h : MemOK n L mem) (l : Nat) (m : Mem K)
    (hm : l < L → m.rhs.length = n l ∧ m.sol.length = n l) (ht : ∀ k, l = k + 1 → k < L → m.temp.length = n l) : MemOK n L (put mem l m) := by
  refine ⟨fun k hk => ?_, fun k hk => ?_⟩
  · by_cases e : k = l
    · subst e; rw [put_same]; exact hm hk
    · rw [put_ne _ _ _ _ e]; exact h.1 k hk
  · by_cases e : k + 1 = l
    · subst e; rw [put_same]; exact ht k rfl hk
    · rw [put_ne _ _ _ _ e]; exact h.2 k hk

theorem cycles_inv (f : List K → Bool → Mems K → Option (List K × Mems K)) (I : Nat → List K → Mems K → Prop)
    (hf : ∀ k sol simple mem, (simple = true → k = 0) → I k sol mem →
      ∃ sol' mem', f sol simple mem = some (sol', mem') ∧ I (k + 1) sol' mem') :
    ∀ m k sol simple mem, (simple = true → k = 0) → I k sol mem →
      ∃ sol' mem', cycles f m sol simple mem = some (sol', mem') ∧ I (k + m) sol' mem' := by
  intro m
  induction m with
  | zero => intro k sol simple mem _ h; exact ⟨sol, mem, rfl, h⟩
  | succ m ih =>
    intro k sol simple mem hs h
    obtain ⟨s1, m1, e1, h1⟩ := hf k sol simple mem hs h
    obtain ⟨s2, m2, e2, h2⟩ := ih (k + 1) s1 false m1 (by simp) h1
    refine ⟨s2, m2, ?_, by rwa [show k + (m + 1) = k + 1 + m by omega]⟩
    unfold cycles
    rw [e1]
    exact e2

theorem zeros_V (m : Nat) (x : List K) (hx : x.length = m) : (zeros x).length = m ∧ toV m (zeros x) = 0 := by
  unfold zeros
  rw [hx]
  exact zero_V x hx

theorem level_ok {H : Hier K} {T : Mats K H.n} {L : Nat} (hD : Describes H T L) {cycle : Nat} (hc : 1 ≤ cycle) :
    ∀ l, l ≤ L → ∀ (b x : List K) (simple : Bool) (mem : Mems K), b.length = H.n l → x.length = H.n l → MemOK H.n L mem →
    (simple = true → toV (H.n l) x = 0) →
    ∃ x' mem', solveOnLevel H cycle l b x simple mem = some (x', mem') ∧ x'.length = H.n l ∧ MemOK H.n L mem' ∧
      SameAbove l mem mem' ∧
      toV (H.n l) x' = if l = 0 then (T.B cycle l).mulVec (toV _ b)
        else toV _ x + (T.B cycle l).mulVec (toV _ b - (T.A l).mulVec (toV _ x)) := by
  intro l
  induction l with
  | zero =>
    intro _ b x simple mem hb hx hm _
    obtain ⟨x', h1, h2, h3⟩ := hD.coarse b x hb hx
    refine ⟨x', mem, ?_, h2, hm, fun k _ => ⟨rfl, rfl⟩, h3⟩
    unfold solveOnLevel
    rw [h1]
    rfl
  | succ l ih =>
    intro hl b x simple mem hb hx hm hs
    have hlL : l < L := by omega
    obtain ⟨x1, t1, a1, a2, a3, a4⟩ := hD.smooth l hlL false simple b x (mem (l + 1)).temp hb hx (hm.2 l hlL) hs
    obtain ⟨r1, r2⟩ := residual_V (hD.A l hlL) x1 b t1 a2 hb a3 false (by simp)
    obtain ⟨d1, d2⟩ := hD.R l hlL (residual (H.A (l + 1)) x1 b t1 false) (mem l).rhs r1 (hm.1 l hlL).1
    obtain ⟨z1, z2⟩ := zeros_V (H.n l) (mem l).sol (hm.1 l hlL).2
    generalize hres : residual (H.A (l + 1)) x1 b t1 false = res at *
    generalize hd : H.R (l + 1) res (mem l).rhs = d at *
    generalize hz : zeros (mem l).sol = z at *
    -- coarse corrections
    have hm1 : MemOK H.n L (put mem l ⟨d, z, (mem l).temp⟩) :=
      memOK_put hm l _ (fun _ => ⟨d1, z1⟩) (fun k hk hkL => by subst hk; exact hm.2 k hkL)
    obtain ⟨s1, mem1, c1, c2, c3, c4, c5⟩ := cycles_inv (fun sol simple mem => solveOnLevel H cycle l d sol simple mem)
      (fun k sol mem' => sol.length = H.n l ∧ MemOK H.n L mem' ∧ SameAbove l (put mem l ⟨d, z, (mem l).temp⟩) mem' ∧
        toV (H.n l) sol = if l = 0 then (if k = 0 then 0 else (T.B cycle l).mulVec (toV _ d))
          else (iter (T.B cycle l) (T.A l) k).mulVec (toV _ d))
      (by
        intro k sol simple mem' hk ⟨i1, i2, i3, i4⟩
        obtain ⟨x', m', e1, e2, e3, e4, e5⟩ := ih (by omega) d sol simple mem' d1 i1 i2 (fun hsim => by
          rw [i4, hk hsim]
          split <;> simp [iter])
        refine ⟨x', m', e1, e2, e3, fun j hj => ⟨(e4 j hj).1.trans (i3 j hj).1, (e4 j hj).2.trans (i3 j hj).2⟩, ?_⟩
        rw [e5]
        by_cases h0 : l = 0
        · simp only [h0, if_true]
          simp
        · rw [if_neg h0, if_neg h0, i4, if_neg h0]
          simp only [iter, Matrix.add_mulVec, Matrix.sub_mulVec, Matrix.mul_sub, Matrix.mulVec_sub, Matrix.mulVec_mulVec, Matrix.mul_one])
      cycle 0 z true _ (fun _ => rfl) ⟨z1, hm1, fun k _ => ⟨rfl, rfl⟩, by split <;> simp [iter, z2]⟩
    obtain ⟨p1, p2⟩ := hD.P l hlL s1 res c2 r1
    generalize hcorr : H.P (l + 1) s1 res = corr at *
    obtain ⟨u1, u2⟩ := update_V x1 corr a2
    generalize hup : update x1 corr = x2 at *
    obtain ⟨x3, t3, b1, b2, b3, b4⟩ := hD.smooth l hlL true false b x2 corr hb u1 p1 (by simp)
    have hm2 : MemOK H.n L (put mem1 l ⟨(mem1 l).rhs, s1, (mem1 l).temp⟩) :=
      memOK_put c3 l _ (fun h => ⟨(c3.1 l h).1, c2⟩) (fun k hk hkL => by subst hk; exact c3.2 k hkL)
    refine ⟨x3, put (put mem1 l ⟨(mem1 l).rhs, s1, (mem1 l).temp⟩) (l + 1)
      ⟨(put mem1 l ⟨(mem1 l).rhs, s1, (mem1 l).temp⟩ (l + 1)).rhs, (put mem1 l ⟨(mem1 l).rhs, s1, (mem1 l).temp⟩ (l + 1)).sol, t3⟩,
      ?_, b2, memOK_put hm2 (l + 1) _ (fun h => hm2.1 (l + 1) h) (fun _ _ _ => b3), ?_, ?_⟩
    · unfold solveOnLevel
      rw [a1]
      simp only [Option.bind_eq_bind, Option.bind_some, hres, hd, hz, c1, hcorr, hup, b1]
    · intro k hk
      have e : ∀ k, l + 1 ≤ k → put mem1 l ⟨(mem1 l).rhs, s1, (mem1 l).temp⟩ k = mem1 k := fun k hk => put_ne _ _ _ _ (by omega)
      have e2 : (mem1 k).rhs = (mem k).rhs ∧ (mem1 k).sol = (mem k).sol := by
        have := c4 k (by omega)
        rwa [put_ne _ _ _ _ (show k ≠ l by omega)] at this
      by_cases hk1 : k = l + 1
      · subst hk1
        rw [put_same]
        dsimp only
        rw [e _ (le_refl _)]
        exact e2
      · rw [put_ne _ _ _ _ hk1, e k hk]
        exact e2
    · rw [if_neg (by omega), b4, u2, p2, c5, d2, r2, a4]
      have hcorr2 : (if l = 0 then (if 0 + cycle = 0 then 0 else (T.B cycle l).mulVec ((T.R l).mulVec (toV _ b - (T.A (l + 1)).mulVec (toV _ x1)))) else
          (iter (T.B cycle l) (T.A l) (0 + cycle)).mulVec ((T.R l).mulVec (toV _ b - (T.A (l + 1)).mulVec (toV _ x1)))) =
          (if l = 0 then T.B cycle l else iter (T.B cycle l) (T.A l) cycle).mulVec ((T.R l).mulVec (toV _ b - (T.A (l + 1)).mulVec (toV _ x1))) := by
        rw [Nat.zero_add, if_neg (show ¬ cycle = 0 by omega)]
        split <;> rfl
      rw [← a4, hcorr2]
      conv_rhs => unfold Mats.B
      dsimp only
      generalize (if l = 0 then T.B cycle l else iter (T.B cycle l) (T.A l) cycle) = X
      rw [a4]
      generalize toV (H.n (l + 1)) b = bv
      generalize toV (H.n (l + 1)) x = xv
      generalize T.A (l + 1) = A
      generalize T.N (l + 1) false = N1
      generalize T.N (l + 1) true = N2
      simp only [Matrix.mulVec_mulVec, Matrix.mulVec_sub, Matrix.mulVec_add, Matrix.add_mulVec, Matrix.sub_mulVec, Matrix.mul_sub,
        Matrix.mul_add, Matrix.mul_one, ← Matrix.mul_assoc, Matrix.add_mul, Matrix.sub_mul]
      abel

end PyNucleus.Multigrid
