import Verif.Proof.TimeStepping2
import Verif.Model.L1Weights
import Mathlib.Analysis.Convex.SpecificFunctions.Pow
import Mathlib.Algebra.Field.Rat
import Mathlib.Algebra.Order.Ring.Rat
import Mathlib.Tactic.IntervalCases
import Mathlib.Tactic.Linarith

/-!
# C29: time stepping

Full statement: the L1 weights are positive, decreasing and telescope, and every step of the theta, L1 and IMEX schemes satisfies
the equations of the scheme for the step size of that step.  For IMEX schemes this fails in three ways: the cached implicit
solver is kept when the step size changes, stages are not evaluated if a column of the tableau sums to zero, and the mass operator is evaluated
at the wrong times if it depends on time.
-/

namespace PyNucleus.Props.C29

open PyNucleus.TimeStepping

/-! ## Weights of the L1 scheme -/

theorem l1_weights (alpha : ℝ) (h0 : 0 < alpha) (h1 : alpha < 1) :
    (∀ j, 0 < l1b alpha j) ∧ (∀ j, l1b alpha (j + 1) < l1b alpha j) ∧
      ∀ n : Nat, ∑ j ∈ Finset.range n, l1b alpha j = (n : ℝ) ^ (1 - alpha) / Real.Gamma (2 - alpha) := by
  have hG : 0 < Real.Gamma (2 - alpha) := Real.Gamma_pos_of_pos (by linarith)
  refine ⟨fun j => ?_, fun j => ?_, fun n => ?_⟩
  · apply div_pos _ hG
    have : ((j : Nat) : ℝ) ^ (1 - alpha) < ((j + 1 : Nat) : ℝ) ^ (1 - alpha) :=
      Real.rpow_lt_rpow (by positivity) (by push_cast; linarith) (by linarith)
    linarith
  · unfold l1b
    rw [div_lt_div_iff_of_pos_right hG]
    have hc := Real.strictConcaveOn_rpow (p := 1 - alpha) (by linarith) (by linarith)
    have hj0 : (0 : ℝ) ≤ (j : ℝ) := Nat.cast_nonneg j
    have hne : (j : ℝ) ≠ (j : ℝ) + 2 := by intro h; linarith
    have h := hc.2 (show (j : ℝ) ∈ Set.Ici 0 from hj0) (show (j : ℝ) + 2 ∈ Set.Ici 0 from (by
      rw [Set.mem_Ici]; linarith)) hne (show (0 : ℝ) < 1 / 2 by norm_num) (show (0 : ℝ) < 1 / 2 by norm_num) (by norm_num)
    simp only [smul_eq_mul] at h
    have e : 1 / 2 * (j : ℝ) + 1 / 2 * ((j : ℝ) + 2) = (j : ℝ) + 1 := by ring
    rw [e] at h
    push_cast
    rw [show (j : ℝ) + 1 + 1 = (j : ℝ) + 2 by ring]
    linarith
  · induction n with
    | zero => simp [Real.zero_rpow (show 1 - alpha ≠ 0 by linarith)]
    | succ n ih =>
      rw [Finset.sum_range_succ, ih]
      unfold l1b
      rw [← add_div]
      congr 1
      ring

/-- The coefficients of the previous values in step `k` are positive and sum to one: constants are kept. -/
theorem l1_coefficients (alpha : ℝ) (h0 : 0 < alpha) (h1 : alpha < 1) (k : Nat) (coeff : Nat → ℝ) :
    (∀ i, i < k + 1 → 0 < l1Coeff (l1b alpha) (k + 1) coeff i) ∧
      ∑ i ∈ Finset.range (k + 1), l1Coeff (l1b alpha) (k + 1) coeff i = 1 := by
  obtain ⟨w1, w2, _⟩ := l1_weights alpha h0 h1
  obtain ⟨c1, c2⟩ := l1Coeff_eq (l1b alpha) k coeff
  constructor
  · intro i hi
    cases i with
    | zero => rw [c1]; exact div_pos (w1 _) (w1 _)
    | succ i =>
      have := c2 (k - (i + 1)) (by omega)
      rw [show k - (k - (i + 1)) = i + 1 by omega] at this
      rw [this]
      exact div_pos (sub_pos.2 (w2 _)) (w1 _)
  · have := l1_combine (V := ℝ) (l1b alpha) (ne_of_gt (w1 0)) coeff (fun _ => 1) k
    rw [combine_eq] at this
    simp only [sub_self, smul_eq_mul, mul_one, mul_zero, Finset.sum_const_zero] at this
    rcases mul_eq_zero.1 this with h | h
    · exact absurd h (ne_of_gt (w1 0))
    · linarith

section
variable {K V : Type} [Field K] [AddCommGroup V] [Module K V] [DecidableEq K]

/-! ## L1 scheme -/

private theorem l1_run (coeff : Nat → K) (rhs rhs2 : V) (P : Prob K V) (b : Nat → K) (dta dt t0 : K) (hP : P.TimeIndependent)
    (hb : b 0 ≠ 0) (hs : P.SolvesAt 0 1 (dta / b 0)) (maxSteps : Nat) :
    ∀ m (k : Nat) (memory hist : Nat → V), k + m ≤ maxSteps →
      (k ≠ 0 → ∀ i, i < k + 1 → memory i = P.A 0 (hist i)) →
      ∃ us, L1.run coeff rhs rhs2 ⟨P, dt, dta, b, maxSteps, memory, k + 1⟩ (t0 + k * dt) (hist k) m = some us ∧ us.length = m ∧
        ∀ hist' : Nat → V, (∀ i, i < k + 1 → hist' i = hist i) → (∀ i, i < m → hist' (k + 1 + i) = us.getD i 0) →
          ∀ i, i < m → L1Eq P b dta t0 dt hist' (k + 1 + i) := by
  intro m
  induction m with
  | zero => intro k memory hist _ _; exact ⟨[], rfl, rfl, fun _ _ _ i hi => absurd hi (by omega)⟩
  | succ m ih =>
    intro k memory hist hk hmem
    -- memory as used in the step
    have hm' : ∀ i, i < k + 1 → (if k + 1 = 1 then fun i => if i = 0 then
        P.residual (t0 + k * dt) none (some (hist k)) rhs2 1 0 0 0 none else memory i else memory) i = P.A 0 (hist i) := by
      intro i hi
      by_cases e : k = 0
      · subst e
        have : i = 0 := by omega
        subst this
        rw [if_pos rfl, if_pos rfl]
        unfold Prob.residual
        simp [(hP (t0 + ((0 : Nat) : K) * dt)).1]
        rw [(hP t0).1]
      · rw [if_neg (by omega)]
        exact hmem e i hi
    generalize hM : (if k + 1 = 1 then fun i => if i = 0 then
        P.residual (t0 + k * dt) none (some (hist k)) rhs2 1 0 0 0 none else memory i else memory) = M at *
    have hr1 : P.residual (t0 + k * dt + dt) none none rhs 0 0 (-(dta / b 0)) 0 none = (dta / b 0) • P.g (t0 + k * dt + dt) := by
      unfold Prob.residual; simp
    obtain ⟨u', s1, s2⟩ := hs ((dta / b 0) • P.g (t0 + k * dt + dt) + combine (l1Coeff b (k + 1) coeff) M (k + 1)) (hist k)
    have hr2 : P.residual (t0 + k * dt + dt) none (some u') (M (k + 1)) 1 0 0 0 none = P.A 0 u' := by
      unfold Prob.residual; simp [(hP (t0 + k * dt + dt)).1]
    have ht : t0 + k * dt + dt = t0 + ((k + 1 : Nat) : K) * dt := by push_cast; ring
    have hstep : L1.step ⟨P, dt, dta, b, maxSteps, memory, k + 1⟩ coeff rhs rhs2 (t0 + k * dt) none (hist k) =
        some (t0 + ((k + 1 : Nat) : K) * dt, u', ⟨P, dt, dta, b, maxSteps, fun i => if i = k + 1 then P.A 0 u' else M i, k + 1 + 1⟩) := by
      unfold L1.step
      dsimp only
      rw [if_neg (by simp only [Option.getD_none, ne_eq, not_true_eq_false, or_false]; omega)]
      simp only [Option.getD_none]
      rw [hr1, hM, s1]
      simp only [Option.bind_eq_bind, Option.bind_some]
      rw [hr2, ht]
    obtain ⟨us, a1, a2, a3⟩ := ih (k + 1) (fun i => if i = k + 1 then P.A 0 u' else M i) (fun i => if i = k + 1 then u' else hist i)
      (by omega) (fun _ i hi => by
        by_cases e : i = k + 1
        · rw [if_pos e, if_pos e]
        · rw [if_neg e, if_neg e]; exact hm' i (by omega))
    rw [if_pos rfl] at a1
    refine ⟨u' :: us, ?_, by simp [a2], ?_⟩
    · unfold L1.run
      rw [hstep]
      simp only [Option.bind_eq_bind, Option.bind_some, a1]
    · intro hist' h1 h2 i hi
      have hu : hist' (k + 1) = u' := h2 0 (by omega)
      cases i with
      | zero =>
        -- the new equation
        unfold L1Eq
        rw [Nat.add_zero, hu]
        have hc := l1_combine b hb coeff (fun i => P.A 0 (hist' i)) k
        rw [← hc, combine_eq]
        have hM2 : ∑ i ∈ Finset.range (k + 1), l1Coeff b (k + 1) coeff i • P.A 0 (hist' i) =
            combine (l1Coeff b (k + 1) coeff) M (k + 1) := by
          rw [combine_eq]
          refine Finset.sum_congr rfl fun i hi => ?_
          have hi := Finset.mem_range.1 hi
          rw [hm' i hi, h1 i hi]
        rw [hM2, hu, ← ht]
        have := congrArg (fun v => b 0 • v) s2
        simp only [smul_add, smul_smul, mul_div_cancel₀ _ hb, mul_one] at this
        rw [smul_sub, sub_add_eq_add_sub, this]
        abel
      | succ i =>
        have := a3 hist' (fun j hj => by
          by_cases e : j = k + 1
          · rw [if_pos e, e, hu]
          · rw [if_neg e]; exact h1 j (by omega)) (fun j hj => by
            have := h2 (j + 1) (by omega)
            rw [show k + 1 + 1 + j = k + 1 + (j + 1) by omega, this]
            rfl) i (by omega)
        rwa [show k + 1 + 1 + i = k + 1 + (i + 1) by omega] at this

/-- Every step of a fresh L1 scheme satisfies the L1 discretisation with all previous values. -/
theorem l1_scheme (coeff : Nat → K) (rhs rhs2 : V) (P : Prob K V) (b : Nat → K) (dta dt t0 : K) (hP : P.TimeIndependent)
    (hb : b 0 ≠ 0) (hs : P.SolvesAt 0 1 (dta / b 0)) (maxSteps : Nat) (memory : Nat → V) (u : V) (m : Nat) (hm : m ≤ maxSteps) :
    ∃ us, L1.run coeff rhs rhs2 ⟨P, dt, dta, b, maxSteps, memory, 1⟩ t0 u m = some us ∧ us.length = m ∧
      ∀ i, i < m → L1Eq P b dta t0 dt (fun j => (u :: us).getD j 0) (i + 1) := by
  obtain ⟨us, a1, a2, a3⟩ := l1_run coeff rhs rhs2 P b dta dt t0 hP hb hs maxSteps m 0 memory (fun _ => u) (by omega) (fun h => absurd rfl h)
  refine ⟨us, by simpa using a1, a2, fun i hi => ?_⟩
  have := a3 (fun j => (u :: us).getD j 0) (fun i hi => by
    have : i = 0 := by omega
    subst this; rfl) (fun i hi => by rw [Nat.zero_add, Nat.add_comm]; rfl) i hi
  rwa [Nat.zero_add, Nat.add_comm] at this

/-! ## Theta scheme -/

private theorem theta_run (P : Prob K V) (theta : K) (own : Option K) (timeDep : Bool)
    (hmode : (timeDep = true ∧ ∀ t dt : K, P.SolvesAt t (1 / dt) theta) ∨
      (timeDep = false ∧ P.TimeIndependent ∧ ∀ dt, own = some dt → P.SolvesAt 0 (1 / dt) theta)) :
    ∀ (steps : List (Option K × Option V)) (eff : List (K × Option V)) (cache : Option (K × K × K)) (rhs : V) (t : K) (u : V),
      steps.map (fun s => (pick s.1 own, s.2)) = eff.map (fun e => (some e.1, e.2)) →
      (timeDep = false → (∀ e ∈ eff, own = some e.1) ∧ (cache = none ∨ ∃ dt, own = some dt ∧ cache = some (0, 1 / dt, theta))) →
      ∃ states, CN.run ⟨P, theta, own, timeDep, cache, rhs⟩ t u steps = some states ∧ ThetaSteps P theta t u eff states := by
  intro steps
  induction steps with
  | nil =>
    intro eff cache rhs t u he _
    cases eff with
    | nil => exact ⟨[], rfl, rfl⟩
    | cons e eff => cases he
  | cons s steps ih =>
    intro eff cache rhs t u he hc
    cases eff with
    | nil => cases he
    | cons e eff =>
      obtain ⟨dt?, f⟩ := s
      obtain ⟨dt, f'⟩ := e
      simp only [List.map_cons, List.cons.injEq, Prod.mk.injEq] at he
      obtain ⟨⟨he1, rfl⟩, he2⟩ := he
      -- the solver
      obtain ⟨solver, cache', g1, g2, g3⟩ : ∃ (solver : V → V → Option V) (cache' : Option (K × K × K)),
          (⟨P, theta, own, timeDep, cache, rhs⟩ : CN K V).getSolver (t + dt) (1 / dt) theta = (solver, ⟨P, theta, own, timeDep, cache', rhs⟩) ∧
          (timeDep = false → cache' = none ∨ ∃ dt, own = some dt ∧ cache' = some (0, 1 / dt, theta)) ∧
          ∀ r u, ∃ u', solver r u = some u' ∧ (1 / dt) • P.A (t + dt) u' + theta • P.B (t + dt) u' = r := by
        unfold CN.getSolver
        rcases hmode with ⟨h1, h2⟩ | ⟨h1, h2, h3⟩
        · rw [if_pos h1]
          exact ⟨_, cache, rfl, fun h => (by rw [h1] at h; cases h), fun r u => h2 (t + dt) dt r u⟩
        · rw [if_neg (by simp [h1])]
          obtain ⟨c1, c2⟩ := hc h1
          have hown : own = some dt := c1 _ (List.mem_cons_self)
          have hsol : ∀ r u, ∃ u', P.solver 0 (1 / dt) theta r u = some u' ∧ (1 / dt) • P.A (t + dt) u' + theta • P.B (t + dt) u' = r := by
            intro r u
            obtain ⟨u', a, b⟩ := h3 dt hown r u
            exact ⟨u', a, by rw [(h2 (t + dt)).1, (h2 (t + dt)).2]; exact b⟩
          rcases c2 with c2 | ⟨dt', c2, c3⟩
          · subst c2
            exact ⟨_, some (0, 1 / dt, theta), rfl, fun _ => Or.inr ⟨dt, hown, rfl⟩, hsol⟩
          · rw [hown] at c2
            cases c2
            subst c3
            exact ⟨_, some (0, 1 / dt, theta), rfl, fun _ => Or.inr ⟨dt, hown, rfl⟩, hsol⟩
      obtain ⟨u', s1, s2⟩ := g3 ((1 - theta) • f.getD (P.g t) + theta • f.getD (P.g (t + dt)) + (1 / dt) • P.A t u - (1 - theta) • P.B t u) u
      obtain ⟨states, a1, a2⟩ := ih eff cache' ((1 - theta) • f.getD (P.g t) + theta • f.getD (P.g (t + dt)) + (1 / dt) • P.A t u - (1 - theta) • P.B t u)
        (t + dt) u' he2 (fun h => ⟨fun e he => (hc h).1 e (List.mem_cons_of_mem _ he), g2 h⟩)
      refine ⟨(t + dt, u') :: states, ?_, u', states, rfl, s2, a2⟩
      unfold CN.run CN.step
      dsimp only
      rw [he1]
      simp only [Option.bind_eq_bind, Option.bind_some]
      rw [if_neg (by
        rintro ⟨h, h2⟩
        exact h2 ((hc h).1 _ (List.mem_cons_self)))]
      rw [cn_rhs, g1]
      dsimp only
      rw [s1]
      simp only [Option.bind_some]
      rw [a1]
      rfl

/-- Theta scheme: whatever the sequence of steps, each step satisfies the scheme for its own step size; with a cached solver only
steps of the size given to the constructor are accepted (`wrong_step_rejected`). -/
theorem theta_scheme (P : Prob K V) (theta : K) (own : Option K) (timeDep : Bool)
    (hmode : (timeDep = true ∧ ∀ t dt : K, P.SolvesAt t (1 / dt) theta) ∨
      (timeDep = false ∧ P.TimeIndependent ∧ ∀ dt, own = some dt → P.SolvesAt 0 (1 / dt) theta))
    (steps : List (Option K × Option V)) (eff : List (K × Option V)) (rhs : V) (t : K) (u : V)
    (heff : steps.map (fun s => (pick s.1 own, s.2)) = eff.map (fun e => (some e.1, e.2)))
    (hsize : timeDep = false → ∀ e ∈ eff, own = some e.1) :
    ∃ states, CN.run ⟨P, theta, own, timeDep, none, rhs⟩ t u steps = some states ∧ ThetaSteps P theta t u eff states :=
  theta_run P theta own timeDep hmode steps eff none rhs t u heff (fun h => ⟨hsize h, Or.inl rfl⟩)

theorem wrong_step_rejected (S : CN K V) (h : S.timeDep = false) (t : K) (dt : K) (hdt : S.dt ≠ some dt) (u : V) (f : Option V) :
    S.step t (some dt) u f = none := by
  unfold CN.step
  rw [show pick (some dt) S.dt = some dt from rfl]
  simp only [Option.bind_eq_bind, Option.bind_some]
  rw [if_pos ⟨h, hdt⟩]

/-! ## IMEX schemes -/

/-- A step of an IMEX scheme satisfies the stage equations and the final update, if the mass operator does not depend on
time, no column of the tableau sums to zero without being zero, and the cached solver belongs to this step size; and then it stays so.
Missing for the full statement: the three failures below. -/
theorem imex_step_partial (S : IMEX K V) (gamma t dt : K) (dt? : Option K) (hdt : dt? = some dt ∨ dt? = none ∧ S.dt = some dt)
    (forcing : Option (Nat → V)) (u : V) (hcol : S.T.ColumnsOK) (hok : S.SolversOK gamma t dt)
    (hA : ∀ t', S.P.A t' = S.P.A 0) :
    ∃ u' S' U, S.step t dt? u forcing = some (t + dt, u', S') ∧
      (∀ k, k < S.T.s → StageEq S.P S.T forcing dt (fun j => t + S.T.c j * dt) (S.P.A 0 u) u U k) ∧
      S.P.A 0 u' = FinalRhs S.P S.T forcing dt (fun j => t + S.T.c j * dt) (S.P.A 0 u) U ∧
      S'.P = S.P ∧ S'.T = S.T ∧ S'.timeDep = S.timeDep ∧ S'.dt = S.dt ∧ (S.timeDep = false → CacheOK gamma dt S'.impl) :=
  picard_ok S gamma t dt dt? hdt forcing u u hcol hok hA

/-- The built-in tableaux meet the conditions on columns and diagonals. -/
theorem tableaux_ok [CharZero K] (gamma : K) (h2 : 2 * gamma ≠ 1) :
    ((eulerTableau : Tableau K).ColumnsOK ∧ ∀ k, k < 2 → (∃ j, j < 2 ∧ (eulerTableau : Tableau K).AExpl k j ≠ 0) → (eulerTableau : Tableau K).AImpl k k = 1) ∧
    ((ars3Tableau gamma).ColumnsOK ∧ ∀ k, k < 3 → (∃ j, j < 3 ∧ (ars3Tableau gamma).AExpl k j ≠ 0) → (ars3Tableau gamma).AImpl k k = gamma) ∧
    ((kotoTableau : Tableau K).ColumnsOK ∧ ∀ k, k < 4 → (∃ j, j < 4 ∧ (kotoTableau : Tableau K).AExpl k j ≠ 0) → (kotoTableau : Tableau K).AImpl k k = 1) := by
  refine ⟨⟨?_, ?_⟩, ⟨?_, ?_⟩, ?_, ?_⟩
  · intro k hk
    have hk : k < 2 := hk
    interval_cases k <;> simp [eulerTableau, Finset.sum_range_succ] <;> intro i hi <;> interval_cases i <;> simp
  · intro k hk
    interval_cases k
    · rintro ⟨j, hj, h⟩
      interval_cases j <;> exact absurd rfl h
    · exact fun _ => rfl
  · intro k hk
    have hk : k < 3 := hk
    interval_cases k
    · refine ⟨fun h => ?_, fun _ i hi => ?_⟩
      · exfalso
        simp [ars3Tableau, Finset.sum_range_succ] at h
        apply h2
        linear_combination h
      · have hi : i < 3 := hi
        interval_cases i <;> simp [ars3Tableau]
    · exact ⟨fun _ i hi => Or.inr (by simp [ars3Tableau]), fun _ i hi => Or.inr (by simp [ars3Tableau])⟩
    · exact ⟨fun _ i hi => Or.inr (by simp [ars3Tableau]), fun _ i hi => Or.inr (by simp [ars3Tableau])⟩
  · intro k hk
    interval_cases k <;> simp [ars3Tableau]
    rintro x hx hne
    interval_cases x <;> simp at hne
  · intro k hk
    have hk : k < 4 := hk
    interval_cases k <;> refine ⟨fun h i hi => ?_, fun h i hi => ?_⟩ <;> have hi : i < 4 := hi <;>
      simp [kotoTableau, Finset.sum_range_succ] at h ⊢ <;> interval_cases i <;> simp <;> exfalso <;> norm_num at h
  · intro k hk
    interval_cases k
    · rintro ⟨j, hj, h⟩
      interval_cases j <;> exact absurd rfl h
    all_goals exact fun _ => rfl

end

/-! ## Order conditions of the built-in tableaux -/

/-- Sum over the stages. -/
def stageSum {K : Type} [Field K] (s : Nat) (f : Nat → K) : K := ∑ j ∈ Finset.range s, f j

/-- Euler: order one. Koto: order two. ARS3: order three (with `gamma = (3 + sqrt 3) / 6`), including the
coupling conditions between the explicit and the implicit part. -/
theorem order_conditions {K : Type} [Field K] [CharZero K] (gamma : K) (hg : 6 * gamma * gamma - 6 * gamma + 1 = 0) :
    (∀ T ∈ [(eulerTableau : Tableau K), kotoTableau, ars3Tableau gamma],
      stageSum T.s T.bExpl = 1 ∧ stageSum T.s T.bImpl = 1 ∧ ∀ k, k < T.s → stageSum T.s (T.AExpl k) = T.c k ∧ stageSum T.s (T.AImpl k) = T.c k) ∧
    (∀ T ∈ [(kotoTableau : Tableau K), ars3Tableau gamma],
      stageSum T.s (fun j => T.bExpl j * T.c j) = 1 / 2 ∧ stageSum T.s (fun j => T.bImpl j * T.c j) = 1 / 2) ∧
    (∀ b ∈ [(ars3Tableau gamma).bExpl, (ars3Tableau gamma).bImpl], stageSum 3 (fun j => b j * (ars3Tableau gamma).c j ^ 2) = 1 / 3 ∧
      ∀ A ∈ [(ars3Tableau gamma).AExpl, (ars3Tableau gamma).AImpl],
        stageSum 3 (fun i => b i * stageSum 3 fun j => A i j * (ars3Tableau gamma).c j) = 1 / 6) := by
  refine ⟨?_, ?_, ?_⟩
  · intro T hT
    simp only [List.mem_cons, List.not_mem_nil, or_false] at hT
    rcases hT with rfl | rfl | rfl
    · refine ⟨by simp [stageSum, eulerTableau, Finset.sum_range_succ], by simp [stageSum, eulerTableau, Finset.sum_range_succ], fun k hk => ?_⟩
      have hk : k < 2 := hk
      interval_cases k <;> simp [stageSum, eulerTableau, Finset.sum_range_succ]
    · refine ⟨by simp [stageSum, kotoTableau, Finset.sum_range_succ], by simp [stageSum, kotoTableau, Finset.sum_range_succ], fun k hk => ?_⟩
      have hk : k < 4 := hk
      interval_cases k <;> simp [stageSum, kotoTableau, Finset.sum_range_succ] <;> norm_num
    · refine ⟨by simp [stageSum, ars3Tableau, Finset.sum_range_succ]; norm_num, by simp [stageSum, ars3Tableau, Finset.sum_range_succ]; norm_num, fun k hk => ?_⟩
      have hk : k < 3 := hk
      interval_cases k <;> simp [stageSum, ars3Tableau, Finset.sum_range_succ] <;> (try constructor) <;> ring
  · intro T hT
    simp only [List.mem_cons, List.not_mem_nil, or_false] at hT
    rcases hT with rfl | rfl
    · constructor <;> simp [stageSum, kotoTableau, Finset.sum_range_succ]
    · constructor <;> simp [stageSum, ars3Tableau, Finset.sum_range_succ] <;> ring
  · have hne : (6 : K) ≠ 0 := by norm_num
    intro b hb
    simp only [List.mem_cons, List.not_mem_nil, or_false] at hb
    rcases hb with rfl | rfl
    all_goals
      refine ⟨?_, ?_⟩
      · simp [stageSum, ars3Tableau, Finset.sum_range_succ]
        linear_combination hg / 6
      · intro A hA
        simp only [List.mem_cons, List.not_mem_nil, or_false] at hA
        rcases hA with rfl | rfl <;> simp [stageSum, ars3Tableau, Finset.sum_range_succ] <;> linear_combination -hg / 6

/-- The value of `ARS3` (632) meets the hypothesis. -/
example : 6 * ((3 + Real.sqrt 3) / 6) * ((3 + Real.sqrt 3) / 6) - 6 * ((3 + Real.sqrt 3) / 6) + 1 = 0 := by
  have := Real.mul_self_sqrt (show (0 : ℝ) ≤ 3 by norm_num)
  linear_combination this / 6

/-! ## Failures of the IMEX class -/

/-- `A u = u`, `I u = u`, no explicit part; the solver divides. -/
private def exP : ProbIE ℚ ℚ := ⟨fun _ u => u, fun _ u => u, fun _ _ => 0, fun _ => 0,
  fun _ a b rhs _ => if a + b = 0 then none else some (rhs / (a + b))⟩

private def exS : IMEX ℚ ℚ := ⟨exP, eulerTableau, none, false, none, none, fun _ => 0, fun _ => 0, fun _ => 0, fun _ => 0, 0⟩

private theorem exP_solves (t a b : ℚ) (h : a + b ≠ 0) : exP.SolvesAt t a b := by
  intro rhs u
  refine ⟨rhs / (a + b), if_neg h, ?_⟩
  change a * (rhs / (a + b)) + b * (rhs / (a + b)) = rhs
  rw [← add_mul, mul_div_cancel₀ _ h]

/-- A fresh object meets the hypotheses of `imex_step_partial` for every positive step size. -/
example (dt : ℚ) (h : 0 < dt) : exS.SolversOK 1 0 dt ∧ exS.T.ColumnsOK ∧ ∀ t', exS.P.A t' = exS.P.A 0 := by
  refine ⟨Or.inr ⟨rfl, fun _ => ⟨rfl, rfl⟩, (tableaux_ok (1 : ℚ) (by norm_num)).1.2, fun t' => exP_solves _ _ _ (by linarith),
    fun t' => exP_solves _ _ _ (by norm_num), Or.inl rfl⟩, (tableaux_ok (1 : ℚ) (by norm_num)).1.1, fun _ => rfl⟩

/-- Two steps with the sizes 1 and 1/2: the second one uses the implicit solver of the first one, and its result solves the
equations of the scheme for no stage values. -/
theorem imex_stale_solver_fails :
    ∃ (S S' : IMEX ℚ ℚ) (u1 u2 : ℚ), (∀ t a b, a + b ≠ 0 → S.P.SolvesAt t a b) ∧ S.T = eulerTableau ∧ S.timeDep = false ∧ S.impl = none ∧
      S.step 0 (some 1) 1 none = some (1, u1, S') ∧ (S'.step 1 (some (1/2)) u1 none).map (fun r => r.2.1) = some u2 ∧
      ¬ ∃ U : Nat → ℚ, (∀ k, k < 2 → StageEq S.P S.T none (1/2) (fun j => 1 + S.T.c j * (1/2)) (S.P.A 0 u1) u1 U k) ∧
        S.P.A 0 u2 = FinalRhs S.P S.T none (1/2) (fun j => 1 + S.T.c j * (1/2)) (S.P.A 0 u1) U := by
  obtain ⟨S', h1, h2⟩ : ∃ S', exS.step 0 (some 1) 1 none = some (1, 1/2, S') ∧ (S'.step 1 (some (1/2)) (1/2) none).map (fun r => r.2.1) = some (3/8) := by
    have : ((exS.step 0 (some 1) 1 none).bind fun r => if r.1 = 1 ∧ r.2.1 = 1/2 ∧
        (r.2.2.step 1 (some (1/2)) (1/2) none).map (fun r => r.2.1) = some (3/8) then some () else none) = some () := by decide +kernel
    obtain ⟨⟨t, u, S'⟩, e1, e2⟩ := Option.bind_eq_some_iff.1 this
    split at e2
    · rename_i h
      obtain ⟨a, b, c⟩ := h
      dsimp only at a b c
      subst a b
      exact ⟨S', e1, c⟩
    · cases e2
  refine ⟨exS, S', 1/2, 3/8, exP_solves, rfl, rfl, rfl, h1, h2, ?_⟩
  rintro ⟨U, hU, hF⟩
  have h0 := (hU 0 (by omega)).1 (fun j hj => by
    have hj : j < 2 := hj
    interval_cases j <;> rfl)
  have h3 := (hU 1 (by omega)).2 ⟨0, by decide, by change (1 : ℚ) ≠ 0; norm_num⟩
  simp [exS, exP, eulerTableau, Finset.sum_range_succ, ProbIE.f] at h3
  simp [exS, exP, eulerTableau, Finset.sum_range_succ, FinalRhs, ProbIE.f] at hF
  linarith

/-- `A u = u`, `E u = u`, no implicit part. -/
private def exP2 : ProbIE ℚ ℚ := ⟨fun _ u => u, fun _ _ => 0, fun _ u => u, fun _ => 0, fun _ a _ rhs _ => if a = 0 then none else some (rhs / a)⟩

private def exT2 : Tableau ℚ := ⟨3, fun i => ([0, 1, 0] : List ℚ).getD i 0, fun i => ([0, 0, 1] : List ℚ).getD i 0, fun _ => 0,
  fun i j => (([[0, 0, 0], [1, 0, 0], [-1, 1, 0]] : List (List ℚ)).getD i []).getD j 0, fun _ _ => 0⟩

private def exS2 : IMEX ℚ ℚ := ⟨exP2, exT2, none, false, none, none, fun _ => 0, fun _ => 0, fun _ => 0, fun _ => 0, 0⟩

/-- A column of the explicit tableau that sums to zero is not evaluated: the first step of a fresh object gives 1 instead of -1. -/
theorem imex_column_sum_fails :
    ∃ (S : IMEX ℚ ℚ) (u1 : ℚ), (∀ t a b, a ≠ 0 → S.P.SolvesAt t a b) ∧ S.timeDep = false ∧ S.impl = none ∧ S.mass = none ∧
      (S.step 0 (some 1) 1 none).map (fun r => r.2.1) = some u1 ∧
      ¬ ∃ U : Nat → ℚ, (∀ k, k < S.T.s → StageEq S.P S.T none 1 (fun j => 0 + S.T.c j * 1) (S.P.A 0 1) 1 U k) ∧
        S.P.A 0 u1 = FinalRhs S.P S.T none 1 (fun j => 0 + S.T.c j * 1) (S.P.A 0 1) U := by
  refine ⟨exS2, 1, fun t a b h rhs u => ⟨rhs / a, if_neg h, ?_⟩, rfl, rfl, rfl, by decide +kernel, ?_⟩
  · change a * (rhs / a) + b * 0 = rhs
    rw [mul_div_cancel₀ _ h, mul_zero, add_zero]
  · rintro ⟨U, hU, hF⟩
    have h0 := (hU 0 (by decide)).1 (fun j hj => by
      have hj : j < 3 := hj
      interval_cases j <;> rfl)
    have h3 := (hU 1 (by decide)).2 ⟨0, by decide, by change (1 : ℚ) ≠ 0; norm_num⟩
    have h4 := (hU 2 (by decide)).2 ⟨1, by decide, by change (1 : ℚ) ≠ 0; norm_num⟩
    simp [exS2, exP2, exT2, Finset.sum_range_succ, ProbIE.f] at h3 h4
    simp [exS2, exP2, exT2, Finset.sum_range_succ, FinalRhs, ProbIE.f] at hF
    linarith

/-- `A(t, u) = (1 + t) u`, nothing else. -/
private def exP3 : ProbIE ℚ ℚ := ⟨fun t u => (1 + t) * u, fun _ _ => 0, fun _ _ => 0, fun _ => 0,
  fun t a _ rhs _ => if a * (1 + t) = 0 then none else some (rhs / (a * (1 + t)))⟩

private def exS3 : IMEX ℚ ℚ := ⟨exP3, eulerTableau, none, true, none, none, fun _ => 0, fun _ => 0, fun _ => 0, fun _ => 0, 0⟩

/-- Time dependent mass operator, no other terms: the documented equation is `A(t + dt, u_new) = A(t, u)`; the step solves
`A(t, u_new) = A(t + dt, u)` instead. -/
theorem imex_time_dependent_mass_fails :
    ∃ (S : IMEX ℚ ℚ) (u1 : ℚ), S.timeDep = true ∧ S.T = eulerTableau ∧ (∀ t u, S.P.I t u = 0 ∧ S.P.E t u = 0 ∧ S.P.g t = 0) ∧
      (∀ t a b, a * (1 + t) ≠ 0 → S.P.SolvesAt t a b) ∧ (S.step 0 (some 1) 1 none).map (fun r => r.2.1) = some u1 ∧
      S.P.A (0 + 1) u1 ≠ S.P.A 0 1 := by
  refine ⟨exS3, 2, rfl, rfl, fun _ _ => ⟨rfl, rfl, rfl⟩, fun t a b h rhs u => ⟨rhs / (a * (1 + t)), if_neg h, ?_⟩, by decide +kernel, by decide +kernel⟩
  change a * ((1 + t) * _) + b * 0 = rhs
  rw [← mul_assoc, mul_div_cancel₀ _ h, mul_zero, add_zero]

/-! ## Concrete cases for the other schemes -/

private def exQ : Prob ℚ ℚ := ⟨fun _ u => u, fun _ u => u, fun _ => 1, fun _ a b rhs _ => if a + b = 0 then none else some (rhs / (a + b))⟩

private theorem exQ_solves (t a b : ℚ) (h : a + b ≠ 0) : exQ.SolvesAt t a b := by
  intro rhs u
  refine ⟨rhs / (a + b), if_neg h, ?_⟩
  change a * (rhs / (a + b)) + b * (rhs / (a + b)) = rhs
  rw [← add_mul, mul_div_cancel₀ _ h]

example : exQ.TimeIndependent ∧ exQ.SolvesAt 0 (1 / (1/2)) (1/2) :=
  ⟨fun _ => ⟨rfl, rfl⟩, exQ_solves _ _ _ (by norm_num)⟩

example : CN.run ⟨exQ, 1/2, some (1/2), false, none, 7⟩ 0 3 [(none, none), (some (1/2), some 0)] = some [(1/2, 11/5), (1, 33/25)] := by
  decide +kernel

example : (L1.run (fun _ => 9) 8 8 ⟨exQ, 1, 1, fun j => if j = 0 then 1 else 1/2, 2, fun _ => 5, 1⟩ 0 3 2) = some [2, 7/4] := by decide +kernel

end PyNucleus.Props.C29
