import Verif.Proof.TimeStepping

/-! # IMEX stages -/

namespace PyNucleus.TimeStepping

open PyNucleus.Loops

variable {K V : Type} [Field K] [AddCommGroup V] [Module K V] [DecidableEq K]

/-- Fields that the stages keep. -/
structure Same (S S' : IMEX K V) : Prop where
  P : S'.P = S.P
  T : S'.T = S.T
  timeDep : S'.timeDep = S.timeDep
  dt : S'.dt = S.dt
  mass : S'.mass = S.mass
  force : S'.force = S.force

theorem getImplicit_ok (S : IMEX K V) (gamma t dt : K) (h : S.SolversOK gamma t dt) (k : Nat) (hk : k < S.T.s)
    (hrow : ∃ j, j < S.T.s ∧ S.T.AExpl k j ≠ 0) :
    ∃ f impl', S.getImplicit (t + S.T.c k * dt) 1 (S.T.AImpl k k * dt) = (f, { S with impl := impl' }) ∧
      (S.timeDep = false → CacheOK gamma dt impl') ∧
      ∀ rhs u, ∃ u', f rhs u = some u' ∧ S.P.A (t + S.T.c k * dt) u' + (dt * S.T.AImpl k k) • S.P.I (t + S.T.c k * dt) u' = rhs := by
  unfold IMEX.getImplicit
  rcases h with ⟨h1, h2, _⟩ | ⟨h1, h2, h3, h4, _, h5⟩
  · rw [if_pos h1]
    refine ⟨_, S.impl, rfl, (fun e => by rw [h1] at e; cases e), fun rhs u => ?_⟩
    obtain ⟨u', a, b⟩ := h2 k hk rhs u
    refine ⟨u', a, ?_⟩
    rw [← b, one_smul, mul_comm dt]
  · rw [if_neg (by rw [h1]; simp)]
    have hg := h3 k hk hrow
    rcases h5 with h5 | ⟨t', h5⟩
    · rw [h5]
      refine ⟨_, some (t + S.T.c k * dt, 1, S.T.AImpl k k * dt), rfl, fun _ => Or.inr ⟨_, by rw [hg]⟩, fun rhs u => ?_⟩
      obtain ⟨u', a, b⟩ := h4 (t + S.T.c k * dt) rhs u
      refine ⟨u', by rw [hg]; exact a, ?_⟩
      rw [← b, one_smul, mul_comm dt, hg]
    · rw [h5]
      refine ⟨_, S.impl, rfl, fun _ => Or.inr ⟨_, h5⟩, fun rhs u => ?_⟩
      obtain ⟨u', a, b⟩ := h4 t' rhs u
      refine ⟨u', a, ?_⟩
      rw [← b, one_smul, mul_comm dt, hg, (h2 t').1, (h2 t').2, (h2 _).1, (h2 (t + S.T.c k * dt)).2]

theorem stageEq_congr {P : ProbIE K V} {T : Tableau K} {forcing : Option (Nat → V)} {dt : K} {tau : Nat → K} {a u : V} {U U' : Nat → V} {k : Nat}
    (h : ∀ j, j ≤ k → U' j = U j) (hs : StageEq P T forcing dt tau a u U k) : StageEq P T forcing dt tau a u U' k := by
  unfold StageEq at *
  rw [h k (le_refl _)]
  have e1 : ∑ j ∈ Finset.range k, T.AImpl k j • P.I (tau j) (U' j) = ∑ j ∈ Finset.range k, T.AImpl k j • P.I (tau j) (U j) :=
    Finset.sum_congr rfl fun j hj => by rw [h j (by have := Finset.mem_range.1 hj; omega)]
  have e2 : ∑ j ∈ Finset.range k, T.AExpl k j • P.E (tau j) (U' j) = ∑ j ∈ Finset.range k, T.AExpl k j • P.E (tau j) (U j) :=
    Finset.sum_congr rfl fun j hj => by rw [h j (by have := Finset.mem_range.1 hj; omega)]
  rw [e1, e2]
  exact hs

/-- State after the stages below `k`. -/
structure Inv (S0 : IMEX K V) (gamma t dt : K) (forcing : Option (Nat → V)) (a u : V) (k : Nat) (S : IMEX K V) : Prop where
  same : Same S0 S
  ok : S.SolversOK gamma t dt
  expl : ∀ j, j < k → used S0.T.s S0.T.AExpl S0.T.bExpl j = true → S.UExpl j = S0.P.E (t + S0.T.c j * dt) (S.U j)
  impl : ∀ j, j < k → used S0.T.s S0.T.AImpl S0.T.bImpl j = true → S.UImpl j = S0.P.I (t + S0.T.c j * dt) (S.U j)
  eqs : ∀ j, j < k → StageEq S0.P S0.T forcing dt (fun j => t + S0.T.c j * dt) a u S.U j

theorem stage_ok (S0 : IMEX K V) (gamma t dt : K) (forcing : Option (Nat → V)) (ut u : V) (hcol : S0.T.ColumnsOK)
    (hforce : ∀ k, k < S0.T.s → used S0.T.s S0.T.AImpl S0.T.bImpl k = true → S0.force k = S0.P.f forcing (fun j => t + S0.T.c j * dt) k)
    (k : Nat) (hk : k < S0.T.s) (S : IMEX K V) (hI : Inv S0 gamma t dt forcing (S0.P.A (t + dt) ut) u k S) :
    ∃ S', S.stage t dt ut u k = some S' ∧ Inv S0 gamma t dt forcing (S0.P.A (t + dt) ut) u (k + 1) S' := by
  obtain ⟨hs, hok, hE, hIm, heq⟩ := hI
  obtain ⟨eP, eT, eD, edt, eM, eF⟩ := hs
  -- the new stage value
  have main : ∃ (Uk rhs : V) (impl' : Option (K × K × K)),
      S.stageSolve t dt ut u k = some { S with U := upd S.U k Uk, rhs := rhs, impl := impl' } ∧
      (S.timeDep = false → CacheOK gamma dt impl') ∧
      StageEq S0.P S0.T forcing dt (fun j => t + S0.T.c j * dt) (S0.P.A (t + dt) ut) u (upd S.U k Uk) k := by
    unfold IMEX.stageSolve
    by_cases hr : rowZero S.T.s S.T.AExpl k = true
    · rw [if_pos hr]
      refine ⟨u, S.rhs, S.impl, rfl, fun h => ?_, fun _ => upd_same _ _ _, ?_⟩
      · rcases hok with ⟨h1, _⟩ | ⟨_, _, _, _, _, h5⟩
        · rw [h1] at h; cases h
        · exact h5
      · rintro ⟨j, hj, hne⟩
        rw [rowZero_iff, eT] at hr
        exact absurd (hr j hj) hne
    · rw [if_neg hr]
      have hrow : ∃ j, j < S.T.s ∧ S.T.AExpl k j ≠ 0 := by
        by_contra hc
        push Not at hc
        exact hr ((rowZero_iff _ _ _).2 hc)
      obtain ⟨f, impl', g1, g2, g3⟩ := getImplicit_ok S gamma t dt hok k (by rw [eT]; exact hk) hrow
      obtain ⟨Uk, b1, b2⟩ := g3 (S.stageRhs t dt ut k) (S.U k)
      refine ⟨Uk, S.stageRhs t dt ut k, impl', ?_, g2, ?_, fun _ => ?_⟩
      · dsimp only
        rw [g1]
        dsimp only
        rw [b1]
        rfl
      · intro h
        obtain ⟨j, hj, hne⟩ := hrow
        rw [eT] at hj hne
        exact absurd (h j hj) hne
      · rw [upd_same]
        rw [eP, eT] at b2
        rw [b2]
        unfold IMEX.stageRhs
        dsimp only
        rw [loop_two, loop_one, eP, eT, eF]
        have e0 : S0.P.residual (t + dt) none (some ut) S.rhs 1 0 0 0 0 none = S0.P.A (t + dt) ut := by
          unfold ProbIE.residual; simp
        have e1 : ∑ j ∈ Finset.range k, S0.T.AImpl k j • S.UImpl j =
            ∑ j ∈ Finset.range k, S0.T.AImpl k j • S0.P.I (t + S0.T.c j * dt) (upd S.U k Uk j) :=
          Finset.sum_congr rfl fun j hj => by
            have hj := Finset.mem_range.1 hj
            rw [upd_ne _ _ _ _ (show j ≠ k by omega)]
            by_cases hz : S0.T.AImpl k j = 0
            · rw [hz, zero_smul, zero_smul]
            · rw [hIm j hj ((used_of S0.T hcol j (by omega)).2 (Or.inl ⟨k, hk, hz⟩))]
        have e2 : ∑ j ∈ Finset.range k, S0.T.AExpl k j • S.UExpl j =
            ∑ j ∈ Finset.range k, S0.T.AExpl k j • S0.P.E (t + S0.T.c j * dt) (upd S.U k Uk j) :=
          Finset.sum_congr rfl fun j hj => by
            have hj := Finset.mem_range.1 hj
            rw [upd_ne _ _ _ _ (show j ≠ k by omega)]
            by_cases hz : S0.T.AExpl k j = 0
            · rw [hz, zero_smul, zero_smul]
            · rw [hE j hj ((used_of S0.T hcol j (by omega)).1 (Or.inl ⟨k, hk, hz⟩))]
        have e3 : ∑ j ∈ Finset.range (k + 1), S0.T.AImpl k j • S0.force j =
            ∑ j ∈ Finset.range (k + 1), S0.T.AImpl k j • S0.P.f forcing (fun j => t + S0.T.c j * dt) j :=
          Finset.sum_congr rfl fun j hj => by
            have hj := Finset.mem_range.1 hj
            by_cases hz : S0.T.AImpl k j = 0
            · rw [hz, zero_smul, zero_smul]
            · rw [hforce j (by omega) ((used_of S0.T hcol j (by omega)).2 (Or.inl ⟨k, hk, hz⟩))]
        rw [e0, e1, e2, e3]
  obtain ⟨Uk, rhs, impl', m1, m2, m3⟩ := main
  unfold IMEX.stage
  rw [m1]
  simp only [Option.bind_eq_bind, Option.bind_some]
  refine ⟨_, rfl, ?_⟩
  -- values of the fields of the result
  have hres : ∀ (S2 : IMEX K V), S2 = { S with U := upd S.U k Uk, rhs := rhs, impl := impl' } →
      Inv S0 gamma t dt forcing (S0.P.A (t + dt) ut) u (k + 1)
        (S2.stageEval t dt k) := by
    intro S2 e2
    have f1 : S2.P = S0.P := by rw [e2]; exact eP
    have f2 : S2.T = S0.T := by rw [e2]; exact eT
    have f3 : S2.U = upd S.U k Uk := by rw [e2]
    have f4 : S2.UExpl = S.UExpl := by rw [e2]
    have f5 : S2.UImpl = S.UImpl := by rw [e2]
    have f6 : Same S0 S2 := by rw [e2]; exact ⟨eP, eT, eD, edt, eM, eF⟩
    have f7 : S2.SolversOK gamma t dt := by
      rw [e2]
      rcases hok with h | ⟨h1, h2, h3, h4, h5, _⟩
      · exact Or.inl h
      · exact Or.inr ⟨h1, h2, h3, h4, h5, m2 h1⟩
    have hU : ∀ j, j < k → S2.U j = S.U j := fun j hj => by rw [f3, upd_ne _ _ _ _ (show j ≠ k by omega)]
    have heqs : ∀ j, j < k + 1 → StageEq S0.P S0.T forcing dt (fun j => t + S0.T.c j * dt) (S0.P.A (t + dt) ut) u S2.U j := by
      intro j hj
      by_cases e : j = k
      · subst e; rw [f3]; exact m3
      · exact stageEq_congr (fun i hi => hU i (by omega)) (heq j (by omega))
    clear e2
    -- explicit part
    have step1 : ∃ S3 : IMEX K V, S3 = (if used S2.T.s S2.T.AExpl S2.T.bExpl k then
          { S2 with UExpl := upd S2.UExpl k (S2.P.residual (t + S2.T.c k * dt) (some (S2.U k)) none (S2.UExpl k) 0 0 1 0 0 none) } else S2) ∧
        Same S0 S3 ∧ S3.SolversOK gamma t dt ∧ S3.U = S2.U ∧ S3.UImpl = S2.UImpl ∧
        ∀ j, j < k + 1 → used S0.T.s S0.T.AExpl S0.T.bExpl j = true → S3.UExpl j = S0.P.E (t + S0.T.c j * dt) (S2.U j) := by
      refine ⟨_, rfl, ?_⟩
      by_cases hu : used S2.T.s S2.T.AExpl S2.T.bExpl k = true
      · rw [if_pos hu]
        refine ⟨⟨f6.1, f6.2, f6.3, f6.4, f6.5, f6.6⟩, f7, rfl, rfl, fun j hj hj2 => ?_⟩
        by_cases e : j = k
        · subst e
          dsimp only
          rw [upd_same, f1, f2]
          unfold ProbIE.residual
          simp
        · dsimp only
          rw [upd_ne _ _ _ _ e, f4, hE j (by omega) hj2, hU j (by omega)]
      · rw [if_neg hu]
        refine ⟨f6, f7, rfl, rfl, fun j hj hj2 => ?_⟩
        by_cases e : j = k
        · subst e
          rw [f2] at hu
          exact absurd hj2 hu
        · rw [f4, hE j (by omega) hj2, hU j (by omega)]
    obtain ⟨S3, e3, s1, s2, s3, s4, s5⟩ := step1
    unfold IMEX.stageEval
    rw [← e3]
    dsimp only
    clear e3
    by_cases hu : used S3.T.s S3.T.AImpl S3.T.bImpl k = true
    · rw [if_pos hu]
      refine ⟨⟨s1.1, s1.2, s1.3, s1.4, s1.5, s1.6⟩, s2, fun j hj hj2 => ?_, fun j hj hj2 => ?_, fun j hj => ?_⟩
      · dsimp only; rw [s3]; exact s5 j hj hj2
      · by_cases e : j = k
        · subst e
          dsimp only
          rw [upd_same, s1.1, s1.2]
          unfold ProbIE.residual
          simp
        · dsimp only
          rw [upd_ne _ _ _ _ e, s4, f5, hIm j (by omega) hj2, s3, hU j (by omega)]
      · dsimp only; rw [s3]; exact heqs j hj
    · rw [if_neg hu]
      refine ⟨s1, s2, fun j hj hj2 => ?_, fun j hj hj2 => ?_, fun j hj => ?_⟩
      · rw [s3]; exact s5 j hj hj2
      · by_cases e : j = k
        · subst e
          rw [s1.2] at hu
          exact absurd hj2 hu
        · rw [s4, f5, hIm j (by omega) hj2, s3, hU j (by omega)]
      · rw [s3]; exact heqs j hj
  exact hres _ rfl

theorem stages_ok (S0 : IMEX K V) (gamma t dt : K) (forcing : Option (Nat → V)) (ut u : V) (hcol : S0.T.ColumnsOK)
    (hforce : ∀ k, k < S0.T.s → used S0.T.s S0.T.AImpl S0.T.bImpl k = true → S0.force k = S0.P.f forcing (fun j => t + S0.T.c j * dt) k) :
    ∀ m k S, k + m = S0.T.s → Inv S0 gamma t dt forcing (S0.P.A (t + dt) ut) u k S →
    ∃ S', IMEX.stages t dt ut u m k S = some S' ∧ Inv S0 gamma t dt forcing (S0.P.A (t + dt) ut) u S0.T.s S' := by
  intro m
  induction m with
  | zero => intro k S hk h; exact ⟨S, rfl, by rw [← hk]; exact h⟩
  | succ m ih =>
    intro k S hk h
    obtain ⟨S1, a1, a2⟩ := stage_ok S0 gamma t dt forcing ut u hcol hforce k (by omega) S h
    obtain ⟨S2, b1, b2⟩ := ih (k + 1) S1 (by omega) a2
    refine ⟨S2, ?_, b2⟩
    unfold IMEX.stages
    rw [a1]
    exact b1

theorem picard_ok (S : IMEX K V) (gamma t dt : K) (dt? : Option K) (hdt : dt? = some dt ∨ dt? = none ∧ S.dt = some dt)
    (forcing : Option (Nat → V)) (ut unew : V) (hcol : S.T.ColumnsOK) (hok : S.SolversOK gamma t dt)
    (hA : ∀ t', S.P.A t' = S.P.A 0) :
    ∃ u' S' U, S.picard t dt? ut unew forcing = some (t + dt, u', S') ∧
      (∀ k, k < S.T.s → StageEq S.P S.T forcing dt (fun j => t + S.T.c j * dt) (S.P.A 0 ut) unew U k) ∧
      S.P.A 0 u' = FinalRhs S.P S.T forcing dt (fun j => t + S.T.c j * dt) (S.P.A 0 ut) U ∧
      S'.P = S.P ∧ S'.T = S.T ∧ S'.timeDep = S.timeDep ∧ S'.dt = S.dt ∧ (S.timeDep = false → CacheOK gamma dt S'.impl) := by
  have hd : pick dt? S.dt = some dt := by
    rcases hdt with h | ⟨h, h2⟩
    · rw [h]; rfl
    · rw [h]; exact h2
  have hforce : ∀ k, k < (S.forces t dt forcing).T.s → used (S.forces t dt forcing).T.s (S.forces t dt forcing).T.AImpl (S.forces t dt forcing).T.bImpl k = true →
      (S.forces t dt forcing).force k = (S.forces t dt forcing).P.f forcing (fun j => t + (S.forces t dt forcing).T.c j * dt) k :=
    fun k hk hu => forces_force S t dt forcing k hk hu
  obtain ⟨S1, a1, a2⟩ := stages_ok (S.forces t dt forcing) gamma t dt forcing ut unew hcol hforce S.T.s 0 (S.forces t dt forcing) (Nat.zero_add _)
    ⟨⟨rfl, rfl, rfl, rfl, rfl, rfl⟩, hok, fun j hj => absurd hj (by omega), fun j hj => absurd hj (by omega), fun j hj => absurd hj (by omega)⟩
  obtain ⟨⟨eP, eT, eD, edt, eM, eF⟩, hok1, hE, hI, heq⟩ := a2
  have eP' : S1.P = S.P := eP
  have eT' : S1.T = S.T := eT
  have eD' : S1.timeDep = S.timeDep := eD
  -- the mass solver
  have hmass : ∃ f mass', S1.getMass t = (f, { S1 with mass := mass' }) ∧ ∀ rhs u, ∃ u', f rhs u = some u' ∧ S.P.A 0 u' = rhs := by
    unfold IMEX.getMass
    rcases hok1 with ⟨h1, _, h3⟩ | ⟨h1, _, _, _, h5, _⟩
    · rw [if_pos h1]
      refine ⟨_, S1.mass, rfl, fun rhs u => ?_⟩
      obtain ⟨u', b1, b2⟩ := h3 rhs u
      refine ⟨u', b1, ?_⟩
      rw [← b2, one_smul, zero_smul, add_zero, eP', hA t]
    · rw [if_neg (by rw [h1]; simp)]
      cases hm : S1.mass with
      | none =>
        refine ⟨_, some t, rfl, fun rhs u => ?_⟩
        obtain ⟨u', b1, b2⟩ := h5 t rhs u
        refine ⟨u', b1, ?_⟩
        rw [← b2, one_smul, zero_smul, add_zero, eP', hA t]
      | some t' =>
        refine ⟨_, S1.mass, rfl, fun rhs u => ?_⟩
        obtain ⟨u', b1, b2⟩ := h5 t' rhs u
        refine ⟨u', b1, ?_⟩
        rw [← b2, one_smul, zero_smul, add_zero, eP', hA t']
  obtain ⟨f, mass', m1, m2⟩ := hmass
  obtain ⟨u', c1, c2⟩ := m2 (S1.finalRhs t dt ut) unew
  refine ⟨u', { S1 with mass := mass', rhs := S1.finalRhs t dt ut }, S1.U, ?_, ?_, ?_, eP', eT', eD', edt, ?_⟩
  · unfold IMEX.picard
    rw [hd]
    simp only [Option.bind_eq_bind, Option.bind_some]
    rw [show (S.forces t dt forcing).T.s = S.T.s from rfl, a1]
    simp only [Option.bind_some, m1, c1]
  · intro k hk
    have := heq k hk
    rw [← hA (t + dt)]
    exact this
  · rw [c2]
    unfold IMEX.finalRhs FinalRhs
    dsimp only
    rw [loop_two, loop_one, eP', eT', eF]
    have e0 : S.P.residual (t + dt) none (some ut) S1.rhs 1 0 0 0 0 none = S.P.A 0 ut := by
      unfold ProbIE.residual; simp [hA (t + dt)]
    have e1 : ∑ j ∈ Finset.range S.T.s, S.T.bImpl j • S1.UImpl j =
        ∑ j ∈ Finset.range S.T.s, S.T.bImpl j • S.P.I (t + S.T.c j * dt) (S1.U j) :=
      Finset.sum_congr rfl fun j hj => by
        have hj := Finset.mem_range.1 hj
        by_cases hz : S.T.bImpl j = 0
        · rw [hz, zero_smul, zero_smul]
        · rw [hI j hj ((used_of S.T hcol j hj).2 (Or.inr hz))]; rfl
    have e2 : ∑ j ∈ Finset.range S.T.s, S.T.bExpl j • S1.UExpl j =
        ∑ j ∈ Finset.range S.T.s, S.T.bExpl j • S.P.E (t + S.T.c j * dt) (S1.U j) :=
      Finset.sum_congr rfl fun j hj => by
        have hj := Finset.mem_range.1 hj
        by_cases hz : S.T.bExpl j = 0
        · rw [hz, zero_smul, zero_smul]
        · rw [hE j hj ((used_of S.T hcol j hj).1 (Or.inr hz))]; rfl
    have e3 : ∑ j ∈ Finset.range S.T.s, S.T.bImpl j • (S.forces t dt forcing).force j =
        ∑ j ∈ Finset.range S.T.s, S.T.bImpl j • S.P.f forcing (fun j => t + S.T.c j * dt) j :=
      Finset.sum_congr rfl fun j hj => by
        have hj := Finset.mem_range.1 hj
        by_cases hz : S.T.bImpl j = 0
        · rw [hz, zero_smul, zero_smul]
        · rw [forces_force S t dt forcing j hj ((used_of S.T hcol j hj).2 (Or.inr hz))]
    rw [e0, e1, e2, e3]
  · intro h
    rcases hok1 with ⟨h1, _⟩ | ⟨_, _, _, _, _, h5⟩
    · rw [eD', h] at h1; cases h1
    · exact h5

end PyNucleus.TimeStepping
