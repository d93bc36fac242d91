import Verif.Spec.GMRES
import Verif.Proof.CG
import Verif.Proof.GMRESTheory

/-! # The GMRES solver -/

namespace PyNucleus.Krylov

open PyNucleus.Loops PyNucleus.Blas PyNucleus.Spec Finset

variable {K : Type} [Field K] [LinearOrder K] {S : Gmres K} {M N : Matrix (Fin S.n) (Fin S.n) K}

theorem assign_V {n : Nat} (y x : List K) (hy : y.length = n) (hx : x.length = n) : assign y x = x :=
  assign_eq y x (by omega)

theorem assignScaled_V {n : Nat} (y x : List K) (a : K) (hy : y.length = n) (hx : x.length = n) :
    (assignScaled y x a).length = n ∧ toV n (assignScaled y x a) = a • toV n x := by
  unfold assignScaled
  rw [hx]
  have h := CSR.forRange_set y n (by omega) fun i _ => a * x.getD i 0
  exact ⟨h.1.trans hy, toV_ext fun i hi => by rw [h.2 i, if_pos hi]; rfl⟩

/-- Columns as vectors. -/
def GM.q (n : Nat) (g : GM K) : Nat → Fin n → K := fun j => toV n (g.Q j)

theorem start_V (hA : Applies S.n S.A M) (hN : S.PrecIs N) {b : List K} (hb : b.length = S.n) {g : GM K} (hg : g.Sized S.n) :
    ∃ r Ar, S.start b g = { g with r := r, Ar := Ar } ∧ r.length = S.n ∧ Ar.length = S.n ∧
      toV S.n r = S.effRes M N (toV S.n b) (toV S.n g.x) := by
  have h1 := hA g.x g.Ar hg.x hg.Ar
  unfold Solver.PrecIs at hN
  unfold Gmres.start Gmres.effRes
  dsimp only
  cases hp : S.prec with
  | none =>
    rw [hp] at hN
    simp only at hN ⊢
    have h2 := assign3_V g.r b 1 (S.A g.x g.Ar) (-1) hg.r hb
    refine ⟨_, _, rfl, h2.1, h1.1, ?_⟩
    rw [h2.2, h1.2, hN, one_smul, neg_smul, one_smul, ← sub_eq_add_neg]
    split
    · rw [Matrix.one_mulVec]
    · rfl
  | some P =>
    rw [hp] at hN
    simp only at hN ⊢
    cases hl : S.left with
    | false =>
      have h2 := assign3_V g.r b 1 (S.A g.x g.Ar) (-1) hg.r hb
      refine ⟨_, _, rfl, h2.1, h1.1, ?_⟩
      rw [h2.2, h1.2, one_smul, neg_smul, one_smul, ← sub_eq_add_neg]
      rfl
    | true =>
      have h2 := assign3Self_V (S.A g.x g.Ar) (-1) b 1 h1.1
      have h3 := hN _ g.r h2.1 hg.r
      refine ⟨_, _, rfl, h3.1, h2.1, ?_⟩
      rw [h3.2, h2.2, h1.2, if_pos rfl]
      congr 1
      rw [neg_smul, one_smul, one_smul, neg_add_eq_sub]

theorem upd_Z {n : Nat} {Z : Nat → List K} {i : Nat} {l : List K} (hZ : ∀ j, (Z j).length = n) (hl : l.length = n) (j : Nat) :
    (upd Z i l j).length = n := by
  unfold upd
  split
  · exact hl
  · exact hZ j

theorem expand_V (hA : Applies S.n S.A M) (hN : S.PrecIs N) {i : Nat} {g : GM K} (hg : g.Sized S.n) :
    ∃ r Ar Z, S.expand i g = { g with r := r, Ar := Ar, Z := Z } ∧ r.length = S.n ∧ Ar.length = S.n ∧ (∀ j, (Z j).length = S.n) ∧
      toV S.n r = (S.opT M N).mulVec (toV S.n (g.Q i)) ∧ (∀ j, j ≠ i → Z j = g.Z j) ∧
      (S.FlexOK → S.flexible = true → toV S.n (Z i) = (S.opU N).mulVec (toV S.n (g.Q i))) := by
  unfold Solver.PrecIs at hN
  unfold Gmres.expand Gmres.opT Gmres.opU Gmres.FlexOK
  dsimp only
  rw [assign_V g.r (g.Q i) hg.r (hg.Q i)]
  have hne : ∀ (l : List K) (j : Nat), j ≠ i → upd g.Z i l j = g.Z j := fun l j hj => if_neg hj
  have heq : ∀ l : List K, upd g.Z i l i = l := fun l => if_pos rfl
  cases hp : S.prec with
  | none =>
    rw [hp] at hN
    simp only at hN
    have hT : (if S.left = true then N * M else M * N) = M := by subst hN; split <;> simp
    rw [hT]
    cases hf : S.flexible with
    | false =>
      have h1 := hA (g.Q i) g.Ar (hg.Q i) hg.Ar
      simp only
      rw [assign_V _ _ (hg.Q i) h1.1]
      exact ⟨_, _, _, rfl, h1.1, h1.1, hg.Z, h1.2, fun _ _ => rfl, fun _ h => by cases h⟩
    | true =>
      have h1 := hA (g.Q i) (g.Z i) (hg.Q i) (hg.Z i)
      simp only
      rw [assign_V _ _ (hg.Q i) h1.1]
      exact ⟨_, _, _, rfl, h1.1, hg.Ar, upd_Z hg.Z h1.1, h1.2, hne _, fun h _ => by cases (h trivial).2⟩
  | some P =>
    rw [hp] at hN
    simp only at hN
    cases hl : S.left with
    | true =>
      rw [if_pos rfl, ← Matrix.mulVec_mulVec]
      cases hf : S.flexible with
      | false =>
        have h1 := hA (g.Q i) g.Ar (hg.Q i) hg.Ar
        have h2 := hN _ (g.Q i) h1.1 (hg.Q i)
        exact ⟨_, _, _, rfl, h2.1, h1.1, hg.Z, by rw [h2.2, h1.2], fun _ _ => rfl, fun _ h => by cases h⟩
      | true =>
        have h1 := hA (g.Q i) (g.Z i) (hg.Q i) (hg.Z i)
        have h2 := hN _ (g.Q i) h1.1 (hg.Q i)
        exact ⟨_, _, _, rfl, h2.1, hg.Ar, upd_Z hg.Z h1.1, by rw [h2.2, h1.2], hne _, fun h _ => by cases (h rfl).1⟩
    | false =>
      rw [if_neg (by decide), ← Matrix.mulVec_mulVec]
      cases hf : S.flexible with
      | false =>
        have h1 := hN (g.Q i) g.Ar (hg.Q i) hg.Ar
        have h2 := hA _ (g.Q i) h1.1 (hg.Q i)
        exact ⟨_, _, _, rfl, h2.1, h1.1, hg.Z, by rw [h2.2, h1.2], fun _ _ => rfl, fun _ h => by cases h⟩
      | true =>
        have h1 := hN (g.Q i) (g.Z i) (hg.Q i) (hg.Z i)
        have h2 := hA _ (g.Q i) h1.1 (hg.Q i)
        exact ⟨_, _, _, rfl, h2.1, hg.Ar, upd_Z hg.Z h1.1, by rw [h2.2, h1.2], hne _, fun _ _ => by rw [heq, h1.2]; rfl⟩

theorem orthogonalise_V {n : Nat} {i : Nat} {g : GM K} (hr : g.r.length = n) (hQ : ∀ j, (g.Q j).length = n) (on : ON (g.q n) i) :
    ∃ H r, orthogonalise i g = { g with H := H, r := r } ∧ r.length = n ∧ (∀ a b, b ≠ i → H a b = g.H a b) ∧
      toV n g.r = ∑ k ∈ range (i + 1), H k i • g.q n k + toV n r ∧ ∀ k ≤ i, g.q n k ⬝ᵥ toV n r = 0 := by
  unfold orthogonalise
  have key : ∀ m, m ≤ i + 1 → ∃ H r, (forRange 0 m g fun g j => { g with H := upd2 g.H j i (mydot (g.Q j) g.r), r := updateScaled g.r (g.Q j) (-(mydot (g.Q j) g.r)) }) = { g with H := H, r := r } ∧ r.length = n ∧
      (∀ a b, b ≠ i → H a b = g.H a b) ∧
      toV n g.r = ∑ k ∈ range m, H k i • g.q n k + toV n r ∧ ∀ k < m, g.q n k ⬝ᵥ toV n r = 0 := by
    intro m
    induction m with
    | zero => intro _; exact ⟨g.H, g.r, rfl, hr, fun _ _ _ => rfl, by simp, fun k hk => by omega⟩
    | succ m ih =>
      intro hm
      obtain ⟨H, r, e, h1, h2, h3, h4⟩ := ih (by omega)
      rw [forRange_succ, e]
      have hu := updateScaled_V r (g.Q m) (-(mydot (g.Q m) r)) h1
      refine ⟨_, _, rfl, hu.1, ?_, ?_, ?_⟩
      · intro a b hb
        unfold upd2
        rw [if_neg (fun h => hb h.2)]
        exact h2 a b hb
      · rw [sum_range_succ]
        have hsum : ∑ k ∈ range m, upd2 H m i (mydot (g.Q m) r) k i • g.q n k = ∑ k ∈ range m, H k i • g.q n k := by
          apply sum_congr rfl
          intro k hk
          have := mem_range.1 hk
          unfold upd2
          rw [if_neg (by omega)]
        rw [hsum, hu.2, h3]
        unfold upd2
        rw [if_pos ⟨rfl, rfl⟩]
        unfold GM.q
        rw [neg_smul, add_assoc]
        congr 1
        abel
      · intro k hk
        rw [hu.2, dotProduct_add, dotProduct_smul, mydot_V _ _ (hQ m)]
        have hon := on k (by omega) m (by omega)
        unfold GM.q at hon ⊢
        rw [hon]
        by_cases e : k = m
        · subst e; simp
        · rw [if_neg e, show toV n (g.Q k) ⬝ᵥ toV n r = 0 from h4 k (by omega)]; simp
  obtain ⟨H, r, e, h1, h2, h3, h4⟩ := key (i + 1) le_rfl
  exact ⟨H, r, e, h1, h2, h3, fun k hk => h4 k (by omega)⟩

theorem rotate_V (i : Nat) (g : GM K) :
    ∃ H, rotate i g = { g with H := H } ∧ (∀ a b, b ≠ i → H a b = g.H a b) ∧
      (∀ k < i, H k i = g.c k * rho g.c g.s (fun k => g.H k i) k + g.s k * g.H (k + 1) i) ∧
      H i i = rho g.c g.s (fun k => g.H k i) i ∧ ∀ k, i < k → H k i = g.H k i := by
  unfold rotate
  have key : ∀ m, m ≤ i → ∃ H, (forRange 0 m g fun g j =>
        { g with H := upd2 (upd2 g.H j i (g.c j * g.H j i + g.s j * g.H (j + 1) i)) (j + 1) i (-g.s j * g.H j i + g.c j * g.H (j + 1) i) }) =
          { g with H := H } ∧ (∀ a b, b ≠ i → H a b = g.H a b) ∧
      (∀ k < m, H k i = g.c k * rho g.c g.s (fun k => g.H k i) k + g.s k * g.H (k + 1) i) ∧
      H m i = rho g.c g.s (fun k => g.H k i) m ∧ ∀ k, m < k → H k i = g.H k i := by
    intro m
    induction m with
    | zero => intro _; exact ⟨g.H, rfl, fun _ _ _ => rfl, fun k hk => by omega, rfl, fun _ _ => rfl⟩
    | succ m ih =>
      intro hm
      obtain ⟨H, e, h1, h2, h3, h4⟩ := ih (by omega)
      rw [forRange_succ, e]
      refine ⟨_, rfl, ?_, ?_, ?_, ?_⟩
      · intro a b hb
        simp only [upd2]
        rw [if_neg (fun h => hb h.2), if_neg (fun h => hb h.2)]
        exact h1 a b hb
      · intro k hk
        simp only [upd2]
        rw [if_neg (by omega)]
        by_cases e : k = m
        · subst e
          rw [if_pos ⟨rfl, trivial⟩, h3, h4 (k + 1) (by omega)]
        · rw [if_neg (fun h => e h.1)]; exact h2 k (by omega)
      · simp only [upd2]
        rw [if_pos ⟨trivial, trivial⟩, h3, h4 (m + 1) (by omega)]
        rfl
      · intro k hk
        simp only [upd2]
        rw [if_neg (by omega), if_neg (by omega)]
        exact h4 k (by omega)
  obtain ⟨H, e, h1, h2, h3, h4⟩ := key i le_rfl
  exact ⟨H, e, h1, h2, h3, h4⟩

theorem givens_V (hs : SqrtSound S.sqrt) {i : Nat} {g g' : GM K} (h : S.givens i g = some g') :
    ∃ beta, beta ≠ 0 ∧ beta * beta = g.H i i * g.H i i + g.H (i + 1) i * g.H (i + 1) i ∧
      g' = { g with c := upd g.c i (g.H i i / beta), s := upd g.s i (g.H (i + 1) i / beta), H := upd2 g.H i i beta,
                    gamma := upd (upd g.gamma (i + 1) (-(g.H (i + 1) i / beta) * g.gamma i)) i (g.H i i / beta * g.gamma i),
                    residuals := g.residuals ++ [|-(g.H (i + 1) i / beta) * g.gamma i|] } := by
  unfold Gmres.givens at h
  cases hb : S.sqrt (g.H i i * g.H i i + g.H (i + 1) i * g.H (i + 1) i) with
  | none => rw [hb] at h; cases h
  | some beta =>
    rw [hb] at h
    simp only [Option.bind_eq_bind, Option.bind_some] at h
    unfold div? at h
    by_cases h0 : beta = 0
    · rw [if_pos h0] at h; cases h
    · rw [if_neg h0, if_neg h0] at h
      simp only [Option.bind_some] at h
      cases h
      refine ⟨beta, h0, (hs _ _ hb).2, ?_⟩
      have e1 : upd g.gamma (i + 1) (-(g.H (i + 1) i / beta) * g.gamma i) i = g.gamma i := if_neg (by omega)
      have e2 : ∀ v, upd (upd g.gamma (i + 1) (-(g.H (i + 1) i / beta) * g.gamma i)) i v (i + 1) = -(g.H (i + 1) i / beta) * g.gamma i := by
        intro v; unfold upd; rw [if_neg (by omega), if_pos rfl]
      rw [e1, e2]

/-- What holds after `i` iterations of the inner loop. -/
structure Loop (S : Gmres K) (M N : Matrix (Fin S.n) (Fin S.n) K) (r0 : Fin S.n → K) (i : Nat) (g : GM K) : Prop where
  sized : g.Sized S.n
  inv : Inv (S.opT M N) r0 i (g.q S.n) g.H g.c g.s g.gamma
  Z : S.flexible = true → ∀ j < i, toV S.n (g.Z j) = (S.opU N).mulVec (toV S.n (g.Q j))
  last : g.residuals.getLast? = some |g.gamma i|

/-- What holds in addition at an Arnoldi breakdown. -/
structure Broken (S : Gmres K) (M N : Matrix (Fin S.n) (Fin S.n) K) (r0 : Fin S.n → K) (i : Nat) (g : GM K) : Prop where
  loop : Loop S M N r0 i g
  Zi : S.flexible = true → toV S.n (g.Z i) = (S.opU N).mulVec (toV S.n (g.Q i))
  col : (S.opT M N).mulVec (toV S.n (g.Q i)) = ∑ k ∈ range (i + 1), g.H k i • g.q S.n k + toV S.n g.r
  perp : ∀ k ≤ i, g.q S.n k ⬝ᵥ toV S.n g.r = 0
  norm : 0 ≤ g.H (i + 1) i ∧ g.H (i + 1) i * g.H (i + 1) i = toV S.n g.r ⬝ᵥ toV S.n g.r

theorem arnoldi_ok (hA : Applies S.n S.A M) (hN : S.PrecIs N) (hf : S.FlexOK) (hs : SqrtSound S.sqrt) {r0 : Fin S.n → K} {i : Nat}
    {g g' : GM K} (hl : Loop S M N r0 i g) (h : S.arnoldi i g = some g') : Broken S M N r0 i g' ∧ g'.x = g.x := by
  unfold Gmres.arnoldi at h
  dsimp only at h
  obtain ⟨r, Ar, Z, e, e1, e2, e3, e4, e5, e6⟩ := expand_V hA hN (i := i) hl.sized
  rw [e] at h
  obtain ⟨H, r', f, f1, f2, f3, f4⟩ := orthogonalise_V (i := i) (g := { g with r := r, Ar := Ar, Z := Z }) e1 hl.sized.Q hl.inv.on
  rw [f] at h
  cases hn : S.norm r' with
  | none => rw [hn] at h; cases h
  | some ν =>
    rw [hn] at h
    simp only [Option.bind_eq_bind, Option.bind_some] at h
    cases h
    have hH : ∀ a b, b < i → upd2 H (i + 1) i ν a b = g.H a b := fun a b hb => by
      unfold upd2; rw [if_neg (fun h => by omega)]; exact f2 a b (by omega)
    unfold Solver.norm at hn
    rw [mydot_V _ _ f1] at hn
    have hν := hs _ _ hn
    refine ⟨⟨⟨⟨hl.sized.x, f1, e2, hl.sized.Q, e3⟩, ?_, ?_, hl.last⟩, ?_, ?_, f4, ?_⟩, rfl⟩
    · exact hl.inv.congr (fun _ _ => rfl) (fun a b hb => (hH a b hb).symm) (fun _ _ => rfl) (fun _ _ => rfl) (fun _ _ => rfl)
    · intro hfl j hj
      simp only
      rw [e5 j (by omega)]
      exact hl.Z hfl j hj
    · intro hfl; exact e6 hf hfl
    · simp only
      rw [← e4]
      simp only at f3
      rw [f3]
      congr 1
      apply sum_congr rfl
      intro k hk
      have := mem_range.1 hk
      unfold upd2
      rw [if_neg (by omega)]
      rfl
    · simp only
      unfold upd2
      rw [if_pos ⟨rfl, rfl⟩]
      exact hν

theorem extend_ok (hs : SqrtSound S.sqrt) {r0 : Fin S.n → K} {i : Nat} {g g' : GM K} (hb : Broken S M N r0 i g)
    (h : S.extend i g = some g') : Loop S M N r0 (i + 1) g' ∧ g'.x = g.x := by
  unfold Gmres.extend at h
  unfold div? at h
  by_cases h0 : g.H (i + 1) i = 0
  · rw [if_pos h0] at h; cases h
  · rw [if_neg h0] at h
    simp only [Option.bind_eq_bind, Option.bind_some] at h
    have hq := assignScaled_V (g.Q (i + 1)) g.r (1 / g.H (i + 1) i) (hb.loop.sized.Q _) hb.loop.sized.r
    generalize assignScaled (g.Q (i + 1)) g.r (1 / g.H (i + 1) i) = q' at h hq
    obtain ⟨H, e, e1, e2, e3, e4⟩ := rotate_V i { g with Q := upd g.Q (i + 1) q' }
    rw [e] at h
    obtain ⟨beta, b0, b1, rfl⟩ := givens_V hs h
    simp only at e1 e2 e3 e4 b1 ⊢
    have hqi : ∀ j ≤ i, upd g.Q (i + 1) q' j = g.Q j := fun j hj => if_neg (by omega)
    have hqs : upd g.Q (i + 1) q' (i + 1) = q' := if_pos rfl
    have e4' := e4 (i + 1) (by omega)
    have hnew : (h0' : g.H (i + 1) i ≠ 0) → g.H (i + 1) i • toV S.n q' = toV S.n g.r := fun _ => by
      rw [hq.2, smul_smul, mul_one_div_cancel h0, one_smul]
    refine ⟨⟨⟨hb.loop.sized.x, hb.loop.sized.r, hb.loop.sized.Ar, ?_, hb.loop.sized.Z⟩, ?_, ?_, ?_⟩, trivial⟩
    · exact upd_Z hb.loop.sized.Q hq.1
    · have inv0 : Inv (S.opT M N) r0 i (GM.q S.n { g with Q := upd g.Q (i + 1) q' }) g.H g.c g.s g.gamma := by
        refine hb.loop.inv.congr (fun j hj => ?_) (fun _ _ _ => rfl) (fun _ _ => rfl) (fun _ _ => rfl) (fun _ _ => rfl)
        unfold GM.q; simp only; rw [hqi j hj]
      have on : ON (GM.q S.n { g with Q := upd g.Q (i + 1) q' }) (i + 1) := by
        intro j hj k hk
        have perp : ∀ k ≤ i, toV S.n (g.Q k) ⬝ᵥ toV S.n q' = 0 := fun k hk => by
          rw [hq.2, dotProduct_smul, show toV S.n (g.Q k) ⬝ᵥ toV S.n g.r = 0 from hb.perp k hk, smul_zero]
        by_cases ej : j = i + 1
        · by_cases ek : k = i + 1
          · subst ej; subst ek
            rw [if_pos rfl]
            unfold GM.q
            simp only
            rw [hqs, hq.2, dotProduct_smul, smul_dotProduct, ← hb.norm.2]
            simp only [smul_eq_mul]
            field_simp
          · rw [if_neg (by omega)]
            unfold GM.q
            simp only
            rw [ej, hqs, hqi k (by omega), dotProduct_comm, perp k (by omega)]
        · by_cases ek : k = i + 1
          · rw [if_neg (by omega)]
            unfold GM.q
            simp only
            rw [ek, hqs, hqi j (by omega), perp j (by omega)]
          · exact inv0.on j (by omega) k (by omega)
      refine Inv.step inv0 on (h := fun k => g.H k i) (beta := beta) ?_ h0 ?_ b0 ?_ ?_ ?_ ?_ ?_ ?_ ?_ ?_ ?_ ?_
      · unfold GM.q
        simp only
        rw [hqi i le_rfl, hqs, hnew h0, hb.col]
        congr 1
        apply sum_congr rfl
        intro k hk
        have := mem_range.1 hk
        rw [hqi k (by omega)]
        rfl
      · rw [b1, e3, e4']
      · intro j hj; exact if_neg (by omega)
      · intro j hj; exact if_neg (by omega)
      · rw [← e3]; exact if_pos rfl
      · rw [show g.H (i + 1) i = H (i + 1) i from e4'.symm]; exact if_pos rfl
      · intro j hj; dsimp only [upd]; rw [if_neg (by omega), if_neg (by omega)]
      · have : upd g.c i (H i i / beta) i = H i i / beta := if_pos rfl
        dsimp only
        rw [this]; exact if_pos rfl
      · have : upd g.s i (H (i + 1) i / beta) i = H (i + 1) i / beta := if_pos rfl
        dsimp only
        rw [this]
        dsimp only [upd]
        rw [if_neg (by omega), if_pos rfl]
      · intro j k hk
        dsimp only [upd2]
        rw [if_neg (by omega)]
        exact e1 j k (by omega)
      · intro k hk
        dsimp only [upd2]
        rw [if_neg (by omega)]
        exact e2 k hk
      · exact if_pos ⟨rfl, rfl⟩
    · intro hfl j hj
      by_cases ej : j = i
      · subst ej; simp only; rw [hqi j le_rfl]; exact hb.Zi hfl
      · simp only; rw [hqi j (by omega)]; exact hb.loop.Z hfl j (by omega)
    · rw [List.getLast?_concat]
      have : upd (upd g.gamma (i + 1) (-(H (i + 1) i / beta) * g.gamma i)) i (H i i / beta * g.gamma i) (i + 1) =
          -(H (i + 1) i / beta) * g.gamma i := by
        unfold upd
        rw [if_neg (by omega), if_pos rfl]
      simp only
      rw [this]

theorem inner_ok (hA : Applies S.n S.A M) (hN : S.PrecIs N) (hf : S.FlexOK) (hs : SqrtSound S.sqrt) {r0 : Fin S.n → K} (tol : K) :
    ∀ (m i : Nat) (g : GM K), Loop S M N r0 i g → ∀ i' g' e, S.inner tol m i g = some (i', g', e) →
      g'.x = g.x ∧ i ≤ i' ∧ i' ≤ i + m ∧ (e = .breakdown → Broken S M N r0 i' g' ∧ |g'.H (i' + 1) i'| ≤ S.eps) ∧
      (e ≠ .breakdown → Loop S M N r0 (i' + 1) g') ∧ (e = .tolerance → |g'.gamma (i' + 1)| < tol) ∧
      (e = .exhausted → i' = i + m) := by
  intro m
  induction m with
  | zero =>
    intro i g hl i' g' e h
    unfold Gmres.inner at h
    cases ha : S.arnoldi i g with
    | none => rw [ha] at h; cases h
    | some g1 =>
      rw [ha] at h
      simp only [Option.bind_eq_bind, Option.bind_some] at h
      obtain ⟨hb, hx⟩ := arnoldi_ok hA hN hf hs hl ha
      split at h
      · rename_i hle
        cases h
        exact ⟨hx, le_rfl, by omega, fun _ => ⟨hb, hle⟩, fun h => absurd rfl h, (fun h => by cases h), (fun h => by cases h)⟩
      · cases hx2 : S.extend i g1 with
        | none => rw [hx2] at h; cases h
        | some g2 =>
          rw [hx2] at h
          simp only [Option.bind_some] at h
          obtain ⟨hl2, hx'⟩ := extend_ok hs hb hx2
          split at h
          · rename_i hlt
            cases h
            exact ⟨hx'.trans hx, le_rfl, by omega, (fun h => by cases h), fun _ => hl2, fun _ => hlt, (fun h => by cases h)⟩
          · cases h
            exact ⟨hx'.trans hx, le_rfl, by omega, (fun h => by cases h), fun _ => hl2, (fun h => by cases h), fun _ => rfl⟩
  | succ m ih =>
    intro i g hl i' g' e h
    unfold Gmres.inner at h
    cases ha : S.arnoldi i g with
    | none => rw [ha] at h; cases h
    | some g1 =>
      rw [ha] at h
      simp only [Option.bind_eq_bind, Option.bind_some] at h
      obtain ⟨hb, hx⟩ := arnoldi_ok hA hN hf hs hl ha
      split at h
      · rename_i hle
        cases h
        exact ⟨hx, le_rfl, by omega, fun _ => ⟨hb, hle⟩, fun h => absurd rfl h, (fun h => by cases h), (fun h => by cases h)⟩
      · cases hx2 : S.extend i g1 with
        | none => rw [hx2] at h; cases h
        | some g2 =>
          rw [hx2] at h
          simp only [Option.bind_some] at h
          obtain ⟨hl2, hx'⟩ := extend_ok hs hb hx2
          split at h
          · rename_i hlt
            cases h
            exact ⟨hx'.trans hx, le_rfl, by omega, (fun h => by cases h), fun _ => hl2, fun _ => hlt, (fun h => by cases h)⟩
          · obtain ⟨r1, r2, r3, r4, r5, r6, r7⟩ := ih (i + 1) g2 hl2 i' g' e h
            exact ⟨r1.trans (hx'.trans hx), by omega, by omega, r4, r5, r6, fun he => by rw [r7 he]; omega⟩

/-! ### Back-solve and update -/

theorem forRange_self {σ : Type} (a : Nat) (s : σ) (f : σ → Nat → σ) : forRange a a s f = s := by
  unfold forRange; rw [Nat.sub_self]; rfl

theorem forRange_top {σ : Type} (a b : Nat) (s : σ) (f : σ → Nat → σ) (h : a ≤ b) : forRange a (b + 1) s f = f (forRange a b s f) b := by
  unfold forRange
  rw [show b + 1 - a = (b - a) + 1 by omega, List.range'_1_concat, List.foldl_append, show a + (b - a) = b by omega]
  rfl

theorem forRange_sub (f : Nat → K) (t : K) (a b : Nat) (h : a ≤ b) : (forRange a b t fun t l => t - f l) = t - ∑ l ∈ Ico a b, f l := by
  induction b, h using Nat.le_induction with
  | base => rw [forRange_self]; simp
  | succ b hb ih => rw [forRange_top _ _ _ _ hb, ih, sum_Ico_succ_top hb]; ring

theorem backSolve_ok (i : Nat) : ∀ (j : Nat) (g g' : GM K), j ≤ i + 1 → backSolve i j g = some g' →
    (∀ k, j ≤ k → k ≤ i → ∑ l ∈ Ico k (i + 1), g.H k l * g.y l = g.gamma k) →
    ∃ y, g' = { g with y := y } ∧ (∀ l, j ≤ l → y l = g.y l) ∧ ∀ k ≤ i, ∑ l ∈ Ico k (i + 1), g.H k l * y l = g.gamma k := by
  intro j
  induction j with
  | zero =>
    intro g g' _ h hk
    unfold backSolve at h
    cases h
    exact ⟨g.y, rfl, fun _ _ => rfl, fun k hk' => hk k (by omega) hk'⟩
  | succ j ih =>
    intro g g' hj h hk
    unfold backSolve at h
    unfold backRow at h
    dsimp only at h
    rw [forRange_sub _ _ _ _ (by omega)] at h
    unfold div? at h
    by_cases h0 : g.H j j = 0
    · rw [if_pos h0] at h; cases h
    · rw [if_neg h0] at h
      simp only [Option.bind_eq_bind, Option.bind_some] at h
      have hne : ∀ v l, l ≠ j → upd g.y j v l = g.y l := fun v l hl => if_neg hl
      obtain ⟨y, e1, e2, e3⟩ := ih _ g' (by omega) h (by
        intro k hjk hki
        simp only
        by_cases e : k = j
        · subst e
          rw [sum_eq_sum_Ico_succ_bot (by omega)]
          have : ∑ l ∈ Ico (k + 1) (i + 1), g.H k l * upd g.y k ((g.gamma k - ∑ l ∈ Ico (k + 1) (i + 1), g.H k l * g.y l) / g.H k k) l =
              ∑ l ∈ Ico (k + 1) (i + 1), g.H k l * g.y l := by
            apply sum_congr rfl
            intro l hl
            have := mem_Ico.1 hl
            rw [hne _ l (by omega)]
          rw [this]
          unfold upd
          rw [if_pos rfl]
          field_simp
          ring
        · rw [← hk k (by omega) hki]
          apply sum_congr rfl
          intro l hl
          have := mem_Ico.1 hl
          rw [hne _ l (by omega)])
      exact ⟨y, e1, fun l hl => by rw [e2 l (by omega)]; exact hne _ l (by omega), e3⟩

theorem gemvCols_V {n : Nat} (Q : Nat → List K) (y : Nat → K) (m : Nat) (r : List K) (hr : r.length = n) (blas : Bool) :
    (gemvCols blas Q y m r).length = n ∧
    toV n (gemvCols blas Q y m r) = (if blas then 0 else toV n r) + ∑ l ∈ range m, y l • toV n (Q l) := by
  unfold gemvCols
  have h0 : (if blas then forRange 0 r.length r fun r i => r.set i 0 else r).length = n ∧
      toV n (if blas then forRange 0 r.length r fun r i => r.set i 0 else r) = (if blas then 0 else toV n r) := by
    cases blas with
    | true => simp only [if_true]; rw [hr]; exact zero_V r hr
    | false => exact ⟨hr, rfl⟩
  dsimp only
  generalize (if blas then forRange 0 r.length r fun r i => r.set i 0 else r) = r1 at h0
  rw [← h0.2]
  induction m with
  | zero => exact ⟨by rw [forRange_self]; exact h0.1, by rw [forRange_self]; simp⟩
  | succ m ih =>
    rw [forRange_succ]
    generalize (forRange 0 m r1 fun r j => forRange 0 r.length r fun r i => r.set i (r.getD i 0 + (Q j).getD i 0 * y j)) = r2 at ih
    have h := CSR.forRange_set r2 r2.length le_rfl fun i o => o + (Q m).getD i 0 * y m
    refine ⟨h.1.trans ih.1, ?_⟩
    rw [sum_range_succ, ← add_assoc, ← ih.2]
    exact toV_ext fun i hi => by
      rw [h.2 i, if_pos (by rw [ih.1]; exact hi)]
      simp only [Pi.add_apply, Pi.smul_apply, smul_eq_mul]
      rw [mul_comm]
      rfl

theorem correct_ok (hN : S.PrecIs N) (hf : S.FlexOK) (hbl : S.blas = true) {i : Nat} {g g' : GM K} (hg : g.Sized S.n)
    (hZ : S.flexible = true → ∀ j < i + 1, toV S.n (g.Z j) = (S.opU N).mulVec (toV S.n (g.Q j)))
    (h : S.correct i g = some g') : g'.Sized S.n ∧ g'.residuals = g.residuals ∧
      toV S.n g'.x = toV S.n g.x + (S.opU N).mulVec (∑ l ∈ range (i + 1), g.y l • g.q S.n l) := by
  unfold Solver.PrecIs at hN
  unfold Gmres.correct at h
  have hq := gemvCols_V g.Q g.y (i + 1) g.r hg.r S.blas
  have hz := gemvCols_V g.Z g.y (i + 1) g.r hg.r S.blas
  rw [hbl, if_pos rfl, zero_add] at hq hz
  rw [hbl] at h
  generalize gemvCols true g.Q g.y (i + 1) g.r = rq at h hq
  generalize gemvCols true g.Z g.y (i + 1) g.r = rz at h hz
  cases hfl : S.flexible with
  | false =>
    rw [hfl] at h
    cases hp : S.prec with
    | none =>
      rw [hp] at h hN
      simp only at h hN
      cases h
      have hu := update_V g.x rq hg.x
      refine ⟨⟨hu.1, hq.1, hg.Ar, hg.Q, hg.Z⟩, rfl, ?_⟩
      simp only
      rw [hu.2, hq.2, hN]
      unfold Gmres.opU
      rw [ite_self, Matrix.one_mulVec]
      rfl
    | some P =>
      rw [hp] at h hN
      simp only at hN
      unfold Gmres.opU
      cases hl : S.left with
      | false =>
        rw [hl] at h
        simp only at h
        cases h
        have hP := hN rq g.Ar hq.1 hg.Ar
        have hu := update_V g.x (P rq g.Ar) hg.x
        refine ⟨⟨hu.1, hq.1, hP.1, hg.Q, hg.Z⟩, rfl, ?_⟩
        simp only
        rw [hu.2, hP.2, hq.2]
        rfl
      | true =>
        rw [hl] at h
        simp only at h
        cases h
        have hu := update_V g.x rq hg.x
        refine ⟨⟨hu.1, hq.1, hg.Ar, hg.Q, hg.Z⟩, rfl, ?_⟩
        simp only
        rw [hu.2, hq.2, if_pos trivial, Matrix.one_mulVec]
        rfl
  | true =>
    obtain ⟨f1, f2⟩ := hf hfl
    rw [hfl] at h
    cases hp : S.prec with
    | none => rw [hp] at f2; cases f2
    | some P =>
      rw [hp, f1] at h
      simp only at h
      cases h
      have hu := update_V g.x rz hg.x
      refine ⟨⟨hu.1, hz.1, hg.Ar, hg.Q, hg.Z⟩, rfl, ?_⟩
      simp only
      rw [hu.2, hz.2, Matrix.mulVec_sum]
      congr 1
      apply sum_congr rfl
      intro l hl
      rw [hZ hfl l (mem_range.1 hl), Matrix.mulVec_smul]
      rfl

theorem effRes_add (b x v : Fin S.n → K) :
    S.effRes M N b (x + (S.opU N).mulVec v) = S.effRes M N b x - (S.opT M N).mulVec v := by
  unfold Gmres.effRes Gmres.opU Gmres.opT
  split
  · rw [Matrix.one_mulVec, Matrix.mulVec_add, ← sub_sub, Matrix.mulVec_sub N, Matrix.mulVec_mulVec]
  · rw [Matrix.mulVec_add, ← sub_sub, Matrix.mulVec_mulVec]

theorem begin_ok (hA : Applies S.n S.A M) (hN : S.PrecIs N) (hs : SqrtSound S.sqrt) {b : List K} (hb : b.length = S.n) {g g' : GM K}
    (hg : g.Sized S.n) (h : S.begin b g = some g') : g'.Sized S.n ∧ g'.x = g.x ∧
      toV S.n g'.r = S.effRes M N (toV S.n b) (toV S.n g.x) ∧ 0 ≤ g'.gamma 0 ∧
      g'.gamma 0 * g'.gamma 0 = toV S.n g'.r ⬝ᵥ toV S.n g'.r ∧
      g'.residuals = (if g.residuals = [] then [|g'.gamma 0|] else g.residuals) := by
  unfold Gmres.begin at h
  dsimp only at h
  obtain ⟨r, Ar, e, e1, e2, e3⟩ := start_V hA hN hb hg
  rw [e] at h
  simp only at h
  cases hn : S.norm r with
  | none => rw [hn] at h; cases h
  | some ν =>
    rw [hn] at h
    simp only [Option.bind_eq_bind, Option.bind_some] at h
    cases h
    unfold Solver.norm at hn
    rw [mydot_V _ _ e1] at hn
    have hν := hs _ _ hn
    exact ⟨⟨hg.x, e1, e2, hg.Q, hg.Z⟩, rfl, e3, hν.1, hν.2, rfl⟩

/-- The first column starts the loop. -/
theorem first_loop {g : GM K} (hg : g.Sized S.n) (h0 : g.gamma 0 * g.gamma 0 = toV S.n g.r ⬝ᵥ toV S.n g.r) (hne : g.gamma 0 ≠ 0)
    (hlast : g.residuals.getLast? = some |g.gamma 0|) :
    Loop S M N (toV S.n g.r) 0 { g with Q := upd g.Q 0 (assignScaled (g.Q 0) g.r (1 / g.gamma 0)) } := by
  have hq := assignScaled_V (g.Q 0) g.r (1 / g.gamma 0) (hg.Q 0) hg.r
  have hq0 : upd g.Q 0 (assignScaled (g.Q 0) g.r (1 / g.gamma 0)) 0 = assignScaled (g.Q 0) g.r (1 / g.gamma 0) := if_pos rfl
  have e : toV S.n g.r = g.gamma 0 • toV S.n (assignScaled (g.Q 0) g.r (1 / g.gamma 0)) := by
    rw [hq.2, smul_smul, mul_one_div_cancel hne, one_smul]
  refine ⟨⟨hg.x, hg.r, hg.Ar, upd_Z hg.Q hq.1, hg.Z⟩, ⟨?_, fun j hj => by omega, fun j hj => by omega, fun j hj => by omega, ?_,
    fun j hj => by omega, ?_⟩, fun _ j hj => by omega, hlast⟩
  · intro j hj k hk
    obtain rfl : j = 0 := by omega
    obtain rfl : k = 0 := by omega
    rw [if_pos rfl]
    unfold GM.q
    simp only
    rw [hq0, hq.2, dotProduct_smul, smul_dotProduct, ← h0]
    simp only [smul_eq_mul]
    field_simp
  · simp only [range_zero, sum_empty, zero_add]
    unfold uvec GM.q
    simp only
    rw [hq0]
    exact e
  · refine ⟨g.gamma 0, hne, ?_⟩
    unfold GM.q
    simp only
    rw [hq0]
    exact e

/-- A cycle that does not break down. -/
theorem cycle_ok [IsStrictOrderedRing K] (hA : Applies S.n S.A M) (hN : S.PrecIs N) (hf : S.FlexOK) (hs : SqrtSound S.sqrt)
    (hbl : S.blas = true) (tol : K) {g g' : GM K} (hg : g.Sized S.n) (h0 : g.gamma 0 * g.gamma 0 = toV S.n g.r ⬝ᵥ toV S.n g.r)
    (hlast : ∃ a, g.residuals.getLast? = some a ∧ a = |g.gamma 0|) {i : Nat} {e : Exit} (h : S.cycle tol g = some (i, g', e)) :
    g'.Sized S.n ∧ (e ≠ .breakdown → ∃ v ∈ krylov (S.opT M N) (toV S.n g.r) (i + 1),
      toV S.n g'.x = toV S.n g.x + (S.opU N).mulVec v ∧
      (∃ a, g'.residuals.getLast? = some a ∧ 0 ≤ a ∧ (e = .tolerance → a < tol) ∧
        (toV S.n g.r - (S.opT M N).mulVec v) ⬝ᵥ (toV S.n g.r - (S.opT M N).mulVec v) = a * a) ∧
      ∀ w ∈ krylov (S.opT M N) (toV S.n g.r) (i + 1), (toV S.n g.r - (S.opT M N).mulVec v) ⬝ᵥ (toV S.n g.r - (S.opT M N).mulVec v) ≤
        (toV S.n g.r - (S.opT M N).mulVec w) ⬝ᵥ (toV S.n g.r - (S.opT M N).mulVec w)) ∧
    (e = .breakdown → i = 0 → S.eps = 0 → ∃ v, toV S.n g'.x = toV S.n g.x + (S.opU N).mulVec v ∧ (S.opT M N).mulVec v = toV S.n g.r) := by
  unfold Gmres.cycle at h
  unfold div? at h
  by_cases hne : g.gamma 0 = 0
  · rw [if_pos hne] at h; cases h
  rw [if_neg hne] at h
  simp only [Option.bind_eq_bind, Option.bind_some] at h
  obtain ⟨a, ha1, rfl⟩ := hlast
  have hl := first_loop (M := M) (N := N) hg h0 hne ha1
  have hx0 : ({ g with Q := upd g.Q 0 (assignScaled (g.Q 0) g.r (1 / g.gamma 0)) } : GM K).x = g.x := rfl
  generalize ({ g with Q := upd g.Q 0 (assignScaled (g.Q 0) g.r (1 / g.gamma 0)) } : GM K) = g0 at h hl hx0
  cases hin : S.inner tol (S.maxIter - 1) 0 g0 with
  | none => rw [hin] at h; cases h
  | some q =>
    obtain ⟨i', g1, e'⟩ := q
    rw [hin] at h
    simp only [Option.bind_some] at h
    obtain ⟨r1, r2, r3, r4, r5, r6, r7⟩ := inner_ok hA hN hf hs tol _ 0 g0 hl i' g1 e' hin
    cases hbs : backSolve i' (i' + 1) g1 with
    | none => rw [hbs] at h; cases h
    | some g2 =>
      rw [hbs] at h
      simp only [Option.bind_some] at h
      obtain ⟨y, rfl, _, hy⟩ := backSolve_ok i' (i' + 1) g1 g2 le_rfl hbs (fun k h1 h2 => by omega)
      cases hco : S.correct i' { g1 with y := y } with
      | none => rw [hco] at h; cases h
      | some g3 =>
        rw [hco] at h
        simp only [Option.bind_some] at h
        cases h
        have hsz : g1.Sized S.n ∧ (S.flexible = true → ∀ j < i + 1, toV S.n (g1.Z j) = (S.opU N).mulVec (toV S.n (g1.Q j))) := by
          by_cases he : e = .breakdown
          · have hb := (r4 he).1
            refine ⟨hb.loop.sized, fun hfl j hj => ?_⟩
            by_cases ej : j = i
            · subst ej; exact hb.Zi hfl
            · exact hb.loop.Z hfl j (by omega)
          · exact ⟨(r5 he).sized, (r5 he).Z⟩
        have hc := correct_ok hN hf hbl (g := { g1 with y := y }) ⟨hsz.1.x, hsz.1.r, hsz.1.Ar, hsz.1.Q, hsz.1.Z⟩ hsz.2 hco
        obtain ⟨c1, c2, c3⟩ := hc
        simp only at c2 c3
        rw [r1, hx0] at c3
        refine ⟨c1, fun he => ?_, fun he hi heps => ?_⟩
        · have hl' := r5 he
          have hspan := span_eq (i := i + 1) (q := g1.q S.n) (T := S.opT M N) (r0 := toV S.n g.r)
            (fun j hj => hl'.inv.hess j (by omega)) hl'.inv.first (i + 1) le_rfl
          have hatt := hl'.inv.attained y (fun k hk => hy k (by omega))
          refine ⟨∑ l ∈ range (i + 1), y l • g1.q S.n l, ?_, c3, ⟨|g1.gamma (i + 1)|, ?_, abs_nonneg _, r6, ?_⟩, ?_⟩
          · rw [hspan]; exact sum_mem_basisSpan _ _
          · rw [c2]; exact hl'.last
          · rw [hatt, abs_mul_abs_self]
          · intro w hw
            rw [hspan] at hw
            obtain ⟨z, rfl⟩ := (mem_basisSpan _ _ _).1 hw
            rw [hatt]
            exact hl'.inv.lower z
        · subst hi
          obtain ⟨hb, hle⟩ := r4 he
          refine ⟨_, c3, ?_⟩
          have hz : g1.H (0 + 1) 0 = 0 := by
            rw [heps] at hle
            exact abs_eq_zero.1 (le_antisymm hle (abs_nonneg _))
          have hr : toV S.n g1.r = 0 := by
            have := hb.norm.2
            rw [hz, mul_zero] at this
            exact dotProduct_self_eq_zero.1 this.symm
          have hcol := hb.col
          rw [hr, add_zero] at hcol
          simp only [zero_add, sum_range_one] at hcol ⊢
          have h2 := hy 0 le_rfl
          simp only [zero_add] at h2
          rw [show Ico 0 1 = range 1 from by rw [range_eq_Ico], sum_range_one] at h2
          have hrhs := hb.loop.inv.rhs
          simp only [range_zero, sum_empty, zero_add] at hrhs
          rw [Matrix.mulVec_smul, hrhs]
          change y 0 • (S.opT M N).mulVec (toV S.n (g1.Q 0)) = g1.gamma 0 • toV S.n (g1.Q 0)
          rw [hcol, smul_smul, mul_comm, h2]
          rfl

end PyNucleus.Krylov
