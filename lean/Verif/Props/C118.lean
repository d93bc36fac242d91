import Verif.Model.FlexibleCG
import Mathlib.Algebra.Order.Field.Rat
import Mathlib.Algebra.Module.Prod
import Mathlib.Tactic.Linarith
import Mathlib.Tactic.FieldSimp
import Mathlib.Tactic.Ring
import Mathlib.Tactic.Abel

/-!
# C118: the flexible method of conjugate gradients
-/

namespace PyNucleus.Props.C118

open PyNucleus.FlexibleCG

variable {K V : Type} [Field K] [LinearOrder K] [AddCommGroup V] [Module K V]

/-- A linear and self-adjoint matrix and a symmetric bilinear form; nothing about the preconditioner. -/
structure Symmetric (m : Method K V) : Prop where
  lin : ∀ (u v : V) (c : K), m.A (u + c • v) = m.A u + c • m.A v
  bil : ∀ (u v w : V) (c : K), m.ip (u + c • v) w = m.ip u w + c * m.ip v w
  symm : ∀ u v, m.ip u v = m.ip v u
  self : ∀ u v, m.ip (m.A u) v = m.ip u (m.A v)

theorem Symmetric.bil' {m : Method K V} (h : Symmetric m) (u v w : V) (c : K) : m.ip w (u + c • v) = m.ip w u + c * m.ip w v := by
  rw [h.symm, h.bil, h.symm u, h.symm v]

theorem Symmetric.sub {m : Method K V} (h : Symmetric m) (u v w : V) (c : K) : m.ip (u - c • v) w = m.ip u w - c * m.ip v w := by
  rw [show u - c • v = u + (-c) • v by rw [neg_smul, sub_eq_add_neg], h.bil]; ring

theorem Symmetric.sub' {m : Method K V} (h : Symmetric m) (u v w : V) (c : K) : m.ip w (u - c • v) = m.ip w u - c * m.ip w v := by
  rw [h.symm, h.sub, h.symm u, h.symm v]

theorem advance_spec (m : Method K V) (s t : St K V) (h : advance m s = some t) :
    m.ip s.p (m.A s.p) ≠ 0 ∧ t.x = s.x + (s.beta2 / m.ip s.p (m.A s.p)) • s.p ∧ t.r = s.r - (s.beta2 / m.ip s.p (m.A s.p)) • m.A s.p ∧
      t.p = s.p ∧ t.rold = t.r - s.rold ∧ t.beta2 = s.beta2 := by
  unfold advance at h
  split at h
  · cases h
  · rename_i h0
    simp only [Option.some.injEq] at h
    subst h
    exact ⟨h0, rfl, rfl, rfl, rfl, rfl⟩

theorem advance_residual (m : Method K V) (lin : ∀ (u v : V) (c : K), m.A (u + c • v) = m.A u + c • m.A v) (b : V) (s t : St K V)
    (h : advance m s = some t) (hr : s.r = b - m.A s.x) : t.r = b - m.A t.x := by
  obtain ⟨-, hx, hr', -⟩ := advance_spec m s t h
  rw [hr', hx, lin, hr]; abel

/-- The residuals that are recorded are the ones of the iterates: the last one belongs to the vector that is returned; all others are larger
than the tolerance; and the method stops only if the last one is not, or after all iterations. -/
theorem residuals (m : Method K V) (lin : ∀ (u v : V) (c : K), m.A (u + c • v) = m.A u + c • m.A v) (b x0 mem : V) (n : Nat)
    (s : St K V) (l : List K) (h : run m b x0 mem n = some (s, l)) :
    l.getLast? = some (m.sqrt (m.ip (b - m.A s.x) (b - m.A s.x))) ∧ (∀ ρ ∈ l.dropLast, m.tol < ρ) ∧
      (m.sqrt (m.ip (b - m.A s.x) (b - m.A s.x)) ≤ m.tol ∨ l.length = n + 1) ∧ l.length ≤ n + 1 := by
  have hloop : ∀ (n : Nat) (s0 s : St K V) (l : List K) (h : loop m n s0 = some (s, l)) (hr : s0.r = b - m.A s0.x),
      (n = 0 → s = s0 ∧ l = []) ∧ (0 < n → l.getLast? = some (m.sqrt (m.ip (b - m.A s.x) (b - m.A s.x)))) ∧
        (∀ ρ ∈ l.dropLast, m.tol < ρ) ∧
        (m.sqrt (m.ip (b - m.A s.x) (b - m.A s.x)) ≤ m.tol ∨ l.length = n) ∧ l.length ≤ n := by
    intro n
    induction n with
    | zero =>
      intro s0 s l h hr
      simp only [loop, Option.some.injEq, Prod.mk.injEq] at h
      obtain ⟨rfl, rfl⟩ := h
      simp
    | succ n ih =>
      intro s0 s l h hr
      rw [loop, Option.bind_eq_some_iff] at h
      obtain ⟨t, ht, h⟩ := h
      have hrt := advance_residual m lin b s0 t ht hr
      dsimp only at h
      split at h
      · rename_i hc
        simp only [Option.some.injEq, Prod.mk.injEq] at h
        obtain ⟨rfl, rfl⟩ := h
        rw [hrt] at hc ⊢
        refine ⟨by simp, by simp, by simp, ?_, by simp⟩
        rcases hc with hc | hc
        · exact Or.inl hc
        · right; simp [hc]
      · rename_i hc
        rw [Option.bind_eq_some_iff] at h
        obtain ⟨u, hu, h⟩ := h
        rw [Option.map_eq_some_iff] at h
        obtain ⟨⟨s', l'⟩, hl, h⟩ := h
        simp only [Prod.mk.injEq] at h
        obtain ⟨rfl, rfl⟩ := h
        have hru : u.r = b - m.A u.x := by
          unfold direct at hu
          split at hu
          · cases hu
          · simp only [Option.some.injEq] at hu
            subst hu; exact hrt
        push Not at hc
        obtain ⟨-, h2, h3, h4, h5⟩ := ih u s' l' hl hru
        have hn : 0 < n := by omega
        have h2 := h2 hn
        have hne : l' ≠ [] := by rintro rfl; simp at h2
        refine ⟨by simp, fun _ => ?_, ?_, ?_, ?_⟩
        · rw [List.getLast?_cons_of_ne_nil hne]; exact h2
        · intro ρ hρ
          rw [List.dropLast_cons_of_ne_nil hne, List.mem_cons] at hρ
          rcases hρ with rfl | hρ
          · exact hc.1
          · exact h3 ρ hρ
        · simpa using h4
        · simpa using h5
  unfold run at h
  dsimp only at h
  split at h
  · rename_i hc
    simp only [Option.some.injEq, Prod.mk.injEq] at h
    obtain ⟨rfl, rfl⟩ := h
    refine ⟨by simp, by simp, Or.inl hc, by simp⟩
  · rename_i hc
    rw [Option.map_eq_some_iff] at h
    obtain ⟨⟨s', l'⟩, hl, h⟩ := h
    simp only [Prod.mk.injEq] at h
    obtain ⟨rfl, rfl⟩ := h
    obtain ⟨h1, h2, h3, h4, h5⟩ := hloop n _ s' l' hl rfl
    rcases Nat.eq_zero_or_pos n with hn | hn
    · obtain ⟨rfl, rfl⟩ := h1 hn
      subst hn
      simp
    · have h2 := h2 hn
      have hne : l' ≠ [] := by rintro rfl; simp at h2
      refine ⟨by rw [List.getLast?_cons_of_ne_nil hne]; exact h2, ?_, by simpa using h4, by simpa using h5⟩
      intro ρ hρ
      rw [List.dropLast_cons_of_ne_nil hne, List.mem_cons] at hρ
      rcases hρ with rfl | hρ
      · exact not_le.1 hc
      · exact h3 ρ hρ

/-- The step is optimal along its direction. -/
theorem advance_orthogonal {m : Method K V} (hm : Symmetric m) (s t : St K V) (h : advance m s = some t)
    (hp : m.ip s.r s.p = s.beta2) : m.ip t.r s.p = 0 := by
  obtain ⟨h0, -, hr, -⟩ := advance_spec m s t h
  rw [hr, hm.sub, hp, hm.self, div_mul_cancel₀ _ h0, sub_self]

/-- No iterate has a larger energy than the initial vector, for every preconditioner and every content of the memory. -/
theorem descent [IsStrictOrderedRing K] (m : Method K V) (hm : Symmetric m) (pos : ∀ v, 0 ≤ m.ip v (m.A v)) (b x0 mem : V) (n : Nat)
    (s : St K V) (l : List K) (h : run m b x0 mem n = some (s, l)) :
    m.ip s.x (m.A s.x) - 2 * m.ip b s.x ≤ m.ip x0 (m.A x0) - 2 * m.ip b x0 := by
  have hloop : ∀ (n : Nat) (s0 s : St K V) (l : List K) (h : loop m n s0 = some (s, l)) (hr : s0.r = b - m.A s0.x)
      (hp : m.ip s0.r s0.p = s0.beta2),
      m.ip s.x (m.A s.x) - 2 * m.ip b s.x ≤ m.ip s0.x (m.A s0.x) - 2 * m.ip b s0.x := by
    intro n
    induction n with
    | zero =>
      intro s0 s l h hr hp
      simp only [loop, Option.some.injEq, Prod.mk.injEq] at h
      obtain ⟨rfl, rfl⟩ := h
      exact le_rfl
    | succ n ih =>
      intro s0 s l h hr hp
      rw [loop, Option.bind_eq_some_iff] at h
      obtain ⟨t, ht, h⟩ := h
      have hrt := advance_residual m hm.lin b s0 t ht hr
      have hort := advance_orthogonal hm s0 t ht hp
      have hstep : m.ip t.x (m.A t.x) - 2 * m.ip b t.x ≤ m.ip s0.x (m.A s0.x) - 2 * m.ip b s0.x := by
        obtain ⟨h0, hx, -⟩ := advance_spec m s0 t ht
        have hq := pos s0.p
        have hbp : s0.beta2 = m.ip b s0.p - m.ip s0.x (m.A s0.p) := by
          rw [← hp, hr, ← hm.self s0.x, show b - m.A s0.x = b - (1 : K) • m.A s0.x by rw [one_smul], hm.sub, one_mul]
        rw [hx, hm.lin, hm.bil', hm.bil', hm.bil, hm.bil]
        have hsw : m.ip s0.p (m.A s0.x) = m.ip s0.x (m.A s0.p) := by rw [hm.symm, hm.self]
        rw [hsw]
        generalize m.ip s0.p (m.A s0.p) = q at *
        have hq' : 0 < q := lt_of_le_of_ne hq (Ne.symm h0)
        have e : s0.beta2 / q * q = s0.beta2 := div_mul_cancel₀ _ h0
        have hnn : 0 ≤ s0.beta2 / q * s0.beta2 := by
          rw [div_mul_eq_mul_div]; exact div_nonneg (mul_self_nonneg _) hq'.le
        generalize s0.beta2 / q = al at *
        have e2 : al * (al * q) = al * s0.beta2 := by rw [e]
        rw [hbp] at hnn e2
        linarith
      dsimp only at h
      split at h
      · simp only [Option.some.injEq, Prod.mk.injEq] at h
        obtain ⟨rfl, rfl⟩ := h
        exact hstep
      · rw [Option.bind_eq_some_iff] at h
        obtain ⟨u, hu, h⟩ := h
        rw [Option.map_eq_some_iff] at h
        obtain ⟨⟨s', l'⟩, hl, h⟩ := h
        simp only [Prod.mk.injEq] at h
        obtain ⟨rfl, rfl⟩ := h
        unfold direct at hu
        split at hu
        · cases hu
        · simp only [Option.some.injEq] at hu
          have h1 := ih u s' l' hl (by subst hu; exact hrt) (by
            subst hu
            dsimp only
            rw [hm.bil', (advance_spec m s0 t ht).2.2.2.1, hort, mul_zero, add_zero])
          have h2 : u.x = t.x := by subst hu; rfl
          rw [h2] at h1
          exact le_trans h1 hstep
  unfold run at h
  dsimp only at h
  split at h
  · simp only [Option.some.injEq, Prod.mk.injEq] at h
    obtain ⟨rfl, rfl⟩ := h
    exact le_rfl
  · rw [Option.map_eq_some_iff] at h
    obtain ⟨⟨s', l'⟩, hl, h⟩ := h
    simp only [Prod.mk.injEq] at h
    obtain ⟨rfl, rfl⟩ := h
    exact hloop n _ s' l' hl rfl rfl

/-- Consecutive directions are conjugate for every preconditioner, if the memory has the previous residual, which holds from the second
iteration on. -/
theorem conjugate_partial (m : Method K V) (hm : Symmetric m) (s t u : St K V) (h1 : advance m s = some t) (h2 : direct m t = some u)
    (hold : s.rold = s.r) (hp : m.ip s.r s.p = s.beta2) :
    m.ip u.p (m.A s.p) = 0 ∧ u.rold = u.r ∧ m.ip u.r u.p = u.beta2 := by
  have hort := advance_orthogonal hm s t h1 hp
  obtain ⟨h0, -, hr, hpp, ho, hb⟩ := advance_spec m s t h1
  unfold direct at h2
  split at h2
  · cases h2
  · rename_i hb0
    simp only [Option.some.injEq] at h2
    subst h2
    dsimp only
    refine ⟨?_, rfl, by rw [hm.bil', hpp, hort, mul_zero, add_zero]⟩
    have hd : t.rold = (0 : V) - (s.beta2 / m.ip s.p (m.A s.p)) • m.A s.p := by
      rw [ho, hold, hr]; abel
    have hz : ∀ w, m.ip (0 : V) w = 0 := fun w => by
      have := hm.bil 0 0 w (-1)
      simpa using this
    rw [hm.bil, hpp, hd, hm.sub, hz, hb, hm.symm (m.A s.p)]
    rw [hb] at hb0
    field_simp
    ring

/-- In the first iteration the next direction depends on the memory that is not initialised, and so does the solution after two iterations: the
exact solution is found only for suitable contents. -/
theorem memory_fails : ∃ (m : Method ℚ (ℚ × ℚ)) (b x0 : ℚ × ℚ), Symmetric m ∧
    ((run m b x0 (1, 1) 2).map fun q => b - m.A q.1.x) = some (0, 0) ∧
    ((run m b x0 (7, 1) 2).map fun q => decide (b - m.A q.1.x = (0, 0))) = some false := by
  refine ⟨⟨fun v => (v.1, 2 * v.2), id, fun u v => u.1 * v.1 + u.2 * v.2, id, 0⟩, (1, 1), (0, 0), ⟨?_, ?_, ?_, ?_⟩, ?_, ?_⟩
  · intro u v c; ext <;> simp <;> ring
  · intro u v w c; simp; ring
  · intro u v; dsimp only; ring
  · intro u v; dsimp only; ring
  · decide +kernel
  · decide +kernel

/-- Without preconditioner: if the memory is zero or the first residual, the numbers that are recorded are the norms of the residuals. -/
theorem plain_partial (m : Method K V) (hm : Symmetric m) (pos : ∀ v, 0 ≤ m.ip v v)
    (sq : ∀ t, 0 ≤ t → m.sqrt t * m.sqrt t = t) (b x0 mem : V) (hmem : mem = 0 ∨ mem = b - m.A x0) (n : Nat)
    (s : St K V) (l : List K) (h : plain m b x0 mem n = some (s, l)) :
    l.getLast? = some (m.sqrt (m.ip (b - m.A s.x) (b - m.A s.x))) ∧
      (m.sqrt (m.ip (b - m.A s.x) (b - m.A s.x)) ≤ m.tol ∨ l.length = n + 1) := by
  have hz : ∀ w, m.ip (0 : V) w = 0 := fun w => by
    have := hm.bil 0 0 w (-1)
    simpa using this
  have hz' : ∀ w, m.ip w (0 : V) = 0 := fun w => by rw [hm.symm, hz]
  -- `q` is the previous direction
  have hloop : ∀ (n : Nat) (s0 s : St K V) (l : List K) (_ : plainLoop m n s0 = some (s, l)) (_ : s0.r = b - m.A s0.x)
      (q : V) (c : K) (_ : s0.p = s0.r + c • q) (_ : m.ip s0.r q = 0) (_ : m.ip (m.A s0.p) q = 0) (_ : s0.beta2 = m.ip s0.r s0.r)
      (_ : s0.rold = 0 ∨ s0.rold = s0.r),
      (n = 0 → s = s0 ∧ l = []) ∧ (0 < n → l.getLast? = some (m.sqrt (m.ip (b - m.A s.x) (b - m.A s.x)))) ∧
        (m.sqrt (m.ip (b - m.A s.x) (b - m.A s.x)) ≤ m.tol ∨ l.length = n) := by
    intro n
    induction n with
    | zero =>
      intro s0 s l h _ q c _ _ _ _ _
      simp only [plainLoop, Option.some.injEq, Prod.mk.injEq] at h
      obtain ⟨rfl, rfl⟩ := h
      simp
    | succ n ih =>
      intro s0 s l h hr q c hpq hrq hApq hb2 hold
      rw [plainLoop, Option.bind_eq_some_iff] at h
      obtain ⟨t, ht, h⟩ := h
      have hrt := advance_residual m hm.lin b s0 t ht hr
      have hp : m.ip s0.r s0.p = s0.beta2 := by rw [hpq, hm.bil', hrq, mul_zero, add_zero, hb2]
      have hort := advance_orthogonal hm s0 t ht hp
      obtain ⟨h0, -, hr', hpp, ho, hb⟩ := advance_spec m s0 t ht
      have hrq' : m.ip t.r q = 0 := by rw [hr', hm.sub, hrq, hApq, mul_zero, sub_zero]
      have hrr : m.ip t.r s0.r = 0 := by
        have : s0.r = s0.p - c • q := by rw [hpq]; abel
        rw [this, hm.sub', hort, hrq', mul_zero, sub_zero]
      have hres : m.ip t.r t.rold = m.ip t.r t.r := by
        rw [ho]
        have e : t.r - s0.rold = t.r - (1 : K) • s0.rold := by rw [one_smul]
        rw [e, hm.sub']
        rcases hold with hold | hold <;> rw [hold]
        · rw [hz']; ring
        · rw [hrr]; ring
      dsimp only at h
      rw [hres] at h
      split at h
      · rename_i hc
        simp only [Option.some.injEq, Prod.mk.injEq] at h
        obtain ⟨rfl, rfl⟩ := h
        rw [hrt] at hc ⊢
        refine ⟨by simp, by simp, ?_⟩
        rcases hc with hc | hc
        · exact Or.inl hc
        · right; simp [hc]
      · rename_i hc
        rw [Option.bind_eq_some_iff] at h
        obtain ⟨u, hu, h⟩ := h
        rw [Option.map_eq_some_iff] at h
        obtain ⟨⟨s', l'⟩, hl, h⟩ := h
        simp only [Prod.mk.injEq] at h
        obtain ⟨rfl, rfl⟩ := h
        push Not at hc
        unfold plainDirect at hu
        split at hu
        · cases hu
        · rename_i hb0
          simp only [Option.some.injEq] at hu
          rw [sq _ (pos _)] at hu
          obtain ⟨-, h2, h4⟩ := ih u s' l' hl (by subst hu; exact hrt) s0.p (m.ip t.r t.r / s0.beta2) (by
              subst hu; dsimp only; rw [hpp, hb])
            (by subst hu; exact hort) (by
              subst hu
              dsimp only
              rw [hm.self, hm.bil, hpp, hb]
              have hA : s0.beta2 / m.ip s0.p (m.A s0.p) * m.ip t.r (m.A s0.p) = - m.ip t.r t.r := by
                have : m.ip t.r t.r = m.ip t.r (s0.r - (s0.beta2 / m.ip s0.p (m.A s0.p)) • m.A s0.p) := by rw [← hr']
                rw [this, hm.sub', hrr]; ring
              rw [hb] at hb0
              have e : m.ip t.r t.r = - (s0.beta2 / m.ip s0.p (m.A s0.p) * m.ip t.r (m.A s0.p)) := by rw [hA, neg_neg]
              rw [e]
              field_simp
              ring) (by subst hu; rfl) (by subst hu; exact Or.inr rfl)
          have hn : 0 < n := by omega
          have h2 := h2 hn
          have hne : l' ≠ [] := by rintro rfl; simp at h2
          refine ⟨by simp, fun _ => ?_, ?_⟩
          · rw [List.getLast?_cons_of_ne_nil hne]; exact h2
          · simpa using h4
  unfold plain at h
  dsimp only at h
  split at h
  · rename_i hc
    simp only [Option.some.injEq, Prod.mk.injEq] at h
    obtain ⟨rfl, rfl⟩ := h
    exact ⟨by simp, Or.inl hc⟩
  · rw [Option.map_eq_some_iff] at h
    obtain ⟨⟨s', l'⟩, hl, h⟩ := h
    simp only [Prod.mk.injEq] at h
    obtain ⟨rfl, rfl⟩ := h
    obtain ⟨h1, h2, h4⟩ := hloop n _ s' l' hl rfl 0 0 (by simp) (hz' _) (hz' _) (sq _ (pos _)) hmem
    rcases Nat.eq_zero_or_pos n with hn | hn
    · obtain ⟨rfl, rfl⟩ := h1 hn
      subst hn
      simp
    · have h2 := h2 hn
      have hne : l' ≠ [] := by rintro rfl; simp at h2
      exact ⟨by rw [List.getLast?_cons_of_ne_nil hne]; exact h2, by simpa using h4⟩

/-- For every problem there is a content of the memory with which the method stops after the first iteration and records zero as residual. -/
theorem plain_fails (m : Method K V) (hm : Symmetric m) (h0 : m.sqrt 0 = 0) (htol : 0 ≤ m.tol) (b x0 : V) (n : Nat)
    (hr : m.tol < m.sqrt (m.ip (b - m.A x0) (b - m.A x0))) (hA : m.ip (b - m.A x0) (m.A (b - m.A x0)) ≠ 0) :
    ∃ mem s, plain m b x0 mem (n + 1) = some (s, [m.sqrt (m.ip (b - m.A x0) (b - m.A x0)), 0]) := by
  have hz : ∀ w, m.ip w (0 : V) = 0 := fun w => by
    rw [hm.symm]
    have := hm.bil 0 0 w (-1)
    simpa using this
  set r := b - m.A x0 with hrdef
  have e : plain m b x0 (r - (m.sqrt (m.ip r r) * m.sqrt (m.ip r r) / m.ip r (m.A r)) • m.A r) (n + 1) =
      some (⟨x0 + (m.sqrt (m.ip r r) * m.sqrt (m.ip r r) / m.ip r (m.A r)) • r,
        r - (m.sqrt (m.ip r r) * m.sqrt (m.ip r r) / m.ip r (m.A r)) • m.A r, r, 0, m.sqrt (m.ip r r) * m.sqrt (m.ip r r)⟩,
        [m.sqrt (m.ip r r), 0]) := by
    unfold plain
    dsimp only
    rw [← hrdef, if_neg (not_le.2 hr), plainLoop, advance]
    dsimp only
    rw [if_neg hA, Option.bind_some]
    dsimp only
    rw [sub_self, hz, h0, if_pos (Or.inl htol), Option.map_some]
  exact ⟨_, _, e⟩

/-- The exact solution after two iterations, with and without preconditioner; another content of the memory. -/
theorem sample_case :
    let m : Method ℚ (ℚ × ℚ) := ⟨fun v => (v.1, 2 * v.2), fun v => (v.1, v.2 / 3), fun u v => u.1 * v.1 + u.2 * v.2, id, 0⟩
    (run m (1, 1) (0, 0) (1, 1) 2).map (fun q => (q.1.x, q.2.length)) = some ((1, 1 / 2), 3) ∧
    (run m (1, 1) (1, 1 / 2) (1, 1) 2).map (fun q => (q.1.x, q.2)) = some ((1, 1 / 2), [0]) ∧
    (plain m (1, 1) (0, 0) (1 / 3, -1 / 3) 2).map (fun q => q.2.length) = some 3 := by
  decide +kernel

end PyNucleus.Props.C118
