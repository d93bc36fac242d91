import Verif.Proof.LevelMatrices
import Mathlib.Algebra.Ring.Rat

/-!
# C109: matrices on the levels of a hierarchy
-/

namespace PyNucleus.Props.C109

open PyNucleus.LevelMatrices

variable {K V : Type} [Semiring K] [AddCommMonoid V] [Module K V]

/-- Without reaction each of the coarser levels has the matrices of the finest level, multiplied with all the
prolongations in between, and is complete. -/
theorem galerkin (n : Nat) (Ps : Nat → V →ₗ[K] V) (dm : Option (V → V)) (dms : Nat → Option (V → V)) (S : V) (D : Option V)
    (M : V) (mass : Bool) :
    ∃ fine ls, assemble (.none : Reaction K) S D M mass (prolongation n Ps) dm = some fine ∧
      buildCoarser (.none : Reaction K) fine (coarse mass D.isSome n Ps dms) = some ls ∧ ls.length = n + 1 ∧
      ∀ k, k ≤ n → ∃ l, ls[k]? = some l ∧ l.matA = some (through (fun i => Ps i) k S) ∧
        l.S = some (through (fun i => Ps i) k S) ∧ l.D = D.map (through (fun i => Ps i) k) ∧
        l.M = (if mass then some (through (fun i => Ps i) k M) else none) ∧ l.full = true := by
  refine ⟨⟨some S, D, if mass then some M else none, .alias, prolongation n Ps, dm, true⟩, ?_⟩
  obtain ⟨ls, h1, h2, h3⟩ := chain_none n Ps dms
    ⟨some S, D, if mass then some M else none, .alias, prolongation n Ps, dm, true⟩ mass D.isSome S D
    (if mass then some M else none) rfl rfl rfl rfl rfl rfl rfl (by cases mass <;> rfl)
  refine ⟨ls, rfl, h1, h2, fun k hk => ?_⟩
  obtain ⟨l, g1, g2, g3, g4, g5, g6⟩ := h3 k hk
  exact ⟨l, g1, g3, g2, g4, by rw [g5]; cases mass <;> rfl, g6⟩

/-- Levels that are assembled completely stay as they are without reaction. -/
theorem assembled (cur : Level V) (ls : List (Level V)) (h : ∀ l ∈ ls, l.full = true) :
    buildCoarser (.none : Reaction K) cur ls = some (cur :: ls) := by
  induction ls generalizing cur with
  | nil => rfl
  | cons p ps ih =>
    have hf : p.full = true := h p List.mem_cons_self
    have hr : ∀ X X' : Option V, restrictInto cur.P X X' p.full = X' := by
      intro X X'
      rw [hf]
      unfold restrictInto
      split <;> simp_all
    have ha : ∀ A, aliasA cur.P cur.S p.S p.full A = A := by
      intro A
      rw [hf]
      unfold aliasA
      split <;> simp_all
    have hall : restrictAll cur p = p := by
      unfold restrictAll
      rw [hr, hr, hr, ha]
    have hc : coarsen (.none : Reaction K) cur p = some p := by
      unfold coarsen
      rw [hall]
      have : addReaction (.none : Reaction K) cur p = some p := by
        unfold addReaction
        split <;> rfl
      rw [this, Option.map_some, ← hf]
    simp [buildCoarser, hc, ih p fun l hl => h l (List.mem_cons_of_mem _ hl)]

/-- With a constant reaction the finest level has S + c M; the coarser level number k has, instead of the restriction of
this matrix, the stiffness matrix plus k times the reaction term, also in the place of its stiffness matrix. -/
theorem reaction (c : K) (n : Nat) (Ps : Nat → V →ₗ[K] V) (dm : Option (V → V)) (dms : Nat → Option (V → V)) (S : V)
    (D : Option V) (M : V) (mass : Bool) :
    ∃ fine ls, assemble (.const c) S D M mass (prolongation n Ps) dm = some fine ∧
      buildCoarser (.const c) fine (coarse true D.isSome n Ps dms) = some ls ∧ ls.length = n + 1 ∧
      fine.matA = some (S + c • M) ∧ fine.S = some S ∧ ls[0]? = some fine ∧
      ∀ k, 1 ≤ k → k ≤ n → ∃ l, ls[k]? = some l ∧
        l.matA = some (through (fun i => Ps i) k S + k • (c • through (fun i => Ps i) k M)) ∧ l.S = l.matA ∧
        l.M = some (through (fun i => Ps i) k M) ∧ l.full = true := by
  refine ⟨⟨some S, D, some M, .own (S + c • M), prolongation n Ps, dm, true⟩, ?_⟩
  obtain ⟨ls, h1, h2, h3, h4⟩ := chain_const c n Ps dms
    ⟨some S, D, some M, .own (S + c • M), prolongation n Ps, dm, true⟩ D.isSome S M (S + c • M) rfl rfl rfl rfl
  refine ⟨ls, rfl, h1, h2, rfl, rfl, h3, fun k k1 k2 => ?_⟩
  obtain ⟨l, g1, g2, g3, g4, g5⟩ := h4 k k1 k2
  exact ⟨l, g1, g3.trans g2, g3.symm, g4, g5⟩

/-- With at most one coarser level its matrix is the restriction of the matrix on the finest level. -/
theorem reaction_partial (c : K) (Ps : Nat → V →ₗ[K] V) (dm : Option (V → V)) (dms : Nat → Option (V → V)) (S : V)
    (D : Option V) (M : V) (mass : Bool) :
    ∃ fine coarser, assemble (.const c) S D M mass (some (Ps 0)) dm = some fine ∧
      buildCoarser (.const c) fine (coarse true D.isSome 1 Ps dms) = some [fine, coarser] ∧
      fine.matA = some (S + c • M) ∧ coarser.matA = some (Ps 0 (S + c • M)) := by
  obtain ⟨fine, ls, h1, h2, h3, h4, _, h6, h7⟩ := reaction c 1 Ps dm dms S D M mass
  obtain ⟨l, g1, g2, _⟩ := h7 1 le_rfl le_rfl
  refine ⟨fine, l, by simpa [prolongation] using h1, ?_, h4, ?_⟩
  · rw [h2]
    match ls, h3, h6, g1 with
    | [a, b], _, h6, g1 =>
      simp only [List.getElem?_cons_zero, Option.some.injEq, List.getElem?_cons_succ] at h6 g1
      rw [h6, g1]
  · rw [g2]; simp [through]

/-- With two coarser levels it is not. -/
theorem reaction_fails :
    ∃ (Ps : Nat → ℚ →ₗ[ℚ] ℚ) (S M : ℚ) (fine a b : Level ℚ),
      assemble (.const (1 : ℚ)) S none M false (prolongation 2 Ps) none = some fine ∧
      buildCoarser (.const (1 : ℚ)) fine (coarse true false 2 Ps fun _ => none) = some [fine, a, b] ∧
      fine.matA = some 1 ∧ b.matA ≠ some (Ps 1 (Ps 0 1)) := by
  refine ⟨fun _ => LinearMap.id, 0, 1, _, _, _, rfl, rfl, ?_, ?_⟩
  · simp [Level.matA]
  · simp [Level.matA, restrictAll, sparsity, restrictInto, aliasA, addToA, prolongation]

/-- A level that is assembled completely gets the reaction term twice. -/
theorem assembled_fails (c : K) (S0 M0 S1 M1 : V) (P : V → V) (mass : Bool) :
    ∃ fine prev l, assemble (.const c) S0 none M0 mass (some P) none = some fine ∧
      assemble (.const c) S1 none M1 mass none none = some prev ∧
      buildCoarser (.const c) fine [prev] = some [fine, l] ∧ prev.matA = some (S1 + c • M1) ∧
      l.matA = some (S1 + c • M1 + c • M1) := by
  exact ⟨_, _, _, rfl, rfl, rfl, rfl, rfl⟩

/-- With a variable reaction there is an error if the dof map of the level below is not kept. -/
theorem variable_fails (n : Nat) (Ps : Nat → V →ₗ[K] V) (dms : Nat → Option (V → V)) (S : V) (D : Option V) (M : V) (mass : Bool)
    (scale : V → V) (h : dms 0 = none) :
    ∃ fine, assemble (.func : Reaction K) S D M mass (prolongation (n + 1) Ps) (some scale) = some fine ∧
      buildCoarser (.func : Reaction K) fine (coarse true D.isSome (n + 1) Ps dms) = none := by
  refine ⟨_, rfl, ?_⟩
  cases D <;>
  simp [coarse, buildCoarser, coarsen, addReaction, restrictAll, sparsity, restrictInto, aliasA, addToA, prolongation,
    Level.matA, h]

/-- With it the coarse matrix is the sum of the restricted stiffness matrix and the scaled restricted mass matrix. -/
theorem variable_partial (Ps : Nat → V →ₗ[K] V) (dms : Nat → Option (V → V)) (S : V) (D : Option V) (M : V) (mass : Bool)
    (scale scale' : V → V) (h : dms 0 = some scale') :
    ∃ fine l, assemble (.func : Reaction K) S D M mass (prolongation 1 Ps) (some scale) = some fine ∧
      buildCoarser (.func : Reaction K) fine (coarse true D.isSome 1 Ps dms) = some [fine, l] ∧
      fine.matA = some (S + scale M) ∧ l.matA = some (Ps 0 S + scale' (Ps 0 M)) := by
  refine ⟨_, ⟨some (Ps 0 S + scale' (Ps 0 M)), D.map (Ps 0), some (Ps 0 M), .alias, none, some scale', true⟩, rfl, ?_, rfl, rfl⟩
  cases D <;>
  simp [coarse, buildCoarser, coarsen, addReaction, restrictAll, sparsity, restrictInto, aliasA, addToA, prolongation,
    Level.matA, h]

/-- In symmetric format the entries below the diagonal are those of A + c M, but the diagonal gets the
reaction term once for each of these entries. -/
theorem symmetric_partial (c : K) (A M : Sym K) :
    (addConstSym c A M).data.length = A.data.length ∧ (addConstSym c A M).diagonal.length = A.diagonal.length ∧
    (∀ j, j < A.data.length → (addConstSym c A M).data.getD j 0 = A.data.getD j 0 + c * M.data.getD j 0) ∧
    ∀ i, i < A.diagonal.length → (addConstSym c A M).diagonal.getD i 0 =
      A.diagonal.getD i 0 + A.data.length • (c * M.diagonal.getD i 0) := by
  obtain ⟨h1, h2, h3, h4⟩ := addConstSym_spec c A M A.data.length le_rfl
  refine ⟨h1, h2, fun j hj => ?_, h4⟩
  have := h3 j
  rw [if_pos hj] at this
  exact this

/-- So a diagonal matrix is not changed, and with two entries the diagonal is wrong. -/
theorem symmetric_fails :
    (addConstSym (1 : ℚ) ⟨[], [1]⟩ ⟨[], [1]⟩).diagonal = [1] ∧
    (addConstSym (1 : ℚ) ⟨[0, 0], [0, 0, 0]⟩ ⟨[1, 1], [4, 4, 4]⟩).diagonal = [8, 8, 8] := by
  decide +kernel

/-- Three levels with the prolongations 2 and 3. -/
theorem sample_case :
    ((assemble (.none : Reaction ℚ) (5 : ℚ) none 1 true (some (2 * ·)) none).bind fun fine =>
      (buildCoarser (.none : Reaction ℚ) fine [sparsity true false (some (3 * ·)) none, sparsity true false none none]).map
        fun ls => ls.map fun l => (l.matA, l.M)) =
      some [(some 5, some 1), (some 10, some 2), (some 30, some 6)] := by
  decide +kernel

end PyNucleus.Props.C109
