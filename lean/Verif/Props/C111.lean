import Verif.Proof.Hierarchies
import Mathlib.Tactic.Tauto

/-!
# C111: levels of a hierarchy
-/

namespace PyNucleus.Props.C111

open PyNucleus.Hierarchies

/-- What is asked for: the level has a dof map, a prolongation, an assembled matrix. -/
def WantsDofMap (a : Assemble) (noRef i : Nat) : Prop := a ≠ .none ∧ (a = .dofmapOnlyLast → i = noRef)

def WantsProlongation (a : Assemble) : Prop := a ≠ .none ∧ a ≠ .dofmapsOnly ∧ a ≠ .dofmapOnlyLast

def WantsMatrix (a : Assemble) (moved : Bool) (noRef i : Nat) : Prop :=
  a = .ALL ∨ (a = .all ∨ a = .last ∨ a = .firstLast) ∧ i = noRef ∨ a = .all ∧ moved = true ∨ a = .firstLast ∧ i = 0

/-- Building always succeeds and gives one level more than refinements; each level has what its type of build asks for, all
but the first and the last one lose their dof map unless they are to be kept; prolongations are on all levels but the first. -/
theorem build_levels (s noRef : Nat) (k : Keep) (a : Assemble) (moved keepAll keep0 : Bool) :
    ∃ ls, build s noRef k a moved keepAll keep0 = some ls ∧ ls.length = noRef + 1 ∧ levelNo s ls = s + noRef ∧
      ∀ i, i ≤ noRef → ∃ l, ls.reverse[i]? = some l ∧
        (l.last = true ↔ i = noRef ∧ 0 < noRef) ∧
        (l.dofMap = true ↔ WantsDofMap a noRef i ∧ (i = 0 ∨ i = noRef ∨ keepAll = true)) ∧
        (l.prolongation = true ↔ WantsProlongation a ∧ 0 < i) ∧
        (hasFlag l.built ASSEMBLY = true ↔ WantsMatrix a moved noRef i) ∧
        (l.mesh = true ↔ i = noRef ∨ (if i = 0 then keep0 = true else k = .all)) := by
  have ht := fun i hi => buildTypes_getD a moved noRef i hi
  have hb := refineTimes_spec s noRef (policy k noRef) (buildTypes a moved noRef) keepAll keep0
    (policy_getD k noRef 0 (Nat.zero_le _)).1 (ht 0 (Nat.zero_le _)).1 (by
      intro i hi h
      rw [(ht (i + 1) (by omega)).2] at h ⊢
      rw [(ht i (by omega)).2]
      exact typeOf_flags a moved noRef i h) noRef (Nat.le_refl _)
  refine ⟨_, hb, by simp, ?_, fun i hi => ⟨expected noRef (policy k noRef) (buildTypes a moved noRef) keepAll keep0 noRef i, ?_, ?_⟩⟩
  · have := levelNo_eq s (((List.range (noRef + 1)).map
      (expected noRef (policy k noRef) (buildTypes a moved noRef) keepAll keep0 noRef)).reverse) (by simp)
    simp only [List.length_reverse, List.length_map, List.length_range] at this
    omega
  · rw [List.reverse_reverse, List.getElem?_map, List.getElem?_range (by omega)]; rfl
  · have hp := (policy_getD k noRef i hi).2
    simp only [expected, (ht i hi).2, hp]
    refine ⟨?_, ?_, ?_, ?_, ?_⟩
    · simp; omega
    · have : hasFlag (typeOf a moved noRef i) DOFMAPS = true ↔ WantsDofMap a noRef i := by
        cases a <;> simp only [typeOf, WantsDofMap] <;> (try split) <;> simp_all [hasFlag, FULL_BUILD, SPARSITY_ONLY, RESTRICTION_PROLONGATION_ONLY, NO_BUILD, DOFMAPS, OVERLAPS, RESTRICTION_PROLONGATION, ASSEMBLY, SPARSITY_PATTERN]
      simp only [Bool.and_eq_true, this, Bool.or_eq_true, beq_iff_eq]
      tauto
    · have : i ≠ 0 → (hasFlag (typeOf a moved noRef i) RESTRICTION_PROLONGATION = true ↔ WantsProlongation a) := by
        intro _
        cases a <;> simp only [typeOf, WantsProlongation] <;> (try split) <;> simp_all [hasFlag, FULL_BUILD, SPARSITY_ONLY, RESTRICTION_PROLONGATION_ONLY, NO_BUILD, DOFMAPS, OVERLAPS, RESTRICTION_PROLONGATION, ASSEMBLY, SPARSITY_PATTERN]
      simp only [Bool.and_eq_true, bne_iff_ne]
      constructor
      · rintro ⟨h1, h2⟩; exact ⟨(this h2).1 h1, Nat.pos_of_ne_zero h2⟩
      · rintro ⟨h1, h2⟩; exact ⟨(this (by omega)).2 h1, by omega⟩
    · cases a <;> simp only [typeOf, WantsMatrix] <;> (try split) <;> simp_all [hasFlag, FULL_BUILD, SPARSITY_ONLY, RESTRICTION_PROLONGATION_ONLY, NO_BUILD, DOFMAPS, OVERLAPS, RESTRICTION_PROLONGATION, ASSEMBLY, SPARSITY_PATTERN] <;> tauto
    · by_cases h0 : i = 0
      · subst h0; simp
      · cases k <;> simp [h0]

/-- Another refinement after the last level fails. -/
theorem no_more (s noRef : Nat) (k : Keep) (a : Assemble) (moved keepAll keep0 isLast : Bool) (policies : List Bool) (types : List Nat)
    (h : 0 < noRef) (ls : List Level) (hb : build s noRef k a moved keepAll keep0 = some ls) :
    refine s policies types keepAll isLast ls = none := by
  obtain ⟨ls', h1, h2, -, h4⟩ := build_levels s noRef k a moved keepAll keep0
  rw [hb, Option.some.injEq] at h1
  subst h1
  obtain ⟨l, g1, g2, -⟩ := h4 noRef (Nat.le_refl _)
  match ls, h2, g1 with
  | top :: rest, h2, g1 =>
    have hl : top = l := by
      rw [List.reverse_cons, List.getElem?_append_right (by simp at h2 ⊢; omega)] at g1
      simp only [List.length_cons, Nat.add_right_cancel_iff] at h2
      simpa [h2] using g1
    have : top.last = true := by rw [hl]; exact g2.2 ⟨rfl, h⟩
    unfold refine
    dsimp only
    split
    · rw [if_pos this]
    · rfl

/-- `keepMeshes = 'last'` and `'none'` keep the mesh of the first level, and both that of the last one. -/
theorem keep_fails (s noRef : Nat) (k : Keep) (a : Assemble) (moved keepAll : Bool) :
    ∃ ls first last, build s noRef k a moved keepAll true = some ls ∧ ls.reverse[0]? = some first ∧
      ls.reverse[noRef]? = some last ∧ first.mesh = true ∧ last.mesh = true := by
  obtain ⟨ls, h1, -, -, h4⟩ := build_levels s noRef k a moved keepAll true
  obtain ⟨f, f1, -, -, -, -, f2⟩ := h4 0 (Nat.zero_le _)
  obtain ⟨l, l1, -, -, -, -, l2⟩ := h4 noRef (Nat.le_refl _)
  exact ⟨ls, f, l, h1, f1, l1, f2.2 (Or.inr (by simp)), l2.2 (Or.inl rfl)⟩

/-- Without refinements the only level is not marked as the last one. -/
theorem single_fails (s : Nat) (k : Keep) (a : Assemble) (moved keepAll keep0 : Bool) :
    ∃ l, build s 0 k a moved keepAll keep0 = some [l] ∧ l.last = false := by
  obtain ⟨ls, h1, h2, -, h4⟩ := build_levels s 0 k a moved keepAll keep0
  obtain ⟨l, g1, g2, -⟩ := h4 0 (Nat.le_refl _)
  match ls, h2, g1 with
  | [x], _, g1 =>
    simp only [List.reverse_singleton, List.getElem?_cons_zero, Option.some.injEq] at g1
    subst g1
    refine ⟨x, h1, ?_⟩
    cases hx : x.last with
    | false => rfl
    | true => exact absurd (g2.1 hx).2 (by omega)

/-- Three levels. -/
theorem sample_case :
    (build 4 2 .last .all false false true).map (fun ls => ls.reverse.map fun l => (l.mesh, l.dofMap, l.prolongation, l.built)) =
      some [(true, true, false, 15), (false, false, true, 15), (true, true, true, 27)] ∧
    (build 0 2 .all .firstLast false true true).map (fun ls => ls.reverse.map fun l => (l.mesh, l.dofMap, l.prolongation, l.built)) =
      some [(true, true, false, 27), (true, true, true, 3), (true, true, true, 27)] := by
  decide +kernel

end PyNucleus.Props.C111
