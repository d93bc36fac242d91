import Verif.Model.DoFMap
import Mathlib.Data.List.GetD

/-! # Renumbering -/

namespace PyNucleus.DoFMap

/-- Invariant of `resetUsingFEVector`. -/
structure Reset.Ok (ind : Int → Bool) (s : Reset) : Prop where
  new : 0 ≤ s.dofNew
  bnd : s.dofNewBoundary ≤ -1
  sign : ∀ d v, s.old2new d = some v → (0 ≤ v ↔ 0 ≤ d ∧ ind d = true)
  range : ∀ d v, s.old2new d = some v → s.dofNewBoundary < v ∧ v < s.dofNew
  inj : ∀ d d' v, s.old2new d = some v → s.old2new d' = some v → d = d'
  onto : ∀ v, s.dofNewBoundary < v → v < s.dofNew → ∃ d, s.old2new d = some v

/-- `s'` comes after `s`, and the dofs of `l` were seen. -/
structure Reset.After (ind : Int → Bool) (s s' : Reset) (l : List Int) : Prop where
  ok : s'.Ok ind
  mono : ∀ d v, s.old2new d = some v → s'.old2new d = some v
  seen : ∀ d ∈ l, ∃ v, s'.old2new d = some v
  only : ∀ d v, s'.old2new d = some v → s.old2new d = some v ∨ d ∈ l

theorem resetOne_spec (ind : Int → Bool) (s : Reset) (h : s.Ok ind) (d : Int) :
    s.After ind (resetOne ind s d).2 [d] ∧ (resetOne ind s d).2.old2new d = some (resetOne ind s d).1 := by
  unfold resetOne
  cases hd : s.old2new d with
  | some v =>
    dsimp only
    refine ⟨⟨h, fun _ _ h => h, fun d' hd' => ?_, fun d' v h => Or.inl h⟩, hd⟩
    rw [List.mem_singleton.1 hd']; exact ⟨v, hd⟩
  | none =>
    have hnew := h.new
    have hbnd := h.bnd
    dsimp only
    have common : ∀ v : Int, (∀ d' w, s.old2new d' = some w → w ≠ v) → (0 ≤ v ↔ 0 ≤ d ∧ ind d = true) → ∀ a b : Int,
        0 ≤ a → b ≤ -1 → b ≤ s.dofNewBoundary → s.dofNew ≤ a → b < v → v < a → (∀ w, b < w → w < a → w = v ∨ (s.dofNewBoundary < w ∧ w < s.dofNew)) →
        s.After ind ⟨Function.update s.old2new d (some v), a, b⟩ [d] := by
      intro v hv hs a b ha hb hb' ha' h1 h2 h3
      refine ⟨⟨ha, hb, fun d' w h' => ?_, fun d' w h' => ?_, fun d1 d2 w h1' h2' => ?_, fun w hw1 hw2 => ?_⟩, fun d' w h' => ?_, fun d' hd' => ?_, fun d' w h' => ?_⟩
      · by_cases q : d' = d
        · subst q; simp only [Function.update_self] at h'; cases h'; exact hs
        · simp only [Function.update_of_ne q] at h'; exact h.sign d' w h'
      · by_cases q : d' = d
        · subst q; simp only [Function.update_self] at h'; cases h'; exact ⟨h1, h2⟩
        · simp only [Function.update_of_ne q] at h'; have := h.range d' w h'; show b < w ∧ w < a; omega
      · by_cases q1 : d1 = d <;> by_cases q2 : d2 = d
        · rw [q1, q2]
        · subst q1; simp only [Function.update_self, Function.update_of_ne q2] at h1' h2'; cases h1'; exact absurd rfl (hv d2 v h2')
        · subst q2; simp only [Function.update_self, Function.update_of_ne q1] at h1' h2'; cases h2'; exact absurd rfl (hv d1 v h1')
        · simp only [Function.update_of_ne q1, Function.update_of_ne q2] at h1' h2'; exact h.inj d1 d2 w h1' h2'
      · rcases h3 w hw1 hw2 with q | q
        · exact ⟨d, by simp [q]⟩
        · obtain ⟨d', hd'⟩ := h.onto w q.1 q.2
          have : d' ≠ d := fun q => by rw [q, hd] at hd'; cases hd'
          exact ⟨d', by simp only [Function.update_of_ne this]; exact hd'⟩
      · have : d' ≠ d := fun q => by rw [q, hd] at h'; cases h'
        simp only [Function.update_of_ne this]; exact h'
      · rw [List.mem_singleton.1 hd']; exact ⟨v, by simp⟩
      · by_cases q : d' = d
        · exact Or.inr (List.mem_singleton.2 q)
        · simp only [Function.update_of_ne q] at h'; exact Or.inl h'
    by_cases hc : 0 ≤ d ∧ ind d = true
    · rw [if_pos hc]
      refine ⟨common s.dofNew (fun d' w h' q => by have := (h.range d' w h').2; omega) (by simp [hc, hnew]) _ _ (by omega) hbnd (by omega) (by omega) (by omega)
        (by omega) (fun w _ _ => by omega), by simp⟩
    · rw [if_neg hc]
      refine ⟨common s.dofNewBoundary (fun d' w h' q => by have := (h.range d' w h').1; omega) (by
        constructor
        · intro q; omega
        · intro q; exact absurd q hc) _ _ hnew (by omega) (by omega) (by omega) (by omega) (by omega) (fun w _ _ => by omega), by simp⟩

theorem Reset.After.trans {ind : Int → Bool} {s s' s'' : Reset} {l l' : List Int} (h : s.After ind s' l) (h' : s'.After ind s'' l') :
    s.After ind s'' (l ++ l') where
  ok := h'.ok
  mono := fun d v q => h'.mono d v (h.mono d v q)
  seen := fun d hd => by
    rcases List.mem_append.1 hd with q | q
    · obtain ⟨v, hv⟩ := h.seen d q; exact ⟨v, h'.mono d v hv⟩
    · exact h'.seen d q
  only := fun d v q => by
    rcases h'.only d v q with q | q
    · rcases h.only d v q with q | q
      · exact Or.inl q
      · exact Or.inr (List.mem_append.2 (Or.inl q))
    · exact Or.inr (List.mem_append.2 (Or.inr q))

theorem resetAll_spec (ind : Int → Bool) : ∀ (l : List Int) (s : Reset), s.Ok ind → s.After ind (resetAll ind s l).2 l ∧
    (resetAll ind s l).1 = l.map fun d => ((resetAll ind s l).2.old2new d).getD 0 := by
  intro l
  induction l with
  | nil => intro s h; exact ⟨⟨h, fun _ _ q => q, (fun d hd => by cases hd), fun _ _ q => Or.inl q⟩, rfl⟩
  | cons d l ih =>
    intro s h
    obtain ⟨h1, h2⟩ := resetOne_spec ind s h d
    obtain ⟨h3, h4⟩ := ih _ h1.ok
    simp only [resetAll]
    refine ⟨h1.trans h3, ?_⟩
    rw [List.map_cons, ← h4, h3.mono _ _ h2]
    rfl

theorem resetRows_spec (ind : Int → Bool) : ∀ (rows : List (List Int)) (s : Reset), s.Ok ind → s.After ind (resetRows ind s rows).2 rows.flatten ∧
    (resetRows ind s rows).1 = rows.map fun row => row.map fun d => ((resetRows ind s rows).2.old2new d).getD 0 := by
  intro rows
  induction rows with
  | nil => intro s h; exact ⟨⟨h, fun _ _ q => q, (fun d hd => by cases hd), fun _ _ q => Or.inl q⟩, rfl⟩
  | cons row rows ih =>
    intro s h
    obtain ⟨h1, h2⟩ := resetAll_spec ind row s h
    obtain ⟨h3, h4⟩ := ih _ h1.ok
    simp only [resetRows]
    refine ⟨h1.trans h3, ?_⟩
    rw [List.map_cons, ← h4, h2]
    congr 1
    refine List.map_congr_left fun d hd => ?_
    obtain ⟨v, hv⟩ := h1.seen d hd
    rw [hv, h3.mono d v hv]

theorem reset_spec (dofs : List (List Int)) (ind : Int → Bool) :
    ∃ f : Int → Int, (resetUsingFEVector dofs ind).dofs = dofs.map (fun row => row.map f) ∧
      (∀ d d', d ∈ dofs.flatten → d' ∈ dofs.flatten → (f d = f d' ↔ d = d')) ∧
      (∀ d ∈ dofs.flatten, (0 ≤ f d ↔ 0 ≤ d ∧ ind d = true)) ∧
      ∀ v : Int, (-(resetUsingFEVector dofs ind).numBoundaryDofs ≤ v ∧ v < (resetUsingFEVector dofs ind).numDofs) ↔ ∃ d ∈ dofs.flatten, f d = v := by
  have h0 : (⟨fun _ => none, 0, -1⟩ : Reset).Ok ind :=
    ⟨by decide, by decide, (fun d v h => by cases h), (fun d v h => by cases h), (fun d d' v h => by cases h), (fun v h1 h2 => by dsimp only at h1 h2; omega)⟩
  obtain ⟨h1, h2⟩ := resetRows_spec ind dofs _ h0
  unfold resetUsingFEVector
  dsimp only
  generalize (resetRows ind ⟨fun _ => none, 0, -1⟩ dofs).2 = s' at h1 h2 ⊢
  refine ⟨fun d => (s'.old2new d).getD 0, h2, fun d d' hd hd' => ⟨fun h => ?_, fun h => by rw [h]⟩, fun d hd => ?_, fun v => ⟨fun ⟨hv1, hv2⟩ => ?_, ?_⟩⟩
  · obtain ⟨v, hv⟩ := h1.seen d hd
    obtain ⟨v', hv'⟩ := h1.seen d' hd'
    dsimp only at h
    rw [hv, hv'] at h
    simp only [Option.getD_some] at h
    subst h
    exact h1.ok.inj d d' v hv hv'
  · obtain ⟨v, hv⟩ := h1.seen d hd
    dsimp only
    rw [hv]
    exact h1.ok.sign d v hv
  · have := h1.ok.new
    obtain ⟨d, hd⟩ := h1.ok.onto v (by omega) (by omega)
    refine ⟨d, ?_, by dsimp only; rw [hd]; rfl⟩
    rcases h1.only d v hd with q | q
    · cases q
    · exact q
  · rintro ⟨d, hd, rfl⟩
    obtain ⟨v, hv⟩ := h1.seen d hd
    dsimp only
    rw [hv, Option.getD_some]
    have := h1.ok.range d v hv
    have := h1.ok.new
    omega

end PyNucleus.DoFMap
