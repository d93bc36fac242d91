import Mathlib.Data.List.Forall2

namespace PyNucleus

/-- Results of a loop that may raise. -/
theorem mapM_eq_some {α β : Type} {f : α → Option β} : ∀ {l : List α} {r : List β}, l.mapM f = some r ↔ List.Forall₂ (fun a b => f a = some b) l r := by
  intro l
  induction l with
  | nil =>
    intro r
    rw [List.mapM_nil]
    constructor
    · intro h; cases h; exact List.Forall₂.nil
    · intro h; cases h; rfl
  | cons a l ih =>
    intro r
    rw [List.mapM_cons]
    constructor
    · intro h
      cases hf : f a with
      | none => rw [hf] at h; cases h
      | some b =>
        cases hl : l.mapM f with
        | none => rw [hf, hl] at h; cases h
        | some bs =>
          rw [hf, hl] at h
          cases h
          exact List.Forall₂.cons hf (ih.1 hl)
    · intro h
      cases h with
      | cons h1 h2 =>
        rw [h1, ih.2 h2]
        rfl

end PyNucleus
