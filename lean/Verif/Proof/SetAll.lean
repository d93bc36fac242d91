import Mathlib.Data.List.GetD

namespace PyNucleus

/-- Writing into an array, one entry after the other. -/
def setAll {α : Type} (ps : List (Nat × α)) (init : List α) : List α := ps.foldl (fun s p => s.set p.1 p.2) init

theorem setAll_length {α : Type} : ∀ (ps : List (Nat × α)) (init : List α), (setAll ps init).length = init.length := by
  intro ps
  induction ps with
  | nil => intro init; rfl
  | cons a ps ih => intro init; exact (ih _).trans (List.length_set ..)

theorem setAll_other {α : Type} (d : α) (k : Nat) : ∀ (ps : List (Nat × α)) (init : List α), (∀ p ∈ ps, p.1 ≠ k) → (setAll ps init).getD k d = init.getD k d := by
  intro ps
  induction ps with
  | nil => intro init _; rfl
  | cons a ps ih =>
    intro init h
    refine (ih _ fun p hp => h p (List.mem_cons_of_mem _ hp)).trans ?_
    rw [List.getD_eq_getElem?_getD, List.getD_eq_getElem?_getD, List.getElem?_set_ne (h a List.mem_cons_self)]

theorem setAll_get {α : Type} (d : α) (p : Nat × α) : ∀ (ps : List (Nat × α)) (init : List α), p ∈ ps → (∀ q ∈ ps, q.1 = p.1 → q.2 = p.2) →
    p.1 < init.length → (setAll ps init).getD p.1 d = p.2 := by
  intro ps
  induction ps with
  | nil => intro init h; cases h
  | cons a ps ih =>
    intro init hp hu hl
    by_cases hex : ∃ q ∈ ps, q.1 = p.1
    · obtain ⟨q, hq, hqp⟩ := hex
      have : q = p := Prod.ext hqp (hu q (List.mem_cons_of_mem _ hq) hqp)
      exact ih _ (this ▸ hq) (fun q hq => hu q (List.mem_cons_of_mem _ hq)) (by rw [List.length_set]; exact hl)
    · have hpa : p = a := by
        rcases List.mem_cons.1 hp with h | h
        · exact h
        · exact absurd ⟨p, h, rfl⟩ hex
      refine (setAll_other d p.1 ps _ fun q hq e => hex ⟨q, hq, e⟩).trans ?_
      rw [hpa] at hl ⊢
      rw [List.getD_eq_getElem?_getD, List.getElem?_set_self hl]
      rfl

end PyNucleus
