import Verif.Model.Factory
import Mathlib.Data.List.Nodup

namespace PyNucleus.Factory

section
variable {A B : Type} [DecidableEq A]

theorem dget_nil (k : A) : dget ([] : List (A × B)) k = none := rfl

theorem dget_cons (e : A × B) (d : List (A × B)) (k : A) : dget (e :: d) k = if e.1 = k then some e.2 else dget d k := by
  unfold dget
  by_cases h : e.1 = k <;> simp [h]

theorem dget_dset (d : List (A × B)) (k : A) (v : B) (k' : A) : dget (dset d k v) k' = if k = k' then some v else dget d k' := by
  induction d with
  | nil => simp [dset, dget_cons]
  | cons e d ih =>
    unfold dset
    by_cases h : e.1 = k
    · rw [if_pos h, dget_cons, dget_cons, h]
      by_cases h2 : k = k' <;> simp [h2]
    · rw [if_neg h, dget_cons, dget_cons, ih]
      by_cases h2 : e.1 = k'
      · subst h2
        simp [Ne.symm h]
      · simp [h2]

theorem dset_keys (d : List (A × B)) (k : A) (v : B) (x : A) : x ∈ (dset d k v).map Prod.fst ↔ x = k ∨ x ∈ d.map Prod.fst := by
  induction d with
  | nil => simp [dset]
  | cons e d ih =>
    unfold dset
    by_cases h : e.1 = k
    · simp [h]
    · rw [if_neg h, List.map_cons, List.mem_cons, ih, List.map_cons, List.mem_cons]; tauto

theorem dset_nodup (d : List (A × B)) (k : A) (v : B) (h : (d.map Prod.fst).Nodup) : ((dset d k v).map Prod.fst).Nodup := by
  induction d with
  | nil => simp [dset]
  | cons e d ih =>
    rw [List.map_cons, List.nodup_cons] at h
    unfold dset
    by_cases hk : e.1 = k
    · subst hk
      rw [if_pos rfl, List.map_cons, List.nodup_cons]; exact h
    · rw [if_neg hk, List.map_cons, List.nodup_cons]
      refine ⟨fun hm => ?_, ih h.2⟩
      rcases (dset_keys d k v e.1).1 hm with h1 | h1
      · exact hk h1
      · exact h.1 h1

theorem dget_isSome (d : List (A × B)) (k : A) : (dget d k).isSome = true ↔ k ∈ d.map Prod.fst := by
  induction d with
  | nil => simp [dget_nil]
  | cons e d ih =>
    rw [dget_cons, List.map_cons, List.mem_cons]
    by_cases h : e.1 = k
    · simp [h]
    · rw [if_neg h, ih]
      constructor
      · exact Or.inr
      · rintro (h1 | h1)
        · exact absurd h1.symm h
        · exact h1

/-- `update`: the last entry for a key wins. -/
theorem dget_dupdate (e : List (A × B)) : ∀ (d : List (A × B)) (k : A),
    dget (dupdate d e) k = ((e.reverse.find? fun p => decide (p.1 = k)).map Prod.snd).or (dget d k) := by
  induction e with
  | nil => intro d k; rfl
  | cons p e ih =>
    intro d k
    change dget (dupdate (dset d p.1 p.2) e) k = _
    rw [ih, dget_dset, List.reverse_cons, List.find?_append]
    cases h : e.reverse.find? fun p => decide (p.1 = k) with
    | some q => rfl
    | none =>
      by_cases h2 : p.1 = k <;> simp [h2]

theorem dupdate_keys (e : List (A × B)) : ∀ (d : List (A × B)) (x : A),
    x ∈ (dupdate d e).map Prod.fst ↔ x ∈ e.map Prod.fst ∨ x ∈ d.map Prod.fst := by
  induction e with
  | nil => intro d x; simp [dupdate]
  | cons p e ih =>
    intro d x
    change x ∈ (dupdate (dset d p.1 p.2) e).map Prod.fst ↔ _
    rw [ih, dset_keys, List.map_cons, List.mem_cons]; tauto

theorem dset_mem (d : List (A × B)) (k : A) (v : B) (e : A × B) (h : e ∈ dset d k v) : e = (k, v) ∨ e ∈ d := by
  induction d with
  | nil => simp [dset] at h; exact Or.inl h
  | cons a d ih =>
    unfold dset at h
    split at h
    · rcases List.mem_cons.1 h with h | h
      · exact Or.inl h
      · exact Or.inr (List.mem_cons_of_mem _ h)
    · rcases List.mem_cons.1 h with h | h
      · exact Or.inr (h ▸ List.mem_cons_self)
      · exact (ih h).imp_right (List.mem_cons_of_mem _)

theorem dupdate_mem (e : List (A × B)) : ∀ (d : List (A × B)) (x : A × B), x ∈ dupdate d e → x ∈ e ∨ x ∈ d := by
  induction e with
  | nil => intro d x h; exact Or.inr h
  | cons p e ih =>
    intro d x h
    rcases ih (dset d p.1 p.2) x h with h | h
    · exact Or.inl (List.mem_cons_of_mem _ h)
    · rcases dset_mem _ _ _ _ h with h | h
      · exact Or.inl (h ▸ List.mem_cons_self)
      · exact Or.inr h

end

variable {N C V : Type} [DecidableEq N]

theorem aliasLoop (canon : N → N) (c : N) (l : List N) : ∀ (al : List (N × (N × N))) (k : N),
    (dget (l.foldl (fun al a => dset al (canon a) (a, c)) al) k).map Prod.snd =
      if (∃ a ∈ l, canon a = k) then some c else (dget al k).map Prod.snd := by
  induction l with
  | nil => intro al k; simp
  | cons a l ih =>
    intro al k
    rw [List.foldl_cons, ih, dget_dset]
    by_cases h : ∃ a ∈ l, canon a = k
    · rw [if_pos h, if_pos]
      obtain ⟨x, h1, h2⟩ := h
      exact ⟨x, List.mem_cons_of_mem _ h1, h2⟩
    · rw [if_neg h]
      by_cases h2 : canon a = k
      · rw [if_pos h2, if_pos ⟨a, List.mem_cons_self, h2⟩]; rfl
      · rw [if_neg h2, if_neg]
        rintro ⟨x, h3, h4⟩
        rcases List.mem_cons.1 h3 with rfl | h3
        · exact h2 h4
        · exact h ⟨x, h3, h4⟩

theorem aliasLoop_nodup (canon : N → N) (c : N) (l : List N) : ∀ (al : List (N × (N × N))), (al.map Prod.fst).Nodup →
    ((l.foldl (fun al a => dset al (canon a) (a, c)) al).map Prod.fst).Nodup := by
  induction l with
  | nil => intro al h; exact h
  | cons a l ih => intro al h; exact ih _ (dset_nodup _ _ _ h)

/-- Target of an alias. -/
def target (F : Factory N C V) (k : N) : Option N := (dget F.aliases k).map Prod.snd

theorem find_eq (canon : N → N) (F : Factory N C V) (name : N) :
    F.find canon name = dget F.classes ((target F (canon name)).getD (canon name)) := by
  unfold Factory.find target
  cases dget F.aliases (canon name) <;> rfl

theorem target_register (canon : N → N) (F : Factory N C V) (r : Reg N C V) (k : N) :
    target (F.register canon r) k = if (∃ a ∈ r.aliases, canon a = k) then some (canon r.name) else target F k :=
  aliasLoop canon _ _ _ _

theorem classes_register (canon : N → N) (F : Factory N C V) (r : Reg N C V) (k : N) :
    dget (F.register canon r).classes k = if canon r.name = k then some (r.name, r.cls, r.params) else dget F.classes k :=
  dget_dset _ _ _ _

theorem after_concat (canon : N → N) (h : List (Reg N C V)) (r : Reg N C V) :
    Factory.after canon (h ++ [r]) = (Factory.after canon h).register canon r := by
  unfold Factory.after; rw [List.foldl_append]; rfl

end PyNucleus.Factory
