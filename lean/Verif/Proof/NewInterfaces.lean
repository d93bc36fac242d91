import Verif.Model.NewInterfaces
import Mathlib.Data.List.Nodup
import Mathlib.Data.List.Perm.Basic
import Mathlib.Tactic.Tauto

/-!
# Helper lemmas for the boundaries of new subdomains
-/

namespace PyNucleus.NewInterfaces

variable {β : Type} [DecidableEq β]

theorem lookup_cons' (k : β) (v : Int) (l : List (β × Int)) (x : β) :
    List.lookup x ((k, v) :: l) = if x = k then some v else l.lookup x := by
  rw [List.lookup_cons]
  by_cases h : x = k
  · rw [if_pos h, beq_iff_eq.2 h]
  · rw [if_neg h, beq_eq_false_iff_ne.2 h]

theorem mark_spec (xs : List (β × Int)) (c : List β) (o : List (β × Int)) (hc : c.Nodup) :
    (mark xs (c, o)).1.Nodup ∧ ((mark xs (c, o)).2.map (·.1) ++ (mark xs (c, o)).1).Perm (o.map (·.1) ++ c) ∧
    (∀ x, x ∈ (mark xs (c, o)).1 ↔ x ∈ c ∧ xs.lookup x = none) ∧
    ∀ x t, (x, t) ∈ (mark xs (c, o)).2 ↔ (x, t) ∈ o ∨ x ∈ c ∧ xs.lookup x = some t := by
  induction xs generalizing c o with
  | nil => simp [mark, hc]
  | cons a xs ih =>
    obtain ⟨k, v⟩ := a
    have hstep : mark ((k, v) :: xs) (c, o) = mark xs (take (c, o) (k, v)) := rfl
    rw [hstep]
    have hl : ∀ x, List.lookup x ((k, v) :: xs) = if x = k then some v else xs.lookup x := by
      exact lookup_cons' k v xs
    unfold take
    by_cases hk : k ∈ c
    · simp only [hk, if_true]
      obtain ⟨h1, h2, h3, h4⟩ := ih (c.erase k) (o ++ [(k, v)]) (hc.erase k)
      refine ⟨h1, h2.trans ?_, ?_, ?_⟩
      · rw [List.map_append, List.append_assoc]
        exact List.Perm.append_left _ (List.perm_cons_erase hk).symm
      · intro x
        rw [h3, hl, hc.mem_erase_iff]
        by_cases hx : x = k <;> simp [hx]
      · intro x t
        rw [h4, hl, hc.mem_erase_iff, List.mem_append, List.mem_singleton, Prod.mk.injEq]
        by_cases hx : x = k
        · subst hx; simp [hk, eq_comm]
        · simp [hx]
    · simp only [hk, if_false]
      obtain ⟨h1, h2, h3, h4⟩ := ih c o hc
      refine ⟨h1, h2, ?_, ?_⟩
      · intro x
        rw [h3, hl]
        by_cases hx : x = k
        · subst hx; simp [hk]
        · simp [hx]
      · intro x t
        rw [h4, hl]
        by_cases hx : x = k
        · subst hx; simp [hk]
        · simp [hx]

theorem lookup_interior (xs : List β) (x : β) :
    (interior xs).lookup x = if x ∈ xs then some INTERIOR_NONOVERLAPPING else none := by
  induction xs with
  | nil => simp [interior]
  | cons a xs ih =>
    unfold interior at ih ⊢
    rw [List.map_cons, lookup_cons', ih]
    by_cases h : x = a <;> simp [h]

theorem lookup_dictSet (d : List (β × Int)) (k : β) (v : Int) (x : β) :
    (dictSet d k v).lookup x = if x = k then some v else d.lookup x := by
  induction d with
  | nil =>
    rw [dictSet, lookup_cons']
  | cons a d ih =>
    obtain ⟨k', v'⟩ := a
    rw [dictSet]
    by_cases hk : k' = k
    · subst hk
      rw [if_pos rfl, lookup_cons', lookup_cons']
      by_cases h : x = k' <;> simp [h]
    · rw [if_neg hk, lookup_cons', lookup_cons', ih]
      by_cases h : x = k'
      · subst h; simp [hk]
      · simp [h]

theorem lookup_sets (s : List β) (t : Int) (d : List (β × Int)) (x : β) :
    (s.foldl (fun d k => dictSet d k t) d).lookup x = if x ∈ s then some t else d.lookup x := by
  induction s generalizing d with
  | nil => simp
  | cons a s ih =>
    rw [List.foldl_cons, ih, lookup_dictSet]
    by_cases h1 : x ∈ s
    · simp [h1]
    · by_cases h2 : x = a <;> simp [h1, h2]

theorem lookup_last (l : List (List β × Int)) (t : Int) (ht : ∀ s ∈ l, s.2 = t) (d : List (β × Int)) (x : β) :
    (l.foldl (fun d s => s.1.foldl (fun d k => dictSet d k s.2) d) d).lookup x =
      if ∃ s ∈ l, x ∈ s.1 then some t else d.lookup x := by
  induction l generalizing d with
  | nil => simp
  | cons a l ih =>
    rw [List.foldl_cons, ih (fun s hs => ht s (List.mem_cons_of_mem _ hs)), lookup_sets, ht a List.mem_cons_self]
    by_cases h1 : ∃ s ∈ l, x ∈ s.1
    · simp [h1]
    · by_cases h2 : x ∈ a.1
      · simp [h1, h2]
      · simp [h1, h2]

theorem lookup_dictMax (d : List (β × Int)) (k : β) (v : Int) (x : β) :
    (dictMax d k v).lookup x = if x = k then some (max v ((d.lookup k).getD v)) else d.lookup x := by
  unfold dictMax
  cases h : d.lookup k with
  | none => simp [lookup_dictSet]
  | some o => simp [lookup_dictSet]

/-- The tag after writing: the larger one. -/
def upd (w : Option Int) (t : Int) : Option Int := some (max t (w.getD t))

theorem lookup_maxs (s : List β) (t : Int) (d : List (β × Int)) (x : β) :
    (s.foldl (fun d k => dictMax d k t) d).lookup x = if x ∈ s then upd (d.lookup x) t else d.lookup x := by
  induction s generalizing d with
  | nil => simp
  | cons a s ih =>
    rw [List.foldl_cons, ih, lookup_dictMax]
    by_cases h1 : x ∈ s
    · by_cases h2 : x = a
      · subst h2
        simp only [h1, if_true, List.mem_cons, or_true, upd, Option.getD_some]
        congr 1
        omega
      · simp [h1, h2]
    · by_cases h2 : x = a
      · subst h2; simp [h1, upd]
      · simp [h1, h2]

theorem lookup_max (l : List (List β × Int)) (ht : ∀ s ∈ l, s.2 = PHYSICAL ∨ s.2 = INTERIOR_NONOVERLAPPING) (d : List (β × Int))
    (hd : ∀ x t, d.lookup x = some t → t = PHYSICAL ∨ t = INTERIOR_NONOVERLAPPING) (x : β) :
    let r := (l.foldl (fun d s => s.1.foldl (fun d k => dictMax d k s.2) d) d).lookup x
    r = if d.lookup x = some PHYSICAL ∨ ∃ s ∈ l, x ∈ s.1 ∧ s.2 = PHYSICAL then some PHYSICAL
      else if ∃ s ∈ l, x ∈ s.1 then some INTERIOR_NONOVERLAPPING else d.lookup x := by
  induction l generalizing d with
  | nil =>
    intro r
    by_cases h : d.lookup x = some PHYSICAL
    · simp [r, h]
    · simp [r, h]
  | cons a l ih =>
    intro r
    have hd' : ∀ y t, (a.1.foldl (fun d k => dictMax d k a.2) d).lookup y = some t →
        t = PHYSICAL ∨ t = INTERIOR_NONOVERLAPPING := by
      intro y t h
      rw [lookup_maxs] at h
      split at h
      · unfold upd at h
        simp only [Option.some.injEq] at h
        have ha := ht a List.mem_cons_self
        cases hy : d.lookup y with
        | none => rw [hy] at h; simp at h; rw [← h]; exact ha
        | some o =>
          rw [hy] at h
          simp only [Option.getD_some] at h
          rw [← h]
          rcases Int.le_total a.2 o with e | e
          · rw [Int.max_eq_right e]; exact hd y o hy
          · rw [Int.max_eq_left e]; exact ha
      · exact hd y t h
    have hr : r = _ := ih (fun s hs => ht s (List.mem_cons_of_mem _ hs)) _ hd'
    rw [hr, lookup_maxs]
    have hP : PHYSICAL = 0 := rfl
    have hI : INTERIOR_NONOVERLAPPING = -1 := rfl
    simp only [List.exists_mem_cons_iff]
    by_cases hx : x ∈ a.1
    · simp only [hx, if_true, true_and, true_or, upd, Option.some.injEq]
      rcases ht a List.mem_cons_self with ha | ha <;> rw [ha]
      · have hmax : max PHYSICAL ((d.lookup x).getD PHYSICAL) = PHYSICAL := by
          cases hy : d.lookup x with
          | none => simp
          | some o =>
            rcases hd x o hy with e | e <;> rw [e] <;> rfl
        simp [hmax]
      · cases hy : d.lookup x with
        | none =>
          have h0 : ¬ INTERIOR_NONOVERLAPPING = PHYSICAL := by decide
          simp only [Option.getD_none, Int.max_self, h0, false_or, reduceCtorEq]
          by_cases h1 : ∃ s ∈ l, x ∈ s.1 ∧ s.2 = PHYSICAL
          · simp only [h1, if_true]
          · simp only [h1, if_false, if_true, ite_self]
        | some o =>
          have h0 : ¬ INTERIOR_NONOVERLAPPING = PHYSICAL := by decide
          rcases hd x o hy with e | e <;> rw [e]
          · have : max INTERIOR_NONOVERLAPPING PHYSICAL = PHYSICAL := by decide
            simp only [Option.getD_some, this, true_or, if_true]
          · simp only [Option.getD_some, Int.max_self, Option.some.injEq, h0, false_or]
            by_cases h1 : ∃ s ∈ l, x ∈ s.1 ∧ s.2 = PHYSICAL
            · simp only [h1, if_true]
            · simp only [h1, if_false, if_true, ite_self]
    · simp only [hx, if_false, false_and, false_or]

end PyNucleus.NewInterfaces
