import Verif.Spec.Parameters
import Mathlib.Tactic.Tauto

/-! # Lemmas on nested dictionaries -/

namespace PyNucleus.Parameters

variable {V : Type}

theorem get_set : ∀ (d : Dict V) (key : Nat) (t : Tree V) (k : Nat),
    (d.set key t).get k = if k = key then some t else d.get k
  | .nil, key, t, k => by simp [Dict.set, Dict.get]
  | .cons k' u d, key, t, k => by
    have ih := get_set d key t k
    unfold Dict.set
    by_cases h : key = k'
    · subst h
      simp only [if_true, Dict.get]
      by_cases hk : k = key <;> simp [hk]
    · simp only [if_neg h, Dict.get]
      rw [ih]
      by_cases hk : k = k'
      · subst hk
        simp [Ne.symm h]
      · simp [hk]

theorem node_nil_dict (k : Nat) (p : List Nat) : node (k :: p) (.dict (.nil : Dict V)) = none := rfl

theorem value_cons (k : Nat) (p : List Nat) (d : Dict V) :
    value (k :: p) (.dict d) = (d.get k).bind (value p) := by
  unfold value
  rw [node]
  cases d.get k <;> rfl

theorem value_nil_leaf (v : V) : value [] (.leaf v) = some v := rfl

theorem value_nil_dict (d : Dict V) : value [] (.dict d) = none := rfl

theorem value_cons_leaf (k : Nat) (p : List Nat) (v : V) : value (k :: p) (.leaf v) = none := rfl

theorem value_empty (p : List Nat) : value p (.dict (.nil : Dict V)) = none := by
  cases p <;> rfl

/-! ## Defaults -/

theorem update_get : ∀ (ds params r : Dict V), ds.WF → updateFromDefaults params ds = some r → ∀ k,
    (ds.get k = none → r.get k = params.get k) ∧
    (∀ t, ds.get k = some t → ∃ u, updateEntry (params.get k) t = some u ∧ r.get k = some u)
  | .nil, params, r, _, h, k => by
    rw [updateFromDefaults] at h
    cases h
    exact ⟨fun _ => rfl, fun t ht => by cases ht⟩
  | .cons k0 t0 rest, params, r, hwf, h, k => by
    rw [updateFromDefaults] at h
    rw [Dict.WF] at hwf
    obtain ⟨u, hu, h⟩ := Option.bind_eq_some_iff.mp h
    obtain ⟨h1, h2⟩ := update_get rest (params.set k0 u) r hwf.2.2 h k
    rw [get_set] at h1 h2
    by_cases hk : k = k0
    · subst hk
      simp only [if_true] at h1
      refine ⟨fun hn => ?_, fun t ht => ?_⟩
      · simp [Dict.get] at hn
      · simp only [Dict.get, if_true, Option.some.injEq] at ht
        subst ht
        exact ⟨u, hu, h1 hwf.1⟩
    · rw [if_neg hk] at h1 h2
      simp only [Dict.get, if_neg hk]
      exact ⟨h1, h2⟩

theorem update_none : ∀ (ds params : Dict V), ds.WF → (updateFromDefaults params ds = none ↔
    ∃ k t, ds.get k = some t ∧ updateEntry (params.get k) t = none)
  | .nil, params, _ => by simp [updateFromDefaults, Dict.get]
  | .cons k0 t0 rest, params, hwf => by
    rw [Dict.WF] at hwf
    rw [updateFromDefaults]
    cases hu : updateEntry (params.get k0) t0 with
    | none =>
      simp only [Option.bind_none, true_iff]
      exact ⟨k0, t0, by simp [Dict.get], hu⟩
    | some u =>
      rw [Option.bind_some, update_none rest _ hwf.2.2]
      constructor
      · rintro ⟨k, t, h1, h2⟩
        have hk : k ≠ k0 := by rintro rfl; rw [hwf.1] at h1; cases h1
        rw [get_set, if_neg hk] at h2
        exact ⟨k, t, by simp only [Dict.get, if_neg hk]; exact h1, h2⟩
      · rintro ⟨k, t, h1, h2⟩
        by_cases hk : k = k0
        · subst hk
          simp only [Dict.get, if_true, Option.some.injEq] at h1
          subst h1
          rw [hu] at h2; cases h2
        · simp only [Dict.get, if_neg hk] at h1
          exact ⟨k, t, h1, by rw [get_set, if_neg hk]; exact h2⟩

theorem get_WF : ∀ (d : Dict V) (k : Nat) (t : Tree V), d.WF → d.get k = some t → t.WF
  | .nil, _, _, _, h => by cases h
  | .cons k0 t0 rest, k, t, hwf, h => by
    rw [Dict.WF] at hwf
    by_cases hk : k = k0
    · simp only [Dict.get, if_pos hk, Option.some.injEq] at h
      exact h ▸ hwf.2.1
    · simp only [Dict.get, if_neg hk] at h
      exact get_WF rest k t hwf.2.2 h

theorem update_kept : ∀ (p : List Nat) (params ds r : Dict V) (v : V), ds.WF →
    updateFromDefaults params ds = some r → value p (.dict params) = some v → value p (.dict r) = some v := by
  intro p
  induction p with
  | nil => intro params ds r v _ _ h; cases h
  | cons k q ih =>
    intro params ds r v hwf h hv
    obtain ⟨h1, h2⟩ := update_get ds params r hwf h k
    rw [value_cons] at hv ⊢
    cases hp : params.get k with
    | none => rw [hp] at hv; cases hv
    | some u =>
      rw [hp] at hv
      rw [Option.bind_some] at hv
      cases ht : ds.get k with
      | none => rw [h1 ht, hp]; exact hv
      | some t =>
        obtain ⟨w, hw, hr⟩ := h2 t ht
        rw [hr, Option.bind_some]
        rw [hp] at hw
        cases t with
        | leaf x =>
          cases u with
          | leaf y => simp only [updateEntry, Option.some.injEq] at hw; exact hw ▸ hv
          | dict y => simp only [updateEntry, Option.some.injEq] at hw; exact hw ▸ hv
        | dict e =>
          cases u with
          | leaf y =>
            cases e with
            | nil => simp only [updateEntry, Option.some.injEq] at hw; exact hw ▸ hv
            | cons _ _ _ => simp [updateEntry] at hw
          | dict d =>
            simp only [updateEntry] at hw
            obtain ⟨r', hr', rfl⟩ := Option.map_eq_some_iff.mp hw
            exact ih d e r' v (by have := get_WF ds k _ hwf ht; rwa [Tree.WF] at this) hr' hv

theorem update_value : ∀ (p : List Nat) (params ds r : Dict V), ds.WF →
    updateFromDefaults params ds = some r →
    (∀ q d v, node q (.dict params) = some (.dict d) → node q (.dict ds) ≠ some (.leaf v)) →
    value p (.dict r) = (value p (.dict params)).or (value p (.dict ds)) := by
  intro p
  induction p with
  | nil => intro params ds r _ _ _; rfl
  | cons k q ih =>
    intro params ds r hwf h hc
    obtain ⟨h1, h2⟩ := update_get ds params r hwf h k
    rw [value_cons, value_cons, value_cons]
    cases ht : ds.get k with
    | none => rw [h1 ht]; simp
    | some t =>
      obtain ⟨w, hw, hr⟩ := h2 t ht
      rw [hr]
      simp only [Option.bind_some]
      cases hp : params.get k with
      | none =>
        rw [hp] at hw
        simp only [updateEntry, Option.some.injEq] at hw
        subst hw
        simp
      | some u =>
        rw [hp] at hw
        rw [Option.bind_some]
        have hcu : ∀ q' d v, node q' u = some (.dict d) → node q' t ≠ some (.leaf v) := by
          intro q' d v h3 h4
          exact hc (k :: q') d v (by rw [node, hp]; exact h3) (by rw [node, ht]; exact h4)
        cases t with
        | leaf x =>
          have : w = u := by
            cases u <;> (simp only [updateEntry, Option.some.injEq] at hw; exact hw.symm)
          subst this
          cases q with
          | nil =>
            cases w with
            | leaf y => rfl
            | dict d => exact absurd rfl (hcu [] d x rfl)
          | cons k' q => rw [value_cons_leaf, Option.or_none]
        | dict e =>
          cases u with
          | leaf y =>
            cases e with
            | nil =>
              simp only [updateEntry, Option.some.injEq] at hw
              subst hw
              rw [value_empty, Option.or_none]
            | cons _ _ _ => simp [updateEntry] at hw
          | dict d =>
            simp only [updateEntry] at hw
            obtain ⟨r', hr', rfl⟩ := Option.map_eq_some_iff.mp hw
            exact ih d e r' (by have := get_WF ds k _ hwf ht; rwa [Tree.WF] at this) hr' hcu

/-- A value meets a dictionary that has a key. -/
def Meets (t u : Tree V) : Prop :=
  ∃ p v k' t' e, node p t = some (.leaf v) ∧ node p u = some (.dict (.cons k' t' e))

theorem meets_dict (d e : Dict V) : Meets (.dict d) (.dict e) ↔
    ∃ k t u, d.get k = some t ∧ e.get k = some u ∧ Meets t u := by
  constructor
  · rintro ⟨p, v, k', t', f, h1, h2⟩
    cases p with
    | nil => cases h1
    | cons k q =>
      rw [node] at h1 h2
      obtain ⟨t, ht, h1⟩ := Option.bind_eq_some_iff.mp h1
      obtain ⟨u, hu, h2⟩ := Option.bind_eq_some_iff.mp h2
      exact ⟨k, t, u, ht, hu, q, v, k', t', f, h1, h2⟩
  · rintro ⟨k, t, u, ht, hu, q, v, k', t', f, h1, h2⟩
    exact ⟨k :: q, v, k', t', f, by rw [node, ht]; exact h1, by rw [node, hu]; exact h2⟩

mutual
theorem updateEntry_none : ∀ (t : Tree V) (o : Option (Tree V)), t.WF →
    (updateEntry o t = none ↔ ∃ u, o = some u ∧ Meets u t)
  | .leaf v, o, _ => by
    have hne : updateEntry o (.leaf v) ≠ none := by
      cases o with
      | none => simp [updateEntry]
      | some u => cases u <;> simp [updateEntry]
    refine ⟨fun h => absurd h hne, ?_⟩
    rintro ⟨u, rfl, p, w, k', t', e, h1, h2⟩
    cases p <;> simp [node] at h2
  | .dict e, o, hwf => by
    rw [Tree.WF] at hwf
    cases o with
    | none => simp [updateEntry]
    | some u =>
      cases u with
      | dict d =>
        rw [updateEntry, Option.map_eq_none_iff, updateDict_none e d hwf]
        simp
      | leaf v =>
        cases e with
        | nil =>
          simp only [updateEntry, reduceCtorEq, Option.some.injEq, exists_eq_left', false_iff]
          rintro ⟨p, w, k', t', f, h1, h2⟩
          cases p with
          | nil => simp [node] at h2
          | cons k p => simp [node] at h1
        | cons k t e =>
          simp only [updateEntry, Option.some.injEq, exists_eq_left', true_iff]
          exact ⟨[], v, k, t, e, rfl, rfl⟩

theorem updateDict_none : ∀ (ds params : Dict V), ds.WF →
    (updateFromDefaults params ds = none ↔ Meets (.dict params) (.dict ds))
  | .nil, params, _ => by
    rw [meets_dict]
    simp [updateFromDefaults, Dict.get]
  | .cons k0 t0 rest, params, hwf => by
    rw [Dict.WF] at hwf
    rw [updateFromDefaults]
    have he := updateEntry_none t0 (params.get k0) hwf.2.1
    cases hu : updateEntry (params.get k0) t0 with
    | none =>
      simp only [Option.bind_none, true_iff]
      obtain ⟨u, h1, h2⟩ := he.mp hu
      rw [meets_dict]
      exact ⟨k0, u, t0, h1, by simp [Dict.get], h2⟩
    | some w =>
      have hne : ¬ ∃ u, params.get k0 = some u ∧ Meets u t0 := fun h => by
        rw [← he, hu] at h; cases h
      rw [Option.bind_some, updateDict_none rest _ hwf.2.2, meets_dict, meets_dict]
      constructor
      · rintro ⟨k, t, u, h1, h2, h3⟩
        have hk : k ≠ k0 := by rintro rfl; rw [hwf.1] at h2; cases h2
        rw [get_set, if_neg hk] at h1
        exact ⟨k, t, u, h1, by simp only [Dict.get, if_neg hk]; exact h2, h3⟩
      · rintro ⟨k, t, u, h1, h2, h3⟩
        by_cases hk : k = k0
        · subst hk
          simp only [Dict.get, if_true, Option.some.injEq] at h2
          subst h2
          exact absurd ⟨t, h1, h3⟩ hne
        · simp only [Dict.get, if_neg hk] at h2
          exact ⟨k, t, u, by rw [get_set, if_neg hk]; exact h1, h2, h3⟩
end

/-! ## Differences -/

theorem get_enter (acc : Dict (Mismatch V)) (k0 : Nat) (o : Option (Tree (Mismatch V))) (k : Nat) :
    (enter acc k0 o).get k = if k = k0 then o.or (acc.get k) else acc.get k := by
  cases o with
  | none => simp [enter]
  | some m =>
    rw [enter, get_set]
    simp

theorem rightLoop_get (d1 : Dict V) : ∀ (d2 : Dict V) (acc : Dict (Mismatch V)), d2.WF → ∀ k,
    (rightLoop d1 d2 acc).get k = match d1.get k, d2.get k with
      | none, some t => (rightEntry t).or (acc.get k)
      | _, _ => acc.get k
  | .nil, acc, _, k => by
    rw [rightLoop]
    cases d1.get k <;> rfl
  | .cons k0 t0 rest, acc, hwf, k => by
    rw [Dict.WF] at hwf
    rw [rightLoop]
    by_cases hk : k = k0
    · subst hk
      cases h1 : d1.get k with
      | some x =>
        dsimp only
        rw [rightLoop_get d1 rest acc hwf.2.2 k, h1]
      | none =>
        dsimp only
        rw [rightLoop_get d1 rest _ hwf.2.2 k, h1, hwf.1]
        simp [Dict.get, get_enter]
    · cases h1 : d1.get k0 with
      | some x =>
        dsimp only
        rw [rightLoop_get d1 rest acc hwf.2.2 k]
        simp [Dict.get, hk]
      | none =>
        dsimp only
        rw [rightLoop_get d1 rest _ hwf.2.2 k, get_enter]
        simp [Dict.get, hk]

theorem leftLoop_get (close : V → V → Bool) (d2 : Dict V) : ∀ (d1 : Dict V) (acc r : Dict (Mismatch V)),
    d1.WF → leftLoop close d1 d2 acc = some r → ∀ k,
    (d1.get k = none → r.get k = acc.get k) ∧
    (∀ t, d1.get k = some t → ∃ o, leftEntry close t (d2.get k) = some o ∧ r.get k = o.or (acc.get k))
  | .nil, acc, r, _, h, k => by
    rw [leftLoop] at h
    cases h
    exact ⟨fun _ => rfl, fun t ht => by cases ht⟩
  | .cons k0 t0 rest, acc, r, hwf, h, k => by
    rw [Dict.WF] at hwf
    rw [leftLoop] at h
    obtain ⟨o, ho, h⟩ := Option.bind_eq_some_iff.mp h
    obtain ⟨h1, h2⟩ := leftLoop_get close d2 rest _ r hwf.2.2 h k
    rw [get_enter] at h1 h2
    by_cases hk : k = k0
    · subst hk
      simp only [if_true] at h1
      refine ⟨fun hn => ?_, fun t ht => ?_⟩
      · simp [Dict.get] at hn
      · simp only [Dict.get, if_true, Option.some.injEq] at ht
        subst ht
        exact ⟨o, ho, h1 hwf.1⟩
    · rw [if_neg hk] at h1 h2
      simp only [Dict.get, if_neg hk]
      exact ⟨h1, h2⟩

theorem keep_value (p : Dict (Mismatch V)) (q : List Nat) :
    (keep p).bind (value q) = value q (.dict p) := by
  cases p with
  | nil => rw [value_empty]; rfl
  | cons _ _ _ => rfl

theorem diff_empty_left (close : V → V → Bool) (e : Dict V) :
    diffDict close .nil e = some (rightLoop .nil e .nil) := rfl

theorem diff_value (close : V → V → Bool) : ∀ (p : List Nat) (d1 d2 : Dict V) (r : Dict (Mismatch V)),
    d1.WF → d2.WF → diffDict close d1 d2 = some r →
    value p (.dict r) = expected close (value p (.dict d1)) (value p (.dict d2)) := by
  intro p
  induction p with
  | nil => intro d1 d2 r _ _ _; rfl
  | cons k q ih =>
    intro d1 d2 r hw1 hw2 h
    unfold diffDict at h
    obtain ⟨acc, hacc, rfl⟩ := Option.map_eq_some_iff.mp h
    obtain ⟨h1, h2⟩ := leftLoop_get close d2 d1 .nil acc hw1 hacc k
    rw [value_cons, value_cons, value_cons, rightLoop_get d1 d2 acc hw2 k]
    have hnil : (Dict.nil : Dict (Mismatch V)).get k = none := rfl
    have hright : ∀ t : Tree V, t.WF → (rightEntry t).bind (value q) = expected close none (value q t) := by
      intro t ht
      cases t with
      | leaf v =>
        cases q with
        | nil => rfl
        | cons _ _ => rfl
      | dict e =>
        rw [Tree.WF] at ht
        rw [rightEntry, keep_value, ih .nil e _ (by rw [Dict.WF]; trivial) ht (diff_empty_left close e), value_empty]
    cases ht : d1.get k with
    | none =>
      rw [h1 ht, hnil]
      cases hu : d2.get k with
      | none => rfl
      | some u =>
        simp only [Option.or_none, Option.bind_none, Option.bind_some]
        exact hright u (get_WF d2 k u hw2 hu)
    | some t =>
      obtain ⟨o, ho, hr⟩ := h2 t ht
      rw [hnil, Option.or_none] at hr
      have hwt := get_WF d1 k t hw1 ht
      dsimp only
      rw [hr]
      simp only [Option.bind_some]
      cases hu : d2.get k with
      | none =>
        rw [hu] at ho
        cases t with
        | leaf v =>
          simp only [leftEntry, Option.some.injEq] at ho
          subst ho
          cases q with
          | nil => rfl
          | cons _ _ => rfl
        | dict e =>
          rw [Tree.WF] at hwt
          simp only [leftEntry] at ho
          obtain ⟨p', hp', rfl⟩ := Option.map_eq_some_iff.mp ho
          rw [keep_value, ih e .nil _ hwt (by rw [Dict.WF]; trivial)
            (by unfold diffDict; rw [hp']; rfl), value_empty]
          rfl
      | some u =>
        rw [hu] at ho
        have hwu := get_WF d2 k u hw2 hu
        cases t with
        | leaf v =>
          cases u with
          | leaf w =>
            simp only [leftEntry, Option.some.injEq] at ho
            subst ho
            cases q with
            | nil =>
              simp only [Option.bind_some, value_nil_leaf, expected]
              split <;> rfl
            | cons _ _ =>
              simp only [Option.bind_some, value_cons_leaf, expected]
              split <;> rfl
          | dict e => simp [leftEntry] at ho
        | dict e =>
          cases u with
          | leaf w => simp [leftEntry] at ho
          | dict e2 =>
            rw [Tree.WF] at hwt hwu
            simp only [leftEntry] at ho
            obtain ⟨p', hp', rfl⟩ := Option.map_eq_some_iff.mp ho
            rw [keep_value, ih e e2 _ hwt hwu (by unfold diffDict; rw [hp']; rfl)]
            rfl

theorem conflict_dict (d e : Dict V) : Conflict (.dict d) (.dict e) ↔
    ∃ k t u, d.get k = some t ∧ e.get k = some u ∧ Conflict t u := by
  constructor
  · rintro ⟨p, v, f, h⟩
    cases p with
    | nil => rcases h with ⟨h, -⟩ | ⟨-, h⟩ <;> cases h
    | cons k q =>
      rw [node, node] at h
      rcases h with ⟨h1, h2⟩ | ⟨h1, h2⟩
      · obtain ⟨t, ht, h1⟩ := Option.bind_eq_some_iff.mp h1
        obtain ⟨u, hu, h2⟩ := Option.bind_eq_some_iff.mp h2
        exact ⟨k, t, u, ht, hu, q, v, f, Or.inl ⟨h1, h2⟩⟩
      · obtain ⟨t, ht, h1⟩ := Option.bind_eq_some_iff.mp h1
        obtain ⟨u, hu, h2⟩ := Option.bind_eq_some_iff.mp h2
        exact ⟨k, t, u, ht, hu, q, v, f, Or.inr ⟨h1, h2⟩⟩
  · rintro ⟨k, t, u, ht, hu, q, v, f, h⟩
    refine ⟨k :: q, v, f, ?_⟩
    rw [node, node, ht, hu]
    exact h

mutual
theorem leftEntry_none (close : V → V → Bool) : ∀ (t : Tree V) (o : Option (Tree V)), t.WF →
    (leftEntry close t o = none ↔ ∃ u, o = some u ∧ Conflict t u)
  | .leaf v, o, _ => by
    cases o with
    | none => simp [leftEntry]
    | some u =>
      cases u with
      | leaf w =>
        simp only [leftEntry, reduceCtorEq, Option.some.injEq, exists_eq_left', false_iff]
        rintro ⟨p, x, e, h⟩
        cases p <;> simp [node] at h
      | dict e =>
        simp only [leftEntry, Option.some.injEq, exists_eq_left', true_iff]
        exact ⟨[], v, e, Or.inl ⟨rfl, rfl⟩⟩
  | .dict d, o, hwf => by
    rw [Tree.WF] at hwf
    cases o with
    | none =>
      rw [leftEntry, Option.map_eq_none_iff, leftLoop_none close d .nil .nil hwf, conflict_dict]
      simp [Dict.get]
    | some u =>
      cases u with
      | leaf w =>
        simp only [leftEntry, Option.some.injEq, exists_eq_left', true_iff]
        exact ⟨[], w, d, Or.inr ⟨rfl, rfl⟩⟩
      | dict e =>
        rw [leftEntry, Option.map_eq_none_iff, leftLoop_none close d e .nil hwf]
        simp

theorem leftLoop_none (close : V → V → Bool) : ∀ (d1 d2 : Dict V) (acc : Dict (Mismatch V)), d1.WF →
    (leftLoop close d1 d2 acc = none ↔ Conflict (.dict d1) (.dict d2))
  | .nil, d2, acc, _ => by
    rw [conflict_dict]
    simp [leftLoop, Dict.get]
  | .cons k0 t0 rest, d2, acc, hwf => by
    rw [Dict.WF] at hwf
    rw [leftLoop]
    have he := leftEntry_none close t0 (d2.get k0) hwf.2.1
    cases hu : leftEntry close t0 (d2.get k0) with
    | none =>
      simp only [Option.bind_none, true_iff]
      obtain ⟨u, h1, h2⟩ := he.mp hu
      rw [conflict_dict]
      exact ⟨k0, t0, u, by simp [Dict.get], h1, h2⟩
    | some w =>
      have hne : ¬ ∃ u, d2.get k0 = some u ∧ Conflict t0 u := fun h => by
        rw [← he, hu] at h; cases h
      rw [Option.bind_some, leftLoop_none close rest d2 _ hwf.2.2, conflict_dict, conflict_dict]
      constructor
      · rintro ⟨k, t, u, h1, h2, h3⟩
        have hk : k ≠ k0 := by rintro rfl; rw [hwf.1] at h1; cases h1
        exact ⟨k, t, u, by simp only [Dict.get, if_neg hk]; exact h1, h2, h3⟩
      · rintro ⟨k, t, u, h1, h2, h3⟩
        by_cases hk : k = k0
        · subst hk
          simp only [Dict.get, if_true, Option.some.injEq] at h1
          subst h1
          exact absurd ⟨u, h2, h3⟩ hne
        · simp only [Dict.get, if_neg hk] at h1
          exact ⟨k, t, u, h1, h2, h3⟩
end

mutual
/-- No empty dictionaries inside. -/
def FullTree : Tree V → Prop
  | .leaf _ => True
  | .dict d => d.nonempty = true ∧ FullDict d

def FullDict : Dict V → Prop
  | .nil => True
  | .cons _ t d => FullTree t ∧ FullDict d
end

theorem full_set : ∀ (d : Dict V) (k : Nat) (t : Tree V), FullDict d → FullTree t → FullDict (d.set k t)
  | .nil, k, t, _, ht => by
    rw [Dict.set, FullDict]
    exact ⟨ht, by rw [FullDict]; trivial⟩
  | .cons k0 t0 d, k, t, hd, ht => by
    rw [FullDict] at hd
    unfold Dict.set
    split
    · rw [FullDict]; exact ⟨ht, hd.2⟩
    · rw [FullDict]; exact ⟨hd.1, full_set d k t hd.2 ht⟩

theorem full_enter (d : Dict (Mismatch V)) (k : Nat) (o : Option (Tree (Mismatch V))) (hd : FullDict d)
    (ho : ∀ t, o = some t → FullTree t) : FullDict (enter d k o) := by
  cases o with
  | none => exact hd
  | some t => exact full_set d k t hd (ho t rfl)

theorem full_keep (d : Dict (Mismatch V)) (hd : FullDict d) : ∀ t, keep d = some t → FullTree t := by
  intro t h
  unfold keep at h
  split at h
  · rename_i hn
    cases h
    rw [FullTree]
    exact ⟨hn, hd⟩
  · cases h

mutual
theorem full_rightEntry : ∀ (t : Tree V) (m : Tree (Mismatch V)), rightEntry t = some m → FullTree m
  | .leaf v, m, h => by
    rw [rightEntry] at h
    cases h
    rw [FullTree]; trivial
  | .dict e, m, h => by
    rw [rightEntry] at h
    exact full_keep _ (full_rightLoop e .nil .nil (by rw [FullDict]; trivial)) m h

theorem full_rightLoop : ∀ (d2 d1 : Dict V) (acc : Dict (Mismatch V)), FullDict acc →
    FullDict (rightLoop d1 d2 acc)
  | .nil, d1, acc, h => by rw [rightLoop]; exact h
  | .cons k t rest, d1, acc, h => by
    rw [rightLoop]
    cases d1.get k with
    | some _ => exact full_rightLoop rest d1 acc h
    | none => exact full_rightLoop rest d1 _ (full_enter _ _ _ h (full_rightEntry t))
end

mutual
theorem full_leftEntry (close : V → V → Bool) : ∀ (t : Tree V) (o : Option (Tree V)) (m : Tree (Mismatch V)),
    leftEntry close t o = some (some m) → FullTree m
  | .leaf v, o, m, h => by
    have : ∃ x, m = .leaf x := by
      cases o with
      | none => simp only [leftEntry, Option.some.injEq] at h; exact ⟨_, h.symm⟩
      | some u =>
        cases u with
        | leaf w =>
          simp only [leftEntry, Option.some.injEq] at h
          split at h
          · cases h
          · exact ⟨_, (Option.some.inj h).symm⟩
        | dict e => simp [leftEntry] at h
    obtain ⟨x, rfl⟩ := this
    rw [FullTree]; trivial
  | .dict d, o, m, h => by
    cases o with
    | none =>
      rw [leftEntry] at h
      obtain ⟨p, hp, hk⟩ := Option.map_eq_some_iff.mp h
      exact full_keep _ (full_rightLoop _ _ _ (full_leftLoop close d .nil .nil p (by rw [FullDict]; trivial) hp)) m hk
    | some u =>
      cases u with
      | leaf w => simp [leftEntry] at h
      | dict e =>
        rw [leftEntry] at h
        obtain ⟨p, hp, hk⟩ := Option.map_eq_some_iff.mp h
        exact full_keep _ (full_rightLoop _ _ _ (full_leftLoop close d e .nil p (by rw [FullDict]; trivial) hp)) m hk

theorem full_leftLoop (close : V → V → Bool) : ∀ (d1 d2 : Dict V) (acc r : Dict (Mismatch V)), FullDict acc →
    leftLoop close d1 d2 acc = some r → FullDict r
  | .nil, d2, acc, r, h, hr => by
    rw [leftLoop] at hr
    cases hr
    exact h
  | .cons k t rest, d2, acc, r, h, hr => by
    rw [leftLoop] at hr
    obtain ⟨o, ho, hr⟩ := Option.bind_eq_some_iff.mp hr
    refine full_leftLoop close rest d2 _ r (full_enter _ _ _ h fun m hm => ?_) hr
    subst hm
    exact full_leftEntry close t _ m ho
end

mutual
theorem full_tree_value : ∀ t : Tree V, FullTree t → ∃ p v, value p t = some v
  | .leaf v, _ => ⟨[], v, rfl⟩
  | .dict d, h => by
    rw [FullTree] at h
    exact full_dict_value d h.1 h.2

theorem full_dict_value : ∀ d : Dict V, d.nonempty = true → FullDict d → ∃ p v, value p (.dict d) = some v
  | .nil, hn, _ => by cases hn
  | .cons k t d, _, h => by
    rw [FullDict] at h
    obtain ⟨p, v, hp⟩ := full_tree_value t h.1
    refine ⟨k :: p, v, ?_⟩
    rw [value_cons]
    simp [Dict.get, hp]
end

/-! ## Files -/

variable {K : Type}

theorem compress_head (n : Nat) (ls : List (List K)) : ∃ P, (compress n ls).1 = n :: P := by
  cases ls with
  | nil => exact ⟨[], rfl⟩
  | cons l ls => exact ⟨_, rfl⟩

theorem uncompress_compress : ∀ (ls : List (List K)) (pre : List K),
    uncompress (pre ++ (compress pre.length ls).2) (compress pre.length ls).1 = ls := by
  intro ls
  induction ls with
  | nil => intro pre; rfl
  | cons l ls ih =>
    intro pre
    have ih' := ih (pre ++ l)
    rw [List.length_append] at ih'
    obtain ⟨P, hP⟩ := compress_head (pre.length + l.length) ls
    rw [compress, hP]
    dsimp only
    rw [uncompress, ← hP, ← List.append_assoc, ih']
    congr 1
    rw [List.append_assoc, List.drop_left, Nat.add_sub_cancel_left, List.take_left]

theorem save_get : ∀ (d : Dict (Val K)) (f : File K), save d = some f → ∀ k,
    (d.get k = none → f.get k = none) ∧
    (∀ t, d.get k = some t → ∃ e, saveEntry t = some e ∧ f.get k = some e)
  | .nil, f, h, k => by
    rw [save] at h
    cases h
    exact ⟨fun _ => rfl, fun t ht => by cases ht⟩
  | .cons k0 t0 rest, f, h, k => by
    rw [save] at h
    obtain ⟨e, he, h⟩ := Option.bind_eq_some_iff.mp h
    obtain ⟨f', hf', rfl⟩ := Option.map_eq_some_iff.mp h
    obtain ⟨h1, h2⟩ := save_get rest f' hf' k
    by_cases hk : k = k0
    · simp only [Dict.get, File.get, if_pos hk]
      refine ⟨fun h => (by cases h), fun t ht => ?_⟩
      cases ht
      exact ⟨e, he, rfl⟩
    · simp only [Dict.get, File.get, if_neg hk]
      exact ⟨h1, h2⟩

/-- An attribute is written exactly for simple values. -/
theorem saveEntry_attr (t : Tree (Val K)) (a : Attr K) (h : saveEntry t = some (.attr a)) : t.isAttr := by
  cases t with
  | dict d =>
    rw [saveEntry] at h
    obtain ⟨f, -, h⟩ := Option.map_eq_some_iff.mp h
    cases h
  | leaf v =>
    rw [saveEntry] at h
    cases v with
    | none => trivial
    | num x => trivial
    | str s => trivial
    | arr l => cases h
    | nums l => cases l <;> cases h
    | strs l => cases l <;> cases h
    | nested l =>
      cases l with
      | nil => cases h
      | cons x l => cases x <;> cases h

theorem saveEntry_isAttr (t : Tree (Val K)) (ht : t.isAttr) (e : Entry K) (h : saveEntry t = some e) :
    ∃ a, e = .attr a := by
  cases t with
  | dict d => cases ht
  | leaf v =>
    rw [saveEntry] at h
    cases v with
    | none => cases h; exact ⟨_, rfl⟩
    | num x => cases h; exact ⟨_, rfl⟩
    | str s => cases h; exact ⟨_, rfl⟩
    | arr l => cases ht
    | nums l => cases ht
    | strs l => cases ht
    | nested l => cases ht

theorem loadVal (unpickle : K → Option (Val K)) (hu : ∀ x, unpickle x = none) (v : Val K) (hv : v.Storable) :
    ∃ e, saveVal v = some e ∧ loadEntry unpickle e = some (.leaf (norm v)) := by
  cases v with
  | none => exact ⟨_, rfl, by rw [loadEntry]; rfl⟩
  | num x => exact ⟨_, rfl, by rw [loadEntry, loadAttr, hu]; rfl⟩
  | str s => exact ⟨_, rfl, by rw [loadEntry]; rfl⟩
  | arr l => exact ⟨_, rfl, by rw [loadEntry]; rfl⟩
  | nums l =>
    cases l with
    | nil => exact absurd rfl hv
    | cons x l => exact ⟨_, rfl, by rw [loadEntry]; rfl⟩
  | strs l =>
    cases l with
    | nil => exact absurd rfl hv
    | cons x l => exact ⟨_, rfl, by rw [loadEntry]; rfl⟩
  | nested l =>
    obtain ⟨x, xs, ls, rfl⟩ := hv
    refine ⟨_, rfl, ?_⟩
    have h := uncompress_compress ((x :: xs) :: ls) ([] : List K)
    rw [loadEntry]
    show some (Tree.leaf (Val.nested (uncompress (compress 0 ((x :: xs) :: ls)).2 (compress 0 ((x :: xs) :: ls)).1))) = _
    rw [List.nil_append, List.length_nil] at h
    rw [h]
    rfl

mutual
theorem loadTree (unpickle : K → Option (Val K)) (hu : ∀ x, unpickle x = none) : ∀ t : Tree (Val K), t.Storable →
    ∃ e, saveEntry t = some e ∧ loadEntry unpickle e = some (normTree t)
  | .leaf v, h => by
    rw [Tree.Storable] at h
    obtain ⟨e, h1, h2⟩ := loadVal unpickle hu v h
    exact ⟨e, by rw [saveEntry]; exact h1, by rw [h2, normTree]⟩
  | .dict d, h => by
    rw [Tree.Storable] at h
    obtain ⟨hd, htype, hmesh⟩ := h
    obtain ⟨f, h1, h2⟩ := loadDict unpickle hu d hd
    refine ⟨.group f, by rw [saveEntry, h1]; rfl, ?_⟩
    have ht : f.type = none := by
      unfold File.type
      obtain ⟨h3, h4⟩ := save_get d f h1 typeKey
      cases hg : d.get typeKey with
      | none => rw [h3 hg]
      | some t =>
        obtain ⟨e, he, hf⟩ := h4 t hg
        rw [hf]
        cases e with
        | attr a => exact absurd (saveEntry_attr t a he) (htype t hg)
        | data _ => rfl
        | group _ => rfl
    have hm : ∀ key, f.member key = true → ∃ t, d.get key = some t ∧ ¬ t.isAttr := by
      intro key hkey
      unfold File.member at hkey
      obtain ⟨h3, h4⟩ := save_get d f h1 key
      cases hg : d.get key with
      | none => rw [h3 hg] at hkey; cases hkey
      | some t =>
        refine ⟨t, rfl, fun hatt => ?_⟩
        obtain ⟨e, he, hf⟩ := h4 t hg
        obtain ⟨a, rfl⟩ := saveEntry_isAttr t hatt e he
        rw [hf] at hkey; cases hkey
    rw [loadEntry, ht]
    dsimp only
    rw [if_neg, h2, normTree]
    · rfl
    · intro h
      rw [Bool.and_eq_true] at h
      obtain ⟨t, ht, hta⟩ := hm _ h.1
      obtain ⟨u, hu', hua⟩ := hm _ h.2
      exact hmesh ⟨t, u, ht, hta, hu', hua⟩

theorem loadDict (unpickle : K → Option (Val K)) (hu : ∀ x, unpickle x = none) : ∀ d : Dict (Val K), d.Storable →
    ∃ f, save d = some f ∧ load unpickle f = some (normDict d)
  | .nil, _ => ⟨.nil, by rw [save], by rw [load, normDict]⟩
  | .cons k t d, h => by
    rw [Dict.Storable] at h
    obtain ⟨e, h1, h2⟩ := loadTree unpickle hu t h.1
    obtain ⟨f, h3, h4⟩ := loadDict unpickle hu d h.2
    exact ⟨.cons k e f, by rw [save, h1, h3]; rfl, by rw [load, h2, h4, normDict]; rfl⟩
end

end PyNucleus.Parameters
