import Verif.Model.BoundaryLayer
import Verif.Spec.Layers
import Mathlib.Data.List.GetD
import Mathlib.Data.List.Induction
import Mathlib.Data.List.Nodup

/-! # Boundary layers: lemmas -/

namespace PyNucleus.BoundaryLayer

open PyNucleus.Spec

/-! ### Connectivity -/

/-- Only one item has the facet of `e`. -/
def Alone (L : List Item) (e : Item) : Prop := ∀ e' ∈ L, e'.1 = e.1 → e' = e

/-- No facet belongs to three items. -/
def AtMostTwo (L : List Item) : Prop := ∀ e ∈ L, ∀ e' ∈ L, ∀ e'' ∈ L, e'.1 = e.1 → e''.1 = e.1 → e = e' ∨ e = e'' ∨ e' = e''

structure Inv (dim : Nat) (L : List Item) (s : Build) : Prop where
  lookup : ∀ e, e ∈ s.lookup ↔ e ∈ L ∧ Alone L e
  len : ∀ i, (s.conn i).length = dim + 1
  alone : ∀ e ∈ L, Alone L e → (s.conn e.2.1).getD e.2.2 0 = -1
  pair : ∀ e ∈ L, ∀ e' ∈ L, e'.1 = e.1 → e' ≠ e → (s.conn e.2.1).getD e.2.2 0 = (e'.2.1 : Int)
  rest : ∀ i m, m < dim + 1 → (i, m) ∉ L.map Prod.snd → (s.conn i).getD m 0 = -1

theorem getD_update (f : Nat → List Int) (i : Nat) (l : List Int) (j m : Nat) (v : Int) (k : Nat) :
    (Function.update f i ((f i).set m v) j).getD k 0 = if i = j ∧ m = k ∧ k < (f j).length then v else (f j).getD k 0 := by
  by_cases h : j = i
  · subst h
    rw [Function.update_self]
    by_cases hk : k < (f j).length
    · rw [List.getD_eq_getElem _ _ (by simpa using hk), List.getElem_set, List.getD_eq_getElem _ _ hk]
      by_cases q : m = k <;> simp [q, hk]
    · rw [List.getD_eq_default _ _ (by simpa using hk), if_neg (by omega), List.getD_eq_default _ _ (by omega)]
  · rw [Function.update_of_ne h, if_neg (by tauto)]

theorem length_update (f : Nat → List Int) (i j m : Nat) (v : Int) : (Function.update f i ((f i).set m v) j).length = (f j).length := by
  by_cases h : j = i
  · subst h; simp
  · rw [Function.update_of_ne h]

theorem find_some {s : Build} {it e : Item} (h : s.lookup.find? (fun e => e.1 = it.1) = some e) : e ∈ s.lookup ∧ e.1 = it.1 :=
  ⟨List.mem_of_find?_eq_some h, by simpa using List.find?_some h⟩

theorem find_none {s : Build} {it : Item} (h : s.lookup.find? (fun e => e.1 = it.1) = none) : ∀ e ∈ s.lookup, e.1 ≠ it.1 := by
  intro e he
  have := List.find?_eq_none.1 h e he
  simpa using this

theorem alone_append {L : List Item} {it e : Item} (he : e ∈ L) (hne : it ∉ L) : Alone (L ++ [it]) e ↔ Alone L e ∧ it.1 ≠ e.1 := by
  constructor
  · intro h
    refine ⟨fun e' he' => h e' (by simp [he']), fun q => ?_⟩
    exact hne ((h it (by simp) q) ▸ he)
  · rintro ⟨h1, h2⟩ e' he' q
    rcases List.mem_append.1 he' with hh | hh
    · exact h1 e' hh q
    · rw [List.mem_singleton.1 hh] at q; exact absurd q h2

/-- Either the facet is new or exactly one earlier item has it. -/
theorem new_or {L : List Item} {it : Item} (h2 : AtMostTwo (L ++ [it])) (hne : it ∉ L) : ∀ e ∈ L, e.1 = it.1 → Alone L e := by
  intro e he hk e' he' q
  by_contra hh
  rcases h2 e (by simp [he]) e' (by simp [he']) it (by simp) q hk.symm with a | a | a
  · exact hh a.symm
  · exact hne (a ▸ he)
  · exact hne (a ▸ he')

theorem lookup_hit {L : List Item} {it e : Item} {lk : List Item} (hl : ∀ e, e ∈ lk ↔ e ∈ L ∧ Alone L e) (hne : it ∉ L) (he : e ∈ L)
    (hk : e.1 = it.1) (ha : Alone L e) : ∀ x, x ∈ lk.filter (fun e => e.1 ≠ it.1) ↔ x ∈ L ++ [it] ∧ Alone (L ++ [it]) x := by
  intro x
  rw [List.mem_filter, hl]
  simp only [ne_eq, decide_not, Bool.not_eq_eq_eq_not, Bool.not_true, decide_eq_false_iff_not]
  constructor
  · rintro ⟨⟨h1, h3⟩, h4⟩
    exact ⟨by simp [h1], (alone_append h1 hne).2 ⟨h3, Ne.symm h4⟩⟩
  · rintro ⟨h1, h3⟩
    rcases List.mem_append.1 h1 with h1 | h1
    · have := (alone_append h1 hne).1 h3
      exact ⟨⟨h1, this.1⟩, Ne.symm this.2⟩
    · rw [List.mem_singleton.1 h1] at h3
      have := h3 e (by simp [he]) hk
      exact absurd (this ▸ he) hne

theorem lookup_new {L : List Item} {it : Item} {lk : List Item} (hl : ∀ e, e ∈ lk ↔ e ∈ L ∧ Alone L e) (hne : it ∉ L)
    (hn : ∀ e ∈ L, e.1 ≠ it.1) : ∀ x, x ∈ it :: lk ↔ x ∈ L ++ [it] ∧ Alone (L ++ [it]) x := by
  intro x
  rw [List.mem_cons, hl]
  constructor
  · rintro (rfl | ⟨h1, h3⟩)
    · refine ⟨by simp, fun e' he' q => ?_⟩
      rcases List.mem_append.1 he' with hh | hh
      · exact absurd q (hn e' hh)
      · exact List.mem_singleton.1 hh
    · exact ⟨by simp [h1], (alone_append h1 hne).2 ⟨h3, fun q => hn x h1 q.symm⟩⟩
  · rintro ⟨h1, h3⟩
    rcases List.mem_append.1 h1 with h1 | h1
    · exact Or.inr ⟨h1, ((alone_append h1 hne).1 h3).1⟩
    · exact Or.inl (List.mem_singleton.1 h1)

theorem no_key {L : List Item} {it : Item} {s : Build} (hl : ∀ e, e ∈ s.lookup ↔ e ∈ L ∧ Alone L e) (h2 : AtMostTwo (L ++ [it])) (hne : it ∉ L)
    (h : s.lookup.find? (fun e => e.1 = it.1) = none) : ∀ e ∈ L, e.1 ≠ it.1 := by
  intro e he hk
  exact find_none h e ((hl e).2 ⟨he, new_or h2 hne e he hk⟩) hk

theorem enter_inv {dim : Nat} {L : List Item} {s : Build} (h : Inv dim L s) (it : Item) (hp : ((L ++ [it]).map Prod.snd).Nodup)
    (h2 : AtMostTwo (L ++ [it])) (hm : ∀ e ∈ L ++ [it], e.2.2 < dim + 1) : Inv dim (L ++ [it]) (enter s it) := by
  rw [List.map_append, List.nodup_append] at hp
  have hpos : ∀ e ∈ L, e.2 ≠ it.2 := fun e he q => hp.2.2 e.2 (List.mem_map.2 ⟨e, he, rfl⟩) it.2 (by simp) q
  have hne : it ∉ L := fun q => hpos it q rfl
  have hinj : ∀ e ∈ L, ∀ e' ∈ L, e.2 = e'.2 → e = e' := fun e he e' he' q => List.inj_on_of_nodup_map hp.1 he he' q
  unfold enter
  cases hf : s.lookup.find? (fun e => e.1 = it.1) with
  | none =>
    have hn := no_key h.lookup h2 hne hf
    dsimp only
    refine ⟨lookup_new h.lookup hne hn, h.len, fun e he ha => ?_, fun e he e' he' hk hd => ?_, fun i m hm' hi => ?_⟩
    · rcases List.mem_append.1 he with he | he
      · exact h.alone e he ((alone_append he hne).1 ha).1
      · rw [List.mem_singleton.1 he]
        refine h.rest _ _ (hm it (by simp)) fun q => ?_
        obtain ⟨e, he, q⟩ := List.mem_map.1 q
        exact hpos e he q
    · rcases List.mem_append.1 he with he | he <;> rcases List.mem_append.1 he' with he' | he'
      · exact h.pair e he e' he' hk hd
      · rw [List.mem_singleton.1 he'] at hk; exact absurd hk.symm (hn e he)
      · rw [List.mem_singleton.1 he] at hk; exact absurd hk (hn e' he')
      · rw [List.mem_singleton.1 he, List.mem_singleton.1 he'] at hd; exact absurd rfl hd
    · exact h.rest i m hm' fun q => hi (by simp at q ⊢; exact Or.inl q)
  | some e0 =>
    obtain ⟨q1, hk0⟩ := find_some hf
    obtain ⟨he0, ha0⟩ := (h.lookup e0).1 q1
    dsimp only
    have val : ∀ i m, (Function.update (Function.update s.conn it.2.1 ((s.conn it.2.1).set it.2.2 (e0.2.1 : Int))) e0.2.1
        ((Function.update s.conn it.2.1 ((s.conn it.2.1).set it.2.2 (e0.2.1 : Int)) e0.2.1).set e0.2.2 (it.2.1 : Int)) i).getD m 0 =
        if e0.2.1 = i ∧ e0.2.2 = m ∧ m < dim + 1 then (it.2.1 : Int) else
          if it.2.1 = i ∧ it.2.2 = m ∧ m < dim + 1 then (e0.2.1 : Int) else (s.conn i).getD m 0 := by
      intro i m
      rw [getD_update _ _ [], getD_update _ _ [], length_update, h.len]
    refine ⟨lookup_hit h.lookup hne he0 hk0 ha0, fun i => ?_, fun e he ha => ?_, fun e he e' he' hk hd => ?_, fun i m hm' hi => ?_⟩
    · dsimp only
      rw [length_update, length_update, h.len]
    · dsimp only
      rw [val]
      rcases List.mem_append.1 he with he | he
      · obtain ⟨b1, b2⟩ := (alone_append he hne).1 ha
        rw [if_neg, if_neg]
        · exact h.alone e he b1
        · rintro ⟨c1, c2, _⟩; exact hpos e he (Prod.ext c1.symm c2.symm)
        · rintro ⟨c1, c2, _⟩
          have := hinj e0 he0 e he (Prod.ext c1 c2)
          subst this
          exact b2 hk0.symm
      · rw [List.mem_singleton.1 he] at ha
        have := ha e0 (by simp [he0]) hk0
        exact absurd (this ▸ he0) hne
    · dsimp only
      rw [val]
      rcases List.mem_append.1 he with he | he <;> rcases List.mem_append.1 he' with he' | he'
      · rw [if_neg, if_neg]
        · exact h.pair e he e' he' hk hd
        · rintro ⟨c1, c2, _⟩; exact hpos e he (Prod.ext c1.symm c2.symm)
        · rintro ⟨c1, c2, _⟩
          have := hinj e0 he0 e he (Prod.ext c1 c2)
          subst this
          exact hd (ha0 e' he' hk)
      · rw [List.mem_singleton.1 he'] at hk ⊢
        have : e = e0 := ha0 e he (by rw [hk0]; exact hk.symm)
        subst this
        rw [if_pos ⟨rfl, rfl, hm e (by simp [he])⟩]
      · rw [List.mem_singleton.1 he] at hk hd ⊢
        have : e' = e0 := ha0 e' he' (by rw [hk, hk0])
        subst this
        rw [if_neg, if_pos ⟨rfl, rfl, hm it (by simp)⟩]
        rintro ⟨c1, c2, _⟩
        exact hpos e' he0 (Prod.ext c1 c2)
      · rw [List.mem_singleton.1 he, List.mem_singleton.1 he'] at hd; exact absurd rfl hd
    · dsimp only
      rw [val, if_neg, if_neg]
      · exact h.rest i m hm' fun q => hi (by simp at q ⊢; exact Or.inl q)
      · rintro ⟨c1, c2, _⟩; exact hi (List.mem_map.2 ⟨it, by simp, Prod.ext c1 c2⟩)
      · rintro ⟨c1, c2, _⟩; exact hi (List.mem_map.2 ⟨e0, by simp [he0], Prod.ext c1 c2⟩)

theorem build_inv (dim : Nat) : ∀ (L : List Item), (L.map Prod.snd).Nodup → AtMostTwo L → (∀ e ∈ L, e.2.2 < dim + 1) →
    Inv dim L (L.foldl enter ⟨[], fun _ => List.replicate (dim + 1) (-1)⟩) := by
  intro L
  induction L using List.reverseRecOn with
  | nil =>
    intro _ _ _
    refine ⟨by simp, by simp, by simp, by simp, fun i m hm _ => ?_⟩
    simp only [List.foldl_nil]
    rw [List.getD_eq_getElem _ _ (by simpa using hm)]
    simp
  | append_singleton L it ih =>
    intro h1 h2 h3
    rw [List.foldl_append, List.foldl_cons, List.foldl_nil]
    refine enter_inv (ih ?_ (fun e he e' he' e'' he'' => h2 e (by simp [he]) e' (by simp [he']) e'' (by simp [he'']))
      fun e he => h3 e (by simp [he])) it h1 h2 h3
    rw [List.map_append, List.nodup_append] at h1
    exact h1.1

/-! Faces -/

structure FaceInv (L : List Item) (s : Build) : Prop where
  lookup : ∀ e, e ∈ s.lookup ↔ e ∈ L ∧ Alone L e
  conn : ∀ i j, j ∈ s.conn i ↔ ∃ e ∈ L, ∃ e' ∈ L, e.1 = e'.1 ∧ e.2.1 = i ∧ (e'.2.1 : Int) = j ∧ e.2.1 ≠ e'.2.1

theorem enterFace_inv {L : List Item} {s : Build} (h : FaceInv L s) (it : Item) (hne : it ∉ L)
    (h2 : AtMostTwo (L ++ [it])) : FaceInv (L ++ [it]) (enterFace s it) := by
  unfold enterFace
  cases hf : s.lookup.find? (fun e => e.1 = it.1) with
  | none =>
    have hn := no_key h.lookup h2 hne hf
    dsimp only
    refine ⟨lookup_new h.lookup hne hn, fun i j => ?_⟩
    rw [h.conn]
    constructor
    · rintro ⟨e, he, e', he', r⟩
      exact ⟨e, by simp [he], e', by simp [he'], r⟩
    · rintro ⟨e, he, e', he', r1, r2, r3, r4⟩
      rcases List.mem_append.1 he with he | he <;> rcases List.mem_append.1 he' with he' | he'
      · exact ⟨e, he, e', he', r1, r2, r3, r4⟩
      · rw [List.mem_singleton.1 he'] at r1; exact absurd r1 (hn e he)
      · rw [List.mem_singleton.1 he] at r1; exact absurd r1.symm (hn e' he')
      · rw [List.mem_singleton.1 he, List.mem_singleton.1 he'] at r4; exact absurd rfl r4
  | some e0 =>
    obtain ⟨q1, hk0⟩ := find_some hf
    obtain ⟨he0, ha0⟩ := (h.lookup e0).1 q1
    have expand : ∀ i j, (∃ e ∈ L ++ [it], ∃ e' ∈ L ++ [it], e.1 = e'.1 ∧ e.2.1 = i ∧ (e'.2.1 : Int) = j ∧ e.2.1 ≠ e'.2.1) ↔
        (∃ e ∈ L, ∃ e' ∈ L, e.1 = e'.1 ∧ e.2.1 = i ∧ (e'.2.1 : Int) = j ∧ e.2.1 ≠ e'.2.1) ∨
        (it.2.1 ≠ e0.2.1 ∧ ((it.2.1 = i ∧ (e0.2.1 : Int) = j) ∨ (e0.2.1 = i ∧ (it.2.1 : Int) = j))) := by
      intro i j
      constructor
      · rintro ⟨e, he, e', he', r1, r2, r3, r4⟩
        rcases List.mem_append.1 he with he | he <;> rcases List.mem_append.1 he' with he' | he'
        · exact Or.inl ⟨e, he, e', he', r1, r2, r3, r4⟩
        · rw [List.mem_singleton.1 he'] at r1 r3 r4
          have : e = e0 := ha0 e he (by rw [hk0, r1])
          subst this
          exact Or.inr ⟨Ne.symm r4, Or.inr ⟨r2, r3⟩⟩
        · rw [List.mem_singleton.1 he] at r1 r2 r4
          have : e' = e0 := ha0 e' he' (by rw [hk0, r1])
          subst this
          exact Or.inr ⟨r4, Or.inl ⟨r2, r3⟩⟩
        · rw [List.mem_singleton.1 he, List.mem_singleton.1 he'] at r4; exact absurd rfl r4
      · rintro (⟨e, he, e', he', r⟩ | ⟨r1, ⟨r2, r3⟩ | ⟨r2, r3⟩⟩)
        · exact ⟨e, by simp [he], e', by simp [he'], r⟩
        · exact ⟨it, by simp, e0, by simp [he0], hk0.symm, r2, r3, r1⟩
        · exact ⟨e0, by simp [he0], it, by simp, hk0, r2, r3, Ne.symm r1⟩
    dsimp only
    by_cases hc : it.2.1 ≠ e0.2.1
    · rw [if_pos hc]
      refine ⟨lookup_hit h.lookup hne he0 hk0 ha0, fun i j => ?_⟩
      rw [expand, ← h.conn]
      dsimp only
      by_cases q : i = e0.2.1
      · subst q
        rw [Function.update_self, Function.update_of_ne (Ne.symm hc), List.mem_append, List.mem_singleton]
        constructor
        · rintro (hh | hh)
          · exact Or.inl hh
          · exact Or.inr ⟨hc, Or.inr ⟨rfl, hh.symm⟩⟩
        · rintro (hh | ⟨_, ⟨hh, _⟩ | ⟨_, hh⟩⟩)
          · exact Or.inl hh
          · exact absurd hh hc
          · exact Or.inr hh.symm
      · rw [Function.update_of_ne q]
        by_cases q' : i = it.2.1
        · subst q'
          rw [Function.update_self, List.mem_append, List.mem_singleton]
          constructor
          · rintro (hh | hh)
            · exact Or.inl hh
            · exact Or.inr ⟨hc, Or.inl ⟨rfl, hh.symm⟩⟩
          · rintro (hh | ⟨_, ⟨_, hh⟩ | ⟨hh, _⟩⟩)
            · exact Or.inl hh
            · exact Or.inr hh.symm
            · exact absurd hh.symm hc
        · rw [Function.update_of_ne q']
          constructor
          · exact Or.inl
          · rintro (hh | ⟨_, ⟨hh, _⟩ | ⟨hh, _⟩⟩)
            · exact hh
            · exact absurd hh.symm q'
            · exact absurd hh.symm q
    · rw [if_neg hc]
      refine ⟨lookup_hit h.lookup hne he0 hk0 ha0, fun i j => ?_⟩
      rw [expand, ← h.conn]
      constructor
      · exact Or.inl
      · rintro (hh | ⟨hh, _⟩)
        · exact hh
        · exact absurd hh hc

theorem build_faces : ∀ (L : List Item), (L.map Prod.snd).Nodup → AtMostTwo L → FaceInv L (L.foldl enterFace ⟨[], fun _ => []⟩) := by
  intro L
  induction L using List.reverseRecOn with
  | nil => intro _ _; exact ⟨by simp, by simp⟩
  | append_singleton L it ih =>
    intro h1 h2
    rw [List.foldl_append, List.foldl_cons, List.foldl_nil]
    rw [List.map_append, List.nodup_append] at h1
    refine enterFace_inv (ih h1.1 fun e he e' he' e'' he'' => h2 e (by simp [he]) e' (by simp [he']) e'' (by simp [he''])) it ?_ h2
    intro q
    exact h1.2.2 it.2 (List.mem_map.2 ⟨it, q, rfl⟩) it.2 (by simp) rfl

/-! Items -/

theorem facets_length (dim : Nat) (hd : dim = 1 ∨ dim = 2 ∨ dim = 3) (c : List Nat) : (facets dim c).length = dim + 1 := by
  rcases hd with rfl | rfl | rfl <;> rfl

theorem mem_items (dim : Nat) (hd : dim = 1 ∨ dim = 2 ∨ dim = 3) (cells : List (List Nat)) (f : List Nat) (i m : Nat) :
    (f, i, m) ∈ items dim cells ↔ i < cells.length ∧ m < dim + 1 ∧ f = (facets dim (cells.getD i [])).getD m [] := by
  unfold items
  rw [List.mem_flatMap]
  constructor
  · rintro ⟨p, hp, hf⟩
    obtain ⟨g, hg, e⟩ := List.mem_map.1 hf
    cases e
    have h1 := List.mem_zipIdx' hp
    have h2 := List.mem_zipIdx' hg
    obtain ⟨a, b⟩ := h1
    obtain ⟨c, d⟩ := h2
    rw [facets_length dim hd] at c
    refine ⟨a, c, ?_⟩
    rw [d, List.getD_eq_getElem _ _ a, List.getD_eq_getElem _ _ (by rw [facets_length dim hd]; exact c)]
    simp only [b]
  · rintro ⟨h1, h2, rfl⟩
    refine ⟨(cells.getD i [], i), ?_, List.mem_map.2 ⟨((facets dim (cells.getD i [])).getD m [], m), ?_, rfl⟩⟩
    · rw [List.getD_eq_getElem _ _ h1]
      exact List.mem_zipIdx_iff_getElem?.2 (by simp [h1])
    · have : m < (facets dim (cells.getD i [])).length := by rw [facets_length dim hd]; exact h2
      rw [List.getD_eq_getElem _ _ this]
      exact List.mem_zipIdx_iff_getElem?.2 (by simp [this])

theorem items_nodup (dim : Nat) (cells : List (List Nat)) : ((items dim cells).map Prod.snd).Nodup := by
  unfold items
  rw [List.map_flatMap, List.nodup_flatMap]
  constructor
  · intro p _
    rw [List.map_map]
    have e : (List.map (Prod.snd ∘ fun f : List Nat × Nat => ((f.1, p.2, f.2) : Item)) (facets dim p.1).zipIdx) =
        ((facets dim p.1).zipIdx.map Prod.snd).map fun m => (p.2, m) := by
      rw [List.map_map]; rfl
    rw [e, List.zipIdx_map_snd]
    exact List.Nodup.map (fun a b h => by cases h; rfl) List.nodup_range'
  · have : cells.zipIdx.Pairwise fun a b => a.2 ≠ b.2 := by
      have h : (cells.zipIdx.map Prod.snd).Nodup := by rw [List.zipIdx_map_snd]; exact List.nodup_range'
      exact List.pairwise_map.1 h
    refine this.imp fun {a b} hab => ?_
    simp only [Function.onFun, List.disjoint_left, List.mem_map]
    rintro x ⟨y, ⟨z, _, rfl⟩, rfl⟩ ⟨y', ⟨z', _, rfl⟩, h⟩
    exact hab (congrArg Prod.fst h).symm

/-! ### Layers -/

section near

variable {keys : Nat → Prop} {cells : Nat → List Nat} {S : Nat → Prop}

theorem _root_.PyNucleus.Spec.Near.succ : ∀ {k c : Nat}, Near keys cells S k c → Near keys cells S (k + 1) c
  | 0, _, h => h.elim
  | _ + 1, _, Or.inl h => Or.inl h
  | _ + 1, _, Or.inr ⟨c', h, r⟩ => Or.inr ⟨c', h.succ, r⟩

theorem _root_.PyNucleus.Spec.Near.mono {k l c : Nat} (h : Near keys cells S k c) (hkl : k ≤ l) : Near keys cells S l c := by
  induction hkl with
  | refl => exact h
  | step _ ih => exact ih.succ

theorem _root_.PyNucleus.Spec.Near.key (hS : ∀ c, S c → keys c) : ∀ {k c : Nat}, Near keys cells S k c → keys c
  | 0, _, h => h.elim
  | _ + 1, c, Or.inl h => hS c h
  | _ + 1, _, Or.inr ⟨_, _, h, _⟩ => h

end near

theorem nextLayer_spec {keys : List Nat} {cells : Nat → List Nat} {S : Nat → Prop} (hS : ∀ c, S c → c ∈ keys) (k : Nat) {prev cur : List Nat}
    (hp : ∀ c, c ∈ prev ↔ Near (· ∈ keys) cells S k c ∧ ¬ Near (· ∈ keys) cells S (k - 1) c)
    (hc : ∀ c, c ∈ cur ↔ Near (· ∈ keys) cells S (k + 1) c ∧ ¬ Near (· ∈ keys) cells S k c) :
    ∃ next, nextLayer keys cells prev cur = some next ∧
      ∀ c, c ∈ next ↔ Near (· ∈ keys) cells S (k + 2) c ∧ ¬ Near (· ∈ keys) cells S (k + 1) c := by
  have curKeys : ∀ c ∈ cur, c ∈ keys := fun c h => ((hc c).1 h).1.key hS
  refine ⟨_, by
    unfold nextLayer
    dsimp only
    rw [if_pos]
    rw [List.all_eq_true]
    intro v hv
    obtain ⟨c, h1, h2⟩ := List.mem_flatMap.1 hv
    have : c ∈ vertex2cells keys cells v := List.mem_filter.2 ⟨curKeys c h1, by simpa using h2⟩
    cases hh : vertex2cells keys cells v with
    | nil => rw [hh] at this; cases this
    | cons a l => rfl, fun c => ?_⟩
  rw [List.mem_filter]
  have memb : c ∈ (cur.flatMap cells).flatMap (vertex2cells keys cells) ↔ ∃ c' ∈ cur, c ∈ keys ∧ ∃ v ∈ cells c', v ∈ cells c := by
    rw [List.mem_flatMap]
    constructor
    · rintro ⟨v, hv, hvc⟩
      obtain ⟨c', h1, h2⟩ := List.mem_flatMap.1 hv
      obtain ⟨h3, h4⟩ := List.mem_filter.1 hvc
      exact ⟨c', h1, h3, v, h2, by simpa using h4⟩
    · rintro ⟨c', h1, h2, v, h3, h4⟩
      exact ⟨v, List.mem_flatMap.2 ⟨c', h1, h3⟩, List.mem_filter.2 ⟨h2, by simpa using h4⟩⟩
  rw [memb]
  simp only [decide_eq_true_eq]
  constructor
  · rintro ⟨⟨c', h1, h2, v, h3, h4⟩, h5, h6⟩
    obtain ⟨h7, h8⟩ := (hc c').1 h1
    refine ⟨Or.inr ⟨c', h7, h2, v, h3, h4⟩, fun h9 => ?_⟩
    have h10 : Near (· ∈ keys) cells S k c := by
      by_contra h; exact h5 ((hc c).2 ⟨h9, h⟩)
    have h11 : Near (· ∈ keys) cells S (k - 1) c := by
      by_contra h; exact h6 ((hp c).2 ⟨h10, h⟩)
    cases k with
    | zero => exact h11
    | succ k => exact h8 (Or.inr ⟨c, h11, curKeys c' h1, v, h4, h3⟩)
  · rintro ⟨h1, h2⟩
    refine ⟨?_, fun h => h2 ((hc c).1 h).1, fun h => h2 ((hp c).1 h).1.succ⟩
    rcases h1 with h1 | ⟨c', h3, h4, v, h5, h6⟩
    · exact absurd (Or.inl h1) h2
    · refine ⟨c', (hc c').2 ⟨h3, fun h => h2 (Or.inr ⟨c', h, h4, v, h5, h6⟩)⟩, h4, v, h5, h6⟩

theorem moreLayers_spec {keys : List Nat} {cells : Nat → List Nat} {S : Nat → Prop} (hS : ∀ c, S c → c ∈ keys) : ∀ (n k : Nat) (prev cur : List Nat),
    (∀ c, c ∈ prev ↔ Near (· ∈ keys) cells S k c ∧ ¬ Near (· ∈ keys) cells S (k - 1) c) →
    (∀ c, c ∈ cur ↔ Near (· ∈ keys) cells S (k + 1) c ∧ ¬ Near (· ∈ keys) cells S k c) →
    ∃ ls, moreLayers keys cells n prev cur = some ls ∧ ls.length = n + 1 ∧
      ∀ j, j < n + 1 → ∀ c, c ∈ ls.getD j [] ↔ Near (· ∈ keys) cells S (k + j + 1) c ∧ ¬ Near (· ∈ keys) cells S (k + j) c := by
  intro n
  induction n with
  | zero =>
    intro k prev cur _ hc
    refine ⟨[cur], rfl, rfl, fun j hj c => ?_⟩
    obtain rfl : j = 0 := by omega
    exact hc c
  | succ n ih =>
    intro k prev cur hp hc
    obtain ⟨next, h1, h2⟩ := nextLayer_spec hS k hp hc
    obtain ⟨ls, h3, h4, h5⟩ := ih (k + 1) cur next (by simpa using hc) h2
    refine ⟨cur :: ls, by unfold moreLayers; rw [h1]; dsimp only; rw [h3]; rfl, by simp [h4], fun j hj c => ?_⟩
    cases j with
    | zero => exact hc c
    | succ j =>
      rw [List.getD_cons_succ, h5 j (by omega) c]
      rw [show k + 1 + j = k + (j + 1) by omega]

theorem getLayer_spec {keys : List Nat} {cells : Nat → List Nat} {ofCells : List Nat} (hS : ∀ c ∈ ofCells, c ∈ keys) (depth : Nat) :
    ∃ ls, getLayer keys cells depth ofCells = some ls ∧ ls.length = depth ∧
      ∀ j, j < depth → ∀ c, c ∈ ls.getD j [] ↔
        Near (· ∈ keys) cells (· ∈ ofCells) (j + 1) c ∧ ¬ Near (· ∈ keys) cells (· ∈ ofCells) j c := by
  unfold getLayer
  cases depth with
  | zero => exact ⟨[], rfl, rfl, fun j hj => by omega⟩
  | succ n =>
    rw [if_neg (by omega), show n + 1 - 1 = n by omega]
    obtain ⟨ls, h1, h2, h3⟩ := moreLayers_spec (S := (· ∈ ofCells)) hS n 0 [] ofCells (by simp [Near]) (by simp [Near])
    refine ⟨ls, h1, h2, fun j hj c => ?_⟩
    have := h3 j hj c
    simpa using this

theorem mem_flatten_layers {keys : List Nat} {cells : Nat → List Nat} {S : Nat → Prop} {ls : List (List Nat)} {d : Nat} (hl : ls.length = d)
    (h : ∀ j, j < d → ∀ c, c ∈ ls.getD j [] ↔ Near (· ∈ keys) cells S (j + 1) c ∧ ¬ Near (· ∈ keys) cells S j c) (c : Nat) :
    c ∈ ls.flatten ↔ Near (· ∈ keys) cells S d c := by
  rw [List.mem_flatten]
  constructor
  · rintro ⟨l, h1, h2⟩
    obtain ⟨j, hj, rfl⟩ := List.getElem_of_mem h1
    have := (h j (by omega) c).1 (by rwa [List.getD_eq_getElem _ _ hj])
    exact this.1.mono (by omega)
  · intro hn
    have key : ∀ k, k ≤ d → Near (· ∈ keys) cells S k c → ∃ j, j < k ∧ Near (· ∈ keys) cells S (j + 1) c ∧ ¬ Near (· ∈ keys) cells S j c := by
      intro k
      induction k with
      | zero => intro _ h; exact h.elim
      | succ k ih =>
        intro hk hh
        by_cases q : Near (· ∈ keys) cells S k c
        · obtain ⟨j, h1, h2⟩ := ih (by omega) q
          exact ⟨j, by omega, h2⟩
        · exact ⟨k, by omega, hh, q⟩
    obtain ⟨j, hj, hh⟩ := key d le_rfl hn
    refine ⟨ls.getD j [], ?_, (h j hj c).2 hh⟩
    rw [List.getD_eq_getElem _ _ (by omega)]
    exact List.getElem_mem _

end PyNucleus.BoundaryLayer
