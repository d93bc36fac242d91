import Verif.Spec.Dependencies
import Mathlib.Tactic.Tauto
import Mathlib.Tactic.ByContra

/-! # Lemmas: computed properties -/

namespace PyNucleus.Dependencies

variable {V : Type}

/-- `g` is computed from `p`. -/
def Edge (S : System V) (p g : Nat) : Prop := ∃ b, p ∈ S.req b ∧ S.builderOf g = some b

/-- `g` is computed from `p`, directly or not. -/
abbrev Desc (S : System V) : Nat → Nat → Prop := Relation.TransGen (Edge S)

theorem setTo_same {α : Type} (f : Nat → α) (i : Nat) (a : α) : setTo f i a i = a := if_pos rfl
theorem setTo_other {α : Type} (f : Nat → α) (i : Nat) (a : α) {j : Nat} (h : j ≠ i) :
    setTo f i a j = f j := if_neg h

theorem foldl_keep {α : Type} (f : (Nat → Bool) → α → Nat → Bool) (q : Nat) (l : List α)
    (h : ∀ st, ∀ a ∈ l, st q = false → f st a q = false) :
    ∀ st, st q = false → l.foldl f st q = false := by
  induction l with
  | nil => intro st hst; exact hst
  | cons a l ih =>
    intro st hst
    exact ih (fun st b hb => h st b (List.mem_cons_of_mem _ hb)) _ (h st a List.mem_cons_self hst)

theorem foldl_make {α : Type} (f : (Nat → Bool) → α → Nat → Bool) (q : Nat) (l : List α)
    (h : ∀ st, ∀ a ∈ l, st q = false → f st a q = false) (a : α) (ha : a ∈ l)
    (hm : ∀ st, f st a q = false) : ∀ st, l.foldl f st q = false := by
  induction l with
  | nil => cases ha
  | cons c l ih =>
    intro st
    rcases List.mem_cons.mp ha with rfl | ha'
    · exact foldl_keep f q l (fun st b hb => h st b (List.mem_cons_of_mem _ hb)) _ (hm st)
    · exact ih (fun st b hb => h st b (List.mem_cons_of_mem _ hb)) ha' _

theorem foldl_frame {α : Type} (f : (Nat → Bool) → α → Nat → Bool) (q : Nat) (l : List α)
    (h : ∀ st, ∀ a ∈ l, f st a q = st q) : ∀ st, l.foldl f st q = st q := by
  induction l with
  | nil => intro st; rfl
  | cons a l ih =>
    intro st
    rw [List.foldl_cons, ih (fun st b hb => h st b (List.mem_cons_of_mem _ hb)), h st a List.mem_cons_self]

theorem invalidate_keep (S : System V) (q : Nat) : ∀ (fuel : Nat) (st : Nat → Bool) (p : Nat),
    st q = false → invalidate S fuel st p q = false
  | 0, _, _, h => h
  | fuel + 1, st, p, h => by
    unfold invalidate
    refine foldl_keep _ q _ (fun st b _ hst => ?_) st h
    refine foldl_keep _ q _ (fun st g _ hst => ?_) st hst
    apply invalidate_keep S q fuel
    unfold setTo
    split
    · rfl
    · exact hst

theorem invalidate_frame (S : System V) {rank : Nat → Nat} (hS : S.OK rank) (q : Nat) :
    ∀ (fuel : Nat) (st : Nat → Bool) (p : Nat), ¬ Desc S p q → invalidate S fuel st p q = st q
  | 0, _, _, _ => rfl
  | fuel + 1, st, p, h => by
    unfold invalidate
    refine foldl_frame _ q _ (fun st b hb => ?_) st
    refine foldl_frame _ q _ (fun st g hg => ?_) st
    have hp : p ∈ S.req b := by
      have := (List.mem_filter.mp hb).2
      simpa using this
    have he : Edge S p g := ⟨b, hp, (hS.gen_iff b g).mp hg⟩
    rw [invalidate_frame S hS q fuel _ g (fun hd => h (Relation.TransGen.head he hd))]
    exact setTo_other _ _ _ (fun e => h (e ▸ Relation.TransGen.single he))

theorem invalidate_all (S : System V) {rank : Nat → Nat} (hS : S.OK rank) (q : Nat) :
    ∀ (fuel : Nat) (st : Nat → Bool) (p : Nat), S.depth ≤ fuel + rank p → Desc S p q →
      invalidate S fuel st p q = false
  | 0, _, p, h, _ => by have := hS.bound p; omega
  | fuel + 1, st, p, h, hd => by
    obtain ⟨g, ⟨b, hb, hg⟩, hgq⟩ := Relation.TransGen.head'_iff.mp hd
    unfold invalidate
    have hkeep : ∀ st : Nat → Bool, ∀ g', st q = false →
        invalidate S fuel (setTo st g' false) g' q = false := by
      intro st g' hst
      apply invalidate_keep
      unfold setTo
      split
      · rfl
      · exact hst
    refine foldl_make _ q _ (fun st b' _ hst => foldl_keep _ q _ (fun st g' _ hst => hkeep st g' hst) st hst)
      b (List.mem_filter.mpr ⟨hS.mem g b hg, by simpa using hb⟩) (fun st => ?_) st
    refine foldl_make _ q _ (fun st g' _ hst => hkeep st g' hst) g ((hS.gen_iff b g).mpr hg) (fun st => ?_) st
    rcases Relation.reflTransGen_iff_eq_or_transGen.mp hgq with e | hd'
    · subst e
      exact invalidate_keep S _ fuel _ _ (setTo_same _ _ _)
    · exact invalidate_all S hS q fuel _ g (by have := hS.lt g b p hg hb; omega) hd'

theorem invalidate_eq (S : System V) {rank : Nat → Nat} (hS : S.OK rank) (st : Nat → Bool) (p q : Nat) :
    invalidate S S.depth st p q = true ↔ st q = true ∧ ¬ Desc S p q := by
  constructor
  · intro h
    have hd : ¬ Desc S p q := by
      intro hd
      rw [invalidate_all S hS q S.depth st p (by omega) hd] at h
      cases h
    exact ⟨by rwa [invalidate_frame S hS q _ st p hd] at h, hd⟩
  · rintro ⟨h, hd⟩
    rw [invalidate_frame S hS q _ st p hd]; exact h

theorem Desc.rank_lt (S : System V) {rank : Nat → Nat} (hS : S.OK rank) {p q : Nat} (h : Desc S p q) :
    rank p < rank q := by
  induction h with
  | single h => obtain ⟨b, h1, h2⟩ := h; exact hS.lt _ b _ h2 h1
  | tail _ h ih => obtain ⟨b, h1, h2⟩ := h; exact Nat.lt_trans ih (hS.lt _ b _ h2 h1)

/-- The invariant. -/
structure Good [DecidableEq V] (S : System V) (s : State V) : Prop where
  closed : ∀ g b, S.builderOf g = some b → s.valid g = true → ∀ r ∈ S.req b, s.valid r = true
  value : ∀ g b, S.builderOf g = some b → s.valid g = true → s.value g = S.fn b ((S.req b).map s.value) g
  cache : ∀ b, (∀ r ∈ S.req b, s.cached b r = none) ∨ ∃ u : Nat → Option V,
    (∀ g ∈ S.gen b, s.value g = S.fn b ((S.req b).map u) g) ∧
    ∀ r ∈ S.req b, ∀ v, s.cached b r = some v → u r = some v
  same : ∀ g g' b, S.builderOf g = some b → S.builderOf g' = some b → s.valid g = s.valid g'
  isSome : ∀ p, s.valid p = true → s.value p ≠ none

theorem good_initial [DecidableEq V] (S : System V) : Good S (initial : State V) where
  closed := fun _ _ _ h => by cases h
  value := fun _ _ _ h => by cases h
  cache := fun _ => Or.inl fun _ _ => rfl
  same := fun _ _ _ _ _ => rfl
  isSome := fun _ h => by cases h

theorem valid_up [DecidableEq V] {S : System V} {s : State V} (G : Good S s) {p q : Nat} (h : Desc S p q)
    (hq : s.valid q = true) : s.valid p = true := by
  induction h with
  | single h => obtain ⟨b, h1, h2⟩ := h; exact G.closed _ b h2 hq _ h1
  | tail _ h ih => obtain ⟨b, h1, h2⟩ := h; exact ih (G.closed _ b h2 hq _ h1)

theorem set_valid [DecidableEq V] (S : System V) {rank : Nat → Nat} (hS : S.OK rank) (s : State V) (p : Nat)
    (v : Option V) (q : Nat) :
    (set S s p v).valid q = true ↔ q = p ∨ (s.valid q = true ∧ ¬ Desc S p q) := by
  show setTo _ _ _ _ = true ↔ _
  by_cases h : q = p
  · rw [h, setTo_same]; simp
  · rw [setTo_other _ _ _ h, invalidate_eq S hS]; simp [h]

/-- Setting an input. -/
theorem good_set [DecidableEq V] {S : System V} {rank : Nat → Nat} (hS : S.OK rank) {s : State V}
    (G : Good S s) (p : Nat) (v : Option V) (hp : S.builderOf p = none) (hv : v ≠ none) :
    Good S (set S s p v) := by
  have hne : ∀ g b, S.builderOf g = some b → g ≠ p := fun g b h e => by rw [e, hp] at h; cases h
  have hval : ∀ q, q ≠ p → (set S s p v).value q = s.value q := fun q h => setTo_other _ _ _ h
  have hold : ∀ g b, S.builderOf g = some b → (set S s p v).valid g = true →
      s.valid g = true ∧ ¬ Desc S p g := fun g b h hg => by
    rcases (set_valid S hS s p v g).mp hg with e | h'
    · exact absurd e (hne g b h)
    · exact h'
  refine ⟨?_, ?_, ?_, ?_, ?_⟩
  · intro g b hg h r hr
    obtain ⟨h1, h2⟩ := hold g b hg h
    rw [set_valid S hS]
    right
    exact ⟨G.closed g b hg h1 r hr, fun hd => h2 (Relation.TransGen.tail hd ⟨b, hr, hg⟩)⟩
  · intro g b hg h
    obtain ⟨h1, h2⟩ := hold g b hg h
    rw [hval g (hne g b hg), G.value g b hg h1]
    congr 1
    refine List.map_congr_left fun r hr => (hval r fun e => ?_).symm
    exact h2 (Relation.TransGen.single ⟨b, e ▸ hr, hg⟩)
  · intro b
    rcases G.cache b with h | ⟨u, h1, h2⟩
    · exact Or.inl h
    · exact Or.inr ⟨u, fun g hg => by rw [hval g (hne g b ((hS.gen_iff b g).mp hg))]; exact h1 g hg, h2⟩
  · intro g g' b hg hg'
    have key : ∀ a c, S.builderOf a = some b → S.builderOf c = some b → (set S s p v).valid a = true →
        (set S s p v).valid c = true := by
      intro a c ha hc h
      obtain ⟨h1, h2⟩ := hold a b ha h
      rw [set_valid S hS]
      right
      refine ⟨by rw [← G.same a c b ha hc]; exact h1, fun hd => h2 ?_⟩
      obtain ⟨r, hpr, ⟨b', hb', hcb'⟩⟩ := Relation.TransGen.tail'_iff.mp hd
      rw [hc] at hcb'
      cases hcb'
      exact Relation.TransGen.tail' hpr ⟨b, hb', ha⟩
    exact Bool.eq_iff_iff.mpr ⟨key g g' hg hg', key g' g hg' hg⟩
  · intro q h
    by_cases e : q = p
    · subst e
      show setTo _ _ _ _ ≠ none
      rw [setTo_same]; exact hv
    · rw [hval q e]
      rcases (set_valid S hS s p v q).mp h with h' | h'
      · exact absurd h' e
      · exact G.isSome q h'.1

/-- The loop that sets all properties of a builder, if everything below is invalid. -/
theorem set_loop [DecidableEq V] {S : System V} {rank : Nat → Nat} (hS : S.OK rank)
    (f : Nat → Option V) : ∀ (l : List Nat) (s : State V),
    (∀ g ∈ l, ∀ q, Desc S g q → s.valid q = false) → (∀ g ∈ l, ∀ g' ∈ l, ¬ Desc S g g') →
    (∀ q, (l.foldl (fun s g => set S s g (f g)) s).valid q = true ↔ q ∈ l ∨ s.valid q = true) ∧
    (∀ q, (l.foldl (fun s g => set S s g (f g)) s).value q = if q ∈ l then f q else s.value q) ∧
    (l.foldl (fun s g => set S s g (f g)) s).cached = s.cached
  | [], s, _, _ => ⟨fun q => by simp, fun q => by simp, rfl⟩
  | g :: l, s, h1, h2 => by
    have hv : ∀ q, (set S s g (f g)).valid q = true ↔ q = g ∨ s.valid q = true := by
      intro q
      rw [set_valid S hS]
      constructor
      · rintro (h | h)
        · exact Or.inl h
        · exact Or.inr h.1
      · rintro (h | h)
        · exact Or.inl h
        · refine Or.inr ⟨h, fun hd => ?_⟩
          rw [h1 g List.mem_cons_self q hd] at h
          cases h
    obtain ⟨i1, i2, i3⟩ := set_loop hS f l (set S s g (f g))
      (fun g' hg' q hd => by
        rw [← Bool.not_eq_true, hv]
        rintro (e | e)
        · subst e
          exact h2 g' (List.mem_cons_of_mem _ hg') q List.mem_cons_self hd
        · rw [h1 g' (List.mem_cons_of_mem _ hg') q hd] at e
          cases e)
      (fun a ha c hc => h2 a (List.mem_cons_of_mem _ ha) c (List.mem_cons_of_mem _ hc))
    rw [List.foldl_cons]
    refine ⟨fun q => ?_, fun q => ?_, i3⟩
    · rw [i1 q, hv q, List.mem_cons]
      tauto
    · rw [i2 q]
      by_cases hq : q ∈ l
      · rw [if_pos hq, if_pos (List.mem_cons_of_mem _ hq)]
      · rw [if_neg hq]
        show setTo _ _ _ _ = _
        by_cases e : q = g
        · subst e; rw [setTo_same, if_pos List.mem_cons_self]
        · rw [setTo_other _ _ _ e, if_neg (by rw [List.mem_cons]; rintro (h | h); exacts [e h, hq h])]

theorem valid_loop (l : List Nat) : ∀ (st : Nat → Bool) (q : Nat),
    l.foldl (fun st g => setTo st g true) st q = true ↔ q ∈ l ∨ st q = true := by
  induction l with
  | nil => intro st q; simp
  | cons g l ih =>
    intro st q
    rw [List.foldl_cons, ih, List.mem_cons]
    unfold setTo
    by_cases e : q = g
    · simp [e]
    · simp [e]

theorem keepAll_eq [DecidableEq V] (S : System V) (old u : Nat → Option V) : ∀ (l : List Nat) (r : Nat),
    r ∈ l → keepAll S old l (l.map u) r = keep S (u r) (old r)
  | r' :: l, r, h => by
    show setTo _ _ _ _ = _
    by_cases e : r = r'
    · subst e; rw [setTo_same]
    · rw [setTo_other _ _ _ e]
      exact keepAll_eq S old u l r ((List.mem_cons.mp h).resolve_left e)

/-- The call of a builder with valid arguments. -/
theorem good_finish [DecidableEq V] {S : System V} {rank : Nat → Nat} (hS : S.OK rank)
    (hreq : ∀ b ∈ S.builders, S.req b ≠ [])
    (hfn : ∀ b args g, (∀ a ∈ args, a ≠ none) → S.fn b args g ≠ none)
    {s : State V} (G : Good S s) (p b : Nat) (hp : S.builderOf p = some b) (hinv : s.valid p = false)
    (hr : ∀ r ∈ S.req b, s.valid r = true) :
    Good S (finish S s b ((S.req b).map s.value)) ∧
    (finish S s b ((S.req b).map s.value)).valid p = true ∧
    ∀ q, s.valid q = true → (finish S s b ((S.req b).map s.value)).valid q = true ∧
      (finish S s b ((S.req b).map s.value)).value q = s.value q := by
  have hgen : ∀ g, g ∈ S.gen b → S.builderOf g = some b := fun g => (hS.gen_iff b g).mp
  have hginv : ∀ g ∈ S.gen b, s.valid g = false := fun g hg => by
    rw [G.same g p b (hgen g hg) hp]; exact hinv
  have hdinv : ∀ g ∈ S.gen b, ∀ q, Desc S g q → s.valid q = false := fun g hg q hd => by
    by_contra h
    have := valid_up G hd (by simpa using h)
    rw [hginv g hg] at this
    cases this
  have hgg : ∀ g ∈ S.gen b, ∀ g' ∈ S.gen b, ¬ Desc S g g' := fun g hg g' hg' hd => by
    obtain ⟨r, hgr, ⟨b', hb', hcb'⟩⟩ := Relation.TransGen.tail'_iff.mp hd
    rw [hgen g' hg'] at hcb'
    cases hcb'
    have h1 := hS.lt g b r (hgen g hg) hb'
    rcases Relation.reflTransGen_iff_eq_or_transGen.mp hgr with e | hd'
    · subst e; omega
    · have := Desc.rank_lt S hS hd'; omega
  have hgr : ∀ g ∈ S.gen b, g ∉ S.req b := fun g hg h => by
    have := hS.lt g b g (hgen g hg) h; omega
  have hpg : p ∈ S.gen b := (hS.gen_iff b p).mpr hp
  -- everything that the two cases have in common
  have common : ∀ s' : State V,
      (∀ q, s'.valid q = true ↔ q ∈ S.gen b ∨ s.valid q = true) →
      (∀ q, q ∉ S.gen b → s'.value q = s.value q) →
      (∀ g ∈ S.gen b, s'.value g = S.fn b ((S.req b).map s.value) g) →
      (∀ b', b' ≠ b → s'.cached b' = s.cached b') →
      (∀ r ∈ S.req b, ∀ v, s'.cached b r = some v → s.value r = some v) →
      Good S s' ∧ s'.valid p = true ∧ ∀ q, s.valid q = true → s'.valid q = true ∧ s'.value q = s.value q := by
    intro s' hv hval hvalg hc hcb
    have hreqv : ∀ b', (∀ r ∈ S.req b', s.valid r = true) →
        (S.req b').map s'.value = (S.req b').map s.value := fun b' h =>
      List.map_congr_left fun r hr => hval r fun hg => by
        have := h r hr
        rw [hginv r hg] at this
        cases this
    refine ⟨⟨?_, ?_, ?_, ?_, ?_⟩, (hv p).mpr (Or.inl hpg), fun q hq => ⟨(hv q).mpr (Or.inr hq), hval q fun hg => ?_⟩⟩
    · intro g b' hg h r hr'
      rw [hv]
      right
      rcases (hv g).mp h with h' | h'
      · rw [hgen g h'] at hg; cases hg; exact hr r hr'
      · exact G.closed g b' hg h' r hr'
    · intro g b' hg h
      rcases (hv g).mp h with h' | h'
      · rw [hgen g h'] at hg
        cases hg
        rw [hvalg g h', hreqv b hr]
      · rw [hval g (fun hgb => by rw [hginv g hgb] at h'; cases h'), G.value g b' hg h',
          hreqv b' (G.closed g b' hg h')]
    · intro b'
      by_cases e : b' = b
      · subst e
        exact Or.inr ⟨s.value, hvalg, hcb⟩
      · rcases G.cache b' with h | ⟨u, h1, h2⟩
        · exact Or.inl fun r hr' => by rw [hc b' e]; exact h r hr'
        · refine Or.inr ⟨u, fun g hg => ?_, fun r hr' v hv' => h2 r hr' v (by rw [← hc b' e]; exact hv')⟩
          rw [hval g fun hgb => e (Option.some.inj (((hS.gen_iff b' g).mp hg).symm.trans (hgen g hgb)))]
          exact h1 g hg
    · intro g g' b' hg hg'
      have hiff : g ∈ S.gen b ↔ g' ∈ S.gen b := by rw [hS.gen_iff, hS.gen_iff, hg, hg']
      rw [Bool.eq_iff_iff, hv, hv, hiff, G.same g g' b' hg hg']
    · intro q h
      rcases (hv q).mp h with h' | h'
      · rw [hvalg q h']
        apply hfn
        intro a ha
        obtain ⟨r, hr', rfl⟩ := List.mem_map.mp ha
        exact G.isSome r (hr r hr')
      · by_cases hqg : q ∈ S.gen b
        · rw [hginv q hqg] at h'; cases h'
        · rw [hval q hqg]; exact G.isSome q h'
    · rw [hginv q hg] at hq; cases hq
  by_cases hneed : ((S.req b).zip ((S.req b).map s.value)).any (fun ra => differs ra.2 (s.cached b ra.1)) = true
  · have e : finish S s b ((S.req b).map s.value) = (S.gen b).foldl
        (fun s' g => set S s' g (S.fn b ((S.req b).map s.value) g))
        { s with
          cached := setTo s.cached b (keepAll S (s.cached b) (S.req b) ((S.req b).map s.value))
          calls := s.calls ++ [b] } := by
      unfold finish
      exact if_pos hneed
    rw [e]
    obtain ⟨l1, l2, l3⟩ := set_loop hS (S.fn b ((S.req b).map s.value)) (S.gen b)
      { s with
        cached := setTo s.cached b (keepAll S (s.cached b) (S.req b) ((S.req b).map s.value))
        calls := s.calls ++ [b] } hdinv hgg
    refine common _ l1 (fun q hq => by rw [l2 q, if_neg hq]) (fun g hg => by rw [l2 g, if_pos hg])
      (fun b' hb' => by rw [l3]; exact setTo_other _ _ _ hb') (fun r hr' v hv' => ?_)
    rw [l3] at hv'
    dsimp only at hv'
    rw [setTo_same, keepAll_eq S _ _ _ r hr'] at hv'
    unfold keep at hv'
    cases hval : s.value r with
    | none => rw [hval] at hv'; cases hv'
    | some x =>
      rw [hval] at hv'
      dsimp only at hv'
      split at hv'
      · exact hv'
      · split at hv'
        · exact hv'
        · cases hv'
  · have e : finish S s b ((S.req b).map s.value) =
        { s with valid := (S.gen b).foldl (fun st g => setTo st g true) s.valid } := by
      unfold finish
      exact if_neg hneed
    rw [e]
    have hall : ∀ r ∈ S.req b, s.cached b r = s.value r := by
      intro r hr'
      by_contra hne
      apply hneed
      rw [List.any_eq_true]
      refine ⟨(r, s.value r), ?_, ?_⟩
      · rw [List.zip_map_right, List.mem_map]
        refine ⟨(r, r), ?_, rfl⟩
        rw [List.mem_iff_getElem] at hr' ⊢
        obtain ⟨i, hi, he⟩ := hr'
        exact ⟨i, by simpa using hi, by simp [he]⟩
      · unfold differs
        rw [decide_eq_true_eq]
        exact Ne.symm hne
    have hcache : ∃ u : Nat → Option V, (∀ g ∈ S.gen b, s.value g = S.fn b ((S.req b).map u) g) ∧
        ∀ r ∈ S.req b, ∀ v, s.cached b r = some v → u r = some v := by
      rcases G.cache b with h | h
      · obtain ⟨r, hr'⟩ := List.exists_mem_of_ne_nil _ (hreq b (hS.mem p b hp))
        have h1 := hall r hr'
        rw [h r hr'] at h1
        exact absurd h1.symm (G.isSome r (hr r hr'))
      · exact h
    obtain ⟨u, hu1, hu2⟩ := hcache
    have hmap : (S.req b).map u = (S.req b).map s.value := by
      refine List.map_congr_left fun r hr' => ?_
      obtain ⟨v, hv⟩ := Option.ne_none_iff_exists'.mp (G.isSome r (hr r hr'))
      rw [hv]
      exact hu2 r hr' v (by rw [hall r hr', hv])
    exact common _ (fun q => valid_loop _ _ _) (fun q _ => rfl) (fun g hg => by rw [← hmap]; exact hu1 g hg)
      (fun _ _ => rfl) (fun r hr' v hv => by rw [← hall r hr']; exact hv)

/-- `getAll` with a getter that keeps the invariant. -/
theorem getAll_ok [DecidableEq V] {S : System V} (f : State V → Nat → Option (Option V × State V))
    (hf : ∀ s p v s', Good S s → f s p = some (v, s') → Good S s' ∧ s'.valid p = true ∧ v = s'.value p ∧
      ∀ q, s.valid q = true → s'.valid q = true ∧ s'.value q = s.value q) :
    ∀ (l : List Nat) (s : State V) (vs : List (Option V)) (s' : State V), Good S s →
      getAll f s l = some (vs, s') → Good S s' ∧ (∀ p ∈ l, s'.valid p = true) ∧ vs = l.map s'.value ∧
      ∀ q, s.valid q = true → s'.valid q = true ∧ s'.value q = s.value q
  | [], s, vs, s', G, h => by
    unfold getAll at h
    cases h
    exact ⟨G, fun p hp => (by cases hp), rfl, fun q hq => ⟨hq, rfl⟩⟩
  | p :: l, s, vs, s', G, h => by
    unfold getAll at h
    split at h
    · cases h
    · rename_i v s1 h1
      split at h
      · cases h
      · rename_i vs' s2 h2
        cases h
        obtain ⟨G1, hp1, hv1, hk1⟩ := hf s p v s1 G h1
        obtain ⟨G2, hp2, hv2, hk2⟩ := getAll_ok f hf l s1 vs' s' G1 h2
        refine ⟨G2, ?_, ?_, fun q hq => ?_⟩
        · intro q hq
          rcases List.mem_cons.mp hq with rfl | hq
          · exact (hk2 q hp1).1
          · exact hp2 q hq
        · rw [List.map_cons, hv2, hv1, (hk2 p hp1).2]
        · obtain ⟨a, b⟩ := hk1 q hq
          obtain ⟨c, d⟩ := hk2 q a
          exact ⟨c, d.trans b⟩

theorem finish_new [DecidableEq V] {S : System V} {rank : Nat → Nat} (hS : S.OK rank) (s : State V) (b : Nat)
    (args : List (Option V)) (q : Nat) (h : (finish S s b args).valid q = true) :
    q ∈ S.gen b ∨ s.valid q = true := by
  unfold finish at h
  split at h
  · have key : ∀ (l : List Nat) (s : State V), (l.foldl (fun s g => set S s g (S.fn b args g)) s).valid q = true →
        q ∈ l ∨ s.valid q = true := by
      intro l
      induction l with
      | nil => intro s h; exact Or.inr h
      | cons g l ih =>
        intro s h
        rcases ih _ h with h' | h'
        · exact Or.inl (List.mem_cons_of_mem _ h')
        · rcases (set_valid S hS _ _ _ _).mp h' with e | e
          · exact Or.inl (e ▸ List.mem_cons_self)
          · exact Or.inr e.1
    have := key _ _ h
    exact this
  · exact (valid_loop _ _ _).mp h

/-- A getter makes only properties valid that are needed, or come from a builder that is needed. -/
theorem get_frame [DecidableEq V] {S : System V} {rank : Nat → Nat} (hS : S.OK rank) (q bq : Nat)
    (hq : S.builderOf q = some bq) : ∀ (fuel : Nat) (s : State V) (r : Nat) (v : Option V) (s' : State V),
    (∀ x, Relation.ReflTransGen (Edge S) x r → S.builderOf x ≠ some bq) → s.valid q = false →
    get S fuel s r = some (v, s') → s'.valid q = false
  | 0, _, _, _, _, _, _, h => by cases h
  | fuel + 1, s, r, v, s', hx, hs, h => by
    unfold get at h
    split at h
    · split at h
      · cases h; exact hs
      · cases h
    · rename_i b hb
      split at h
      · cases h; exact hs
      · split at h
        · cases h
        · rename_i args s1 h1
          have hall : ∀ (l : List Nat), (∀ x ∈ l, x ∈ S.req b) → ∀ (s : State V) (vs : List (Option V)) (s1 : State V),
              s.valid q = false → getAll (get S fuel) s l = some (vs, s1) → s1.valid q = false := by
            intro l
            induction l with
            | nil => intro _ s vs s1 hs h; unfold getAll at h; cases h; exact hs
            | cons x l ih =>
              intro hl s vs s1 hs h
              unfold getAll at h
              split at h
              · cases h
              · rename_i v1 s2 h2
                split at h
                · cases h
                · rename_i vs' s3 h3
                  cases h
                  refine ih (fun y hy => hl y (List.mem_cons_of_mem _ hy)) s2 _ _ ?_ h3
                  exact get_frame hS q bq hq fuel s x v1 s2 (fun y hy =>
                    hx y (Relation.ReflTransGen.tail hy ⟨b, hl x List.mem_cons_self, hb⟩)) hs h2
          have hs1 := hall _ (fun _ h => h) s args s1 hs h1
          split at h
          · cases h
            by_contra hc
            rcases finish_new hS s1 b args q (by simpa using hc) with h' | h'
            · exact hx r Relation.ReflTransGen.refl (by
                rw [(hS.gen_iff b q).mp h'] at hq; rw [hb]; exact hq)
            · rw [hs1] at h'; cases h'
          · cases h

theorem getAll_frame [DecidableEq V] {S : System V} {rank : Nat → Nat} (hS : S.OK rank) (q bq : Nat)
    (hq : S.builderOf q = some bq) (fuel : Nat) : ∀ (l : List Nat) (s : State V) (vs : List (Option V)) (s' : State V),
    (∀ r ∈ l, ∀ x, Relation.ReflTransGen (Edge S) x r → S.builderOf x ≠ some bq) → s.valid q = false →
    getAll (get S fuel) s l = some (vs, s') → s'.valid q = false
  | [], s, vs, s', _, hs, h => by unfold getAll at h; cases h; exact hs
  | r :: l, s, vs, s', hx, hs, h => by
    unfold getAll at h
    split at h
    · cases h
    · rename_i v1 s2 h2
      split at h
      · cases h
      · rename_i vs' s3 h3
        cases h
        exact getAll_frame hS q bq hq fuel l s2 vs' s' (fun y hy => hx y (List.mem_cons_of_mem _ hy))
          (get_frame hS q bq hq fuel s r v1 s2 (hx r List.mem_cons_self) hs h2) h3

/-- No argument of a builder is computed from what it generates. -/
theorem no_cycle {S : System V} {rank : Nat → Nat} (hS : S.OK rank) {b r : Nat} (hr : r ∈ S.req b) (x : Nat)
    (hx : Relation.ReflTransGen (Edge S) x r) : S.builderOf x ≠ some b := by
  intro h
  have h1 := hS.lt x b r h hr
  rcases Relation.reflTransGen_iff_eq_or_transGen.mp hx with e | hd
  · subst e; omega
  · have := Desc.rank_lt S hS hd; omega

theorem get_ok [DecidableEq V] {S : System V} {rank : Nat → Nat} (hS : S.OK rank)
    (hreq : ∀ b ∈ S.builders, S.req b ≠ [])
    (hfn : ∀ b args g, (∀ a ∈ args, a ≠ none) → S.fn b args g ≠ none) :
    ∀ (fuel : Nat) (s : State V) (p : Nat) (v : Option V) (s' : State V), Good S s →
      get S fuel s p = some (v, s') → Good S s' ∧ s'.valid p = true ∧ v = s'.value p ∧
      ∀ q, s.valid q = true → s'.valid q = true ∧ s'.value q = s.value q
  | 0, _, _, _, _, _, h => by cases h
  | fuel + 1, s, p, v, s', G, h => by
    unfold get at h
    split at h
    · split at h
      · rename_i hv
        cases h
        exact ⟨G, hv, rfl, fun q hq => ⟨hq, rfl⟩⟩
      · cases h
    · rename_i b hb
      split at h
      · rename_i hv
        cases h
        exact ⟨G, hv, rfl, fun q hq => ⟨hq, rfl⟩⟩
      · rename_i hv
        split at h
        · cases h
        · rename_i args s1 h1
          split at h
          · rename_i hv2
            cases h
            obtain ⟨G1, hp1, ha, hk1⟩ := getAll_ok (get S fuel)
              (fun s p v s' => get_ok hS hreq hfn fuel s p v s') (S.req b) s args s1 G h1
            subst ha
            have hv1 := getAll_frame hS p b hb fuel (S.req b) s _ s1 (fun r hr => no_cycle hS hr)
              (by simpa using hv) h1
            obtain ⟨G2, h2, h3⟩ := good_finish hS hreq hfn G1 p b hb hv1 hp1
            refine ⟨G2, h2, rfl, fun q hq => ?_⟩
            obtain ⟨a, b⟩ := hk1 q hq
            obtain ⟨c, d⟩ := h3 q a
            exact ⟨c, d.trans b⟩
          · cases h

/-- With all inputs set, getting a property succeeds. -/
theorem get_some [DecidableEq V] {S : System V} {rank : Nat → Nat} (hS : S.OK rank)
    (hreq : ∀ b ∈ S.builders, S.req b ≠ [])
    (hfn : ∀ b args g, (∀ a ∈ args, a ≠ none) → S.fn b args g ≠ none) :
    ∀ (fuel : Nat) (s : State V) (p : Nat), Good S s → rank p < fuel →
      (∀ q, S.builderOf q = none → Relation.ReflTransGen (Edge S) q p → s.valid q = true) →
      ∃ r, get S fuel s p = some r
  | 0, _, _, _, h, _ => by omega
  | fuel + 1, s, p, G, h, hin => by
    unfold get
    split
    · rename_i hb
      rw [if_pos (hin p hb Relation.ReflTransGen.refl)]
      exact ⟨_, rfl⟩
    · rename_i b hb
      split
      · exact ⟨_, rfl⟩
      · rename_i hv
        have hall : ∀ (l : List Nat), (∀ x ∈ l, x ∈ S.req b) → ∀ s : State V, Good S s →
            (∀ q, S.builderOf q = none → Relation.ReflTransGen (Edge S) q p → s.valid q = true) →
            ∃ r, getAll (get S fuel) s l = some r := by
          intro l
          induction l with
          | nil => intro _ s _ _; exact ⟨_, rfl⟩
          | cons x l ih =>
            intro hl s G hin
            have hxb := hl x List.mem_cons_self
            obtain ⟨⟨v, s1⟩, h1⟩ := get_some hS hreq hfn fuel s x G
              (by have := hS.lt p b x hb hxb; omega)
              (fun q hq hqx => hin q hq (Relation.ReflTransGen.tail hqx ⟨b, hxb, hb⟩))
            obtain ⟨G1, -, -, hk⟩ := get_ok hS hreq hfn fuel s x v s1 G h1
            obtain ⟨⟨vs, s2⟩, h2⟩ := ih (fun y hy => hl y (List.mem_cons_of_mem _ hy)) s1 G1
              (fun q hq hqp => (hk q (hin q hq hqp)).1)
            unfold getAll
            rw [h1]
            dsimp only
            rw [h2]
            exact ⟨_, rfl⟩
        obtain ⟨⟨args, s1⟩, h1⟩ := hall (S.req b) (fun _ h => h) s G hin
        rw [h1]
        dsimp only
        obtain ⟨G1, hp1, ha, hk1⟩ := getAll_ok (get S fuel)
          (fun s p v s' => get_ok hS hreq hfn fuel s p v s') (S.req b) s args s1 G h1
        subst ha
        have hv1 := getAll_frame hS p b hb fuel (S.req b) s _ s1 (fun r hr => no_cycle hS hr)
          (by simpa using hv) h1
        obtain ⟨-, h2, -⟩ := good_finish hS hreq hfn G1 p b hb hv1 hp1
        rw [if_pos h2]
        exact ⟨_, rfl⟩

theorem good_run [DecidableEq V] {S : System V} {rank : Nat → Nat} (hS : S.OK rank)
    (hreq : ∀ b ∈ S.builders, S.req b ≠ [])
    (hfn : ∀ b args g, (∀ a ∈ args, a ≠ none) → S.fn b args g ≠ none) {s : State V} (G : Good S s)
    (op : Op V) (hop : op.Plain S) : Good S (op.run S s) := by
  cases op with
  | set p v => exact good_set hS G p v hop.1 hop.2
  | get p =>
    unfold Op.run
    dsimp only
    split
    · exact G
    · rename_i v s' h
      exact (get_ok hS hreq hfn S.depth s p v s' G h).1

/-- The states and values of inputs after operations. -/
theorem inputs_after [DecidableEq V] {S : System V} {rank : Nat → Nat} (hS : S.OK rank)
    (hreq : ∀ b ∈ S.builders, S.req b ≠ [])
    (hfn : ∀ b args g, (∀ a ∈ args, a ≠ none) → S.fn b args g ≠ none) (ops : List (Op V))
    (hops : ∀ op ∈ ops, op.Plain S) (p : Nat) (hp : S.builderOf p = none) (v : Option V)
    (hl : lastSet p ops = some v) :
    (after S ops).valid p = true ∧ (after S ops).value p = v := by
  have key : ∀ (ops : List (Op V)), (∀ op ∈ ops, op.Plain S) → ∀ (s : State V) (o : Option (Option V)), Good S s →
      (∀ v, o = some v → s.valid p = true ∧ s.value p = v) → ∀ v,
      ops.foldl (fun o op => match op with | .set q v => if q = p then some v else o | .get _ => o) o = some v →
      (ops.foldl (Op.run S) s).valid p = true ∧ (ops.foldl (Op.run S) s).value p = v := by
    intro ops
    induction ops with
    | nil => intro _ s o _ ho v hv; exact ho v hv
    | cons op ops ih =>
      intro hops s o G ho v hv
      refine ih (fun x hx => hops x (List.mem_cons_of_mem _ hx)) _ _
        (good_run hS hreq hfn G op (hops op List.mem_cons_self)) ?_ v hv
      intro v' hv'
      have hop := hops op List.mem_cons_self
      cases op with
      | set q w =>
        dsimp only at hv'
        unfold Op.run
        dsimp only
        by_cases e : q = p
        · rw [if_pos e] at hv'
          cases hv'
          subst e
          exact ⟨(set_valid S hS _ _ _ _).mpr (Or.inl rfl), setTo_same _ _ _⟩
        · rw [if_neg e] at hv'
          obtain ⟨h1, h2⟩ := ho v' hv'
          refine ⟨(set_valid S hS _ _ _ _).mpr (Or.inr ⟨h1, fun hd => ?_⟩), ?_⟩
          · obtain ⟨r, -, ⟨b', -, hb'⟩⟩ := Relation.TransGen.tail'_iff.mp hd
            rw [hp] at hb'; cases hb'
          · show setTo _ _ _ _ = _
            rw [setTo_other _ _ _ (Ne.symm e)]; exact h2
      | get q =>
        unfold Op.run
        dsimp only at hv' ⊢
        obtain ⟨h1, h2⟩ := ho v' hv'
        split
        · exact ⟨h1, h2⟩
        · rename_i x s' h
          obtain ⟨-, -, -, hk⟩ := get_ok hS hreq hfn S.depth s q x s' G h
          exact ⟨(hk p h1).1, (hk p h1).2.trans h2⟩
  exact key ops hops initial none (good_initial S) (fun _ h => by cases h) v hl

end PyNucleus.Dependencies
