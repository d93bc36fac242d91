import Verif.Spec.Reports
import Mathlib.Data.List.Nodup
import Mathlib.Tactic.FieldSimp
import Mathlib.Tactic.Ring
import Mathlib.Tactic.Tauto

/-! # Lemmas on reports -/

namespace PyNucleus.Reports

section Merge
variable {α : Type} [DecidableEq α]

theorem newBefore_erase {A b : List α} {y : α} (hA : A.Nodup) (hb : (y :: b).Nodup) (hy : y ∈ A) :
    NewBeforeCommon A (y :: b) ↔ NewBeforeCommon (A.erase y) b := by
  have hyb : y ∉ b := (List.nodup_cons.mp hb).1
  constructor
  · rintro ⟨l₁, w, l₂, he, hw, z, hz, hzA⟩
    cases l₁ with
    | nil =>
      simp only [List.nil_append, List.cons.injEq] at he
      exact absurd (he.1 ▸ hy) hw
    | cons u l₁ =>
      simp only [List.cons_append, List.cons.injEq] at he
      refine ⟨l₁, w, l₂, he.2, fun h => hw (List.mem_of_mem_erase h), z, hz, ?_⟩
      refine (List.Nodup.mem_erase_iff hA).mpr ⟨?_, hzA⟩
      rintro rfl
      exact hyb (by rw [he.2]; simp [hz])
  · rintro ⟨l₁, w, l₂, he, hw, z, hz, hzA⟩
    refine ⟨y :: l₁, w, l₂, by rw [he]; rfl, fun h => hw ?_, z, hz, List.mem_of_mem_erase hzA⟩
    refine (List.Nodup.mem_erase_iff hA).mpr ⟨?_, h⟩
    rintro rfl
    exact hyb (by rw [he]; simp)

theorem newBefore_drop {a b : List α} {x : α} (hx : x ∉ b) :
    NewBeforeCommon (x :: a) b ↔ NewBeforeCommon a b := by
  constructor
  · rintro ⟨l₁, w, l₂, he, hw, z, hz, hzA⟩
    refine ⟨l₁, w, l₂, he, fun h => hw (List.mem_cons_of_mem _ h), z, hz, ?_⟩
    rcases List.mem_cons.mp hzA with rfl | h
    · exact absurd (by rw [he]; simp [hz]) hx
    · exact h
  · rintro ⟨l₁, w, l₂, he, hw, z, hz, hzA⟩
    refine ⟨l₁, w, l₂, he, ?_, z, hz, List.mem_cons_of_mem _ hzA⟩
    rintro h
    rcases List.mem_cons.mp h with rfl | h
    · exact hx (by rw [he]; simp)
    · exact hw h

theorem mergeLoop_none : ∀ (n : Nat) (a b : List α), a.length ≤ n → a.Nodup → b.Nodup →
    (mergeLoop n a b = none ↔ NewBeforeCommon a b) := by
  intro n
  induction n with
  | zero =>
    intro a b hn _ _
    obtain rfl : a = [] := List.length_eq_zero_iff.mp (by omega)
    simp [mergeLoop, NewBeforeCommon]
  | succ n ih =>
    intro a b hn ha hb
    cases a with
    | nil => simp [mergeLoop, NewBeforeCommon]
    | cons x a =>
      cases b with
      | nil => simp [mergeLoop, NewBeforeCommon]
      | cons y b =>
        simp only [List.length_cons] at hn
        unfold mergeLoop
        split
        · rename_i hx
          split
          · rename_i hxy
            subst hxy
            rw [Option.map_eq_none_iff, ih a b (by omega) (List.nodup_cons.mp ha).2 (List.nodup_cons.mp hb).2,
              newBefore_erase ha hb List.mem_cons_self, List.erase_cons_head]
          · rename_i hxy
            split
            · rename_i hy
              rw [Option.map_eq_none_iff, ih _ b (by rw [List.length_erase_of_mem hy]; simp; omega)
                (ha.erase _) (List.nodup_cons.mp hb).2, newBefore_erase ha hb hy]
            · rename_i hy
              refine ⟨fun _ => ⟨[], y, b, rfl, hy, x, ?_, List.mem_cons_self⟩, fun _ => rfl⟩
              rcases List.mem_cons.mp hx with h | h
              · exact absurd h hxy
              · exact h
        · rename_i hx
          rw [Option.map_eq_none_iff, ih a (y :: b) (by omega) (List.nodup_cons.mp ha).2 hb,
            newBefore_drop hx]

theorem mergeLoop_some : ∀ (n : Nat) (a b k : List α), a.length ≤ n → a.Nodup → b.Nodup →
    mergeLoop n a b = some k →
    k.Nodup ∧ (∀ z, z ∈ k ↔ z ∈ a ∨ z ∈ b) ∧ b.Sublist k ∧
      (a.filter (· ∈ b) = b.filter (· ∈ a) → a.Sublist k) := by
  intro n
  induction n with
  | zero =>
    intro a b k hn _ hb h
    obtain rfl : a = [] := List.length_eq_zero_iff.mp (by omega)
    simp only [mergeLoop, Option.some.injEq] at h
    subst h
    exact ⟨hb, by simp, List.Sublist.refl _, fun _ => List.nil_sublist _⟩
  | succ n ih =>
    intro a b k hn ha hb h
    cases a with
    | nil =>
      simp only [mergeLoop, Option.some.injEq] at h
      subst h
      exact ⟨hb, by simp, List.Sublist.refl _, fun _ => List.nil_sublist _⟩
    | cons x a =>
      cases b with
      | nil =>
        simp only [mergeLoop, Option.some.injEq] at h
        subst h
        exact ⟨ha, by simp, List.nil_sublist _, fun _ => List.Sublist.refl _⟩
      | cons y b =>
        simp only [List.length_cons] at hn
        have ha' := List.nodup_cons.mp ha
        have hb' := List.nodup_cons.mp hb
        unfold mergeLoop at h
        split at h
        · rename_i hx
          split at h
          · rename_i hxy
            subst hxy
            obtain ⟨k', hk', rfl⟩ := Option.map_eq_some_iff.mp h
            obtain ⟨h1, h2, h3, h4⟩ := ih a b k' (by omega) ha'.2 hb'.2 hk'
            refine ⟨List.nodup_cons.mpr ⟨?_, h1⟩, ?_, h3.cons_cons _, fun hf => (h4 ?_).cons_cons _⟩
            · rw [h2]; rintro (h | h)
              · exact ha'.1 h
              · exact hb'.1 h
            · intro z; simp only [List.mem_cons, h2]; tauto
            · simp only [List.filter_cons, List.mem_cons, true_or, decide_true, if_true,
                List.cons.injEq, true_and] at hf
              rw [List.filter_congr (q := fun z => decide (z = x ∨ z ∈ b)),
                List.filter_congr (p := fun z => decide (z ∈ a)) (q := fun z => decide (z = x ∨ z ∈ a))]
              · exact hf
              · intro z hz
                have : z ≠ x := by rintro rfl; exact hb'.1 hz
                simp [this]
              · intro z hz
                have : z ≠ x := by rintro rfl; exact ha'.1 hz
                simp [this]
          · rename_i hxy
            split at h
            · rename_i hy
              obtain ⟨k', hk', rfl⟩ := Option.map_eq_some_iff.mp h
              obtain ⟨h1, h2, h3, -⟩ := ih _ b k' (by rw [List.length_erase_of_mem hy]; simp; omega)
                (ha.erase _) hb'.2 hk'
              refine ⟨List.nodup_cons.mpr ⟨?_, h1⟩, ?_, h3.cons_cons _, fun hf => absurd ?_ hxy⟩
              · rw [h2, List.Nodup.mem_erase_iff ha]; rintro (h | h)
                · exact h.1 rfl
                · exact hb'.1 h
              · intro z
                rw [List.mem_cons, h2, List.Nodup.mem_erase_iff ha, List.mem_cons (l := b)]
                by_cases hz : z = y
                · simp [hz]
                · simp [hz]
              · rw [List.filter_cons_of_pos (by simpa using hx),
                  List.filter_cons_of_pos (by simpa using hy)] at hf
                exact (List.cons.inj hf).1
            · cases h
        · rename_i hx
          obtain ⟨k', hk', rfl⟩ := Option.map_eq_some_iff.mp h
          obtain ⟨h1, h2, h3, h4⟩ := ih a (y :: b) k' (by omega) ha'.2 hb hk'
          refine ⟨List.nodup_cons.mpr ⟨?_, h1⟩, ?_, h3.cons _, fun hf => (h4 ?_).cons_cons _⟩
          · rw [h2]; rintro (h | h)
            · exact ha'.1 h
            · exact hx h
          · intro z; rw [List.mem_cons, h2, List.mem_cons (l := a), or_assoc]
          · rw [List.filter_cons_of_neg (by simpa using hx)] at hf
            rw [hf]
            refine List.filter_congr fun z hz => ?_
            have : z ≠ x := by rintro rfl; exact hx hz
            simp [this]

theorem mergeFold_none : ∀ l : List (List α),
    l.foldl (fun keys b => keys.bind fun k => mergeOrdered k b) none = none := by
  intro l
  induction l with
  | nil => rfl
  | cons b l ih => exact ih

theorem mergeFold_some : ∀ (l : List (List α)) (a k : List α), a.Nodup → (∀ b ∈ l, b.Nodup) →
    l.foldl (fun keys b => keys.bind fun k => mergeOrdered k b) (some a) = some k →
    k.Nodup ∧ ∀ z, z ∈ k ↔ z ∈ a ∨ ∃ b ∈ l, z ∈ b := by
  intro l
  induction l with
  | nil =>
    intro a k ha _ h
    simp only [List.foldl_nil, Option.some.injEq] at h
    subst h
    exact ⟨ha, by simp⟩
  | cons b l ih =>
    intro a k ha hl h
    rw [List.foldl_cons, Option.bind_some] at h
    cases hm : mergeOrdered a b with
    | none => rw [hm, mergeFold_none] at h; cases h
    | some c =>
      rw [hm] at h
      obtain ⟨h1, h2, -, -⟩ := mergeLoop_some a.length a b c (le_refl _) ha (hl b (by simp)) hm
      obtain ⟨h3, h4⟩ := ih c k h1 (fun b' hb' => hl b' (by simp [hb'])) h
      refine ⟨h3, fun z => ?_⟩
      rw [h4, h2]
      simp only [List.mem_cons, exists_eq_or_imp]
      tauto

variable {V : Type}

theorem append_keys (p : α → Option (List V)) (f : α → V) : ∀ (keys : List α) , keys.Nodup →
    ∀ (p : α → Option (List V)) (k : α),
    keys.foldl (fun p key => append p key (f key)) p k =
      if k ∈ keys then some ((p k).getD [] ++ [f k]) else p k := by
  intro keys
  induction keys with
  | nil => intro _ p k; simp
  | cons x keys ih =>
    intro hn p k
    obtain ⟨hx, hn⟩ := List.nodup_cons.mp hn
    rw [List.foldl_cons, ih hn]
    by_cases hk : k = x
    · subst hk
      rw [if_neg hx, if_pos List.mem_cons_self]
      unfold append
      rw [if_pos rfl]
      cases p k <;> rfl
    · have : append p x (f x) k = p k := by unfold append; rw [if_neg hk]
      simp [this, hk]

theorem table_eq (dflt : V) (keys : List α) (hk : keys.Nodup) : ∀ (data : List (α → Option V))
    (k : α), k ∈ keys → data ≠ [] →
    table dflt keys data k = some (data.map fun d => (d k).getD dflt) := by
  intro data k hmem
  have key : ∀ (data : List (α → Option V)) (p : α → Option (List V)), data ≠ [] →
      data.foldl (fun p d => keys.foldl (fun p key => append p key ((d key).getD dflt)) p) p k =
        some ((p k).getD [] ++ data.map fun d => (d k).getD dflt) := by
    intro data
    induction data with
    | nil => intro p h; exact absurd rfl h
    | cons d data ih =>
      intro p _
      rw [List.foldl_cons]
      have h1 := append_keys p (fun key => (d key).getD dflt) keys hk p k
      rw [if_pos hmem] at h1
      by_cases hd : data = []
      · subst hd
        rw [List.foldl_nil, h1]; rfl
      · rw [ih _ hd, h1]
        simp
  intro hd
  unfold table
  rw [key data _ hd]
  rfl

theorem table_none (dflt : V) (keys : List α) (hk : keys.Nodup) (data : List (α → Option V)) (k : α)
    (hmem : k ∉ keys) : table dflt keys data k = none := by
  have key : ∀ (data : List (α → Option V)) (p : α → Option (List V)),
      data.foldl (fun p d => keys.foldl (fun p key => append p key ((d key).getD dflt)) p) p k = p k := by
    intro data
    induction data with
    | nil => intro p; rfl
    | cons d data ih =>
      intro p
      rw [List.foldl_cons, ih]
      have h1 := append_keys p (fun key => (d key).getD dflt) keys hk p k
      rw [if_neg hmem] at h1
      exact h1
  exact key data _

end Merge

theorem mean_all {K : Type} [Field K] [CharZero K] (vals : List (List K)) (h : ∀ v ∈ vals, v ≠ []) :
    ((vals.map callsAndMean).map fun p => (p.1 : K) * p.2).sum = vals.flatten.sum ∧
      (((vals.map callsAndMean).map Prod.fst).sum : Nat) = vals.flatten.length := by
  induction vals with
  | nil => simp
  | cons v vals ih =>
    obtain ⟨h1, h2⟩ := ih fun w hw => h w (by simp [hw])
    have hv : (v.length : K) ≠ 0 := by
      have := h v (by simp)
      simpa using this
    constructor
    · simp only [List.map_cons, List.sum_cons, List.flatten_cons, List.sum_append]
      rw [h1]
      unfold callsAndMean
      dsimp only
      rw [mul_div_cancel₀ _ hv]
    · simp only [List.map_cons, List.sum_cons, List.flatten_cons, List.length_append]
      rw [h2]
      rfl

section Diff
variable {K : Type} [Field K] [LinearOrder K]

theorem lookup_insert {V : Type} (r : List (Nat × V)) (key : Nat) (v : V) (l : Nat) :
    (insert r key v).lookup l = if l = key then some v else r.lookup l := by
  unfold insert
  induction r with
  | nil =>
    by_cases h : l = key
    · simp [h]
    · have : (l == key) = false := by simpa using h
      simp [h, List.lookup_cons, this]
  | cons q r ih =>
    obtain ⟨a, w⟩ := q
    by_cases ha : a = key
    · rw [List.filter_cons_of_neg (by simpa using ha), ih]
      by_cases h : l = key
      · simp [h]
      · have : (l == a) = false := by rw [ha]; simpa using h
        simp [h, List.lookup_cons, this]
    · rw [List.filter_cons_of_pos (by simpa using ha), List.cons_append, List.lookup_cons, List.lookup_cons, ih]
      by_cases hl : l = a
      · subst hl; simp [ha]
      · have : (l == a) = false := by simpa using hl
        simp [this]

theorem lookup_filter {V : Type} (d : List (Nat × V)) (key l : Nat) :
    (d.filter fun q => q.1 ≠ key).lookup l = if l = key then none else d.lookup l := by
  induction d with
  | nil => simp
  | cons q d ih =>
    obtain ⟨a, w⟩ := q
    by_cases ha : a = key
    · rw [List.filter_cons_of_neg (by simpa using ha), ih]
      by_cases h : l = key
      · simp [h]
      · have : (l == a) = false := by rw [ha]; simpa using h
        simp [h, List.lookup_cons, this]
    · rw [List.filter_cons_of_pos (by simpa using ha), List.lookup_cons, List.lookup_cons, ih]
      by_cases hl : l = a
      · subst hl; simp [ha]
      · have : (l == a) = false := by simpa using hl
        simp [this]

theorem mem_of_lookup {V : Type} {d : List (Nat × V)} {l : Nat} {v : V} (h : d.lookup l = some v) :
    (l, v) ∈ d := by
  induction d with
  | nil => cases h
  | cons q d ih =>
    obtain ⟨a, w⟩ := q
    rw [List.lookup_cons] at h
    by_cases ha : l = a
    · subst ha; simp at h; simp [h]
    · have : (l == a) = false := by simpa using ha
      rw [this] at h
      exact List.mem_cons_of_mem _ (ih h)

theorem lookup_of_mem {V : Type} {d : List (Nat × V)} (hd : (d.map Prod.fst).Nodup) {l : Nat} {v : V}
    (h : (l, v) ∈ d) : d.lookup l = some v := by
  induction d with
  | nil => cases h
  | cons q d ih =>
    obtain ⟨a, w⟩ := q
    rw [List.map_cons, List.nodup_cons] at hd
    rw [List.lookup_cons]
    rcases List.mem_cons.mp h with h | h
    · cases h; simp
    · have hm : l ∈ d.map Prod.fst := List.mem_map.mpr ⟨_, h, rfl⟩
      have : (l == a) = false := by
        have : l ≠ a := by rintro rfl; exact hd.1 hm
        simpa using this
      rw [this]
      exact ih hd.2 h

theorem lookup_none_iff {V : Type} {d : List (Nat × V)} (hd : (d.map Prod.fst).Nodup) {l : Nat} :
    d.lookup l = none ↔ ∀ v, (l, v) ∉ d := by
  constructor
  · intro h v hv
    rw [lookup_of_mem hd hv] at h
    cases h
  · intro h
    cases hl : d.lookup l with
    | none => rfl
    | some v => exact absurd (mem_of_lookup hl) (h v)

theorem fold_insert {V W : Type} (f : V → W) : ∀ (d : List (Nat × V)), (d.map Prod.fst).Nodup →
    ∀ (r : List (Nat × W)) (l : Nat),
    (d.foldl (fun r q => insert r q.1 (f q.2)) r).lookup l =
      match d.lookup l with | some v => some (f v) | none => r.lookup l := by
  intro d
  induction d with
  | nil => intro _ r l; rfl
  | cons q d ih =>
    obtain ⟨a, w⟩ := q
    intro hd r l
    rw [List.map_cons, List.nodup_cons] at hd
    rw [List.foldl_cons, ih hd.2, List.lookup_cons, lookup_insert]
    by_cases ha : l = a
    · subst ha
      have : d.lookup l = none := by
        rw [lookup_none_iff hd.2]
        intro v hv
        exact hd.1 (List.mem_map.mpr ⟨_, hv, rfl⟩)
      simp [this]
    · have : (l == a) = false := by simpa using ha
      simp [this, ha]

theorem all_zip_close (p : Param K) : ∀ l m : List K, l.length = m.length →
    (((l.zip m).all fun q => isClose (tol p.rTol) (tol p.aTol) q.1 q.2) = true ↔
      List.Forall₂ (Close p) l m) := by
  intro l
  induction l with
  | nil =>
    intro m h
    cases m with
    | nil => simp
    | cons _ _ => simp at h
  | cons x l ih =>
    intro m h
    cases m with
    | nil => simp at h
    | cons y m =>
      simp only [List.length_cons, Nat.add_right_cancel_iff] at h
      rw [List.zip_cons_cons, List.all_cons, List.forall₂_cons, ← ih m h, Bool.and_eq_true]
      simp [isClose, Close]

theorem agrees_none (p : Param K) (d : Value K) : agrees p d = none ↔ Incomparable p d := by
  unfold agrees Incomparable
  cases hp : p.value <;> cases d <;> simp
  split <;> simp

theorem agrees_true (p : Param K) (d : Value K) : agrees p d = some true ↔ Matches p d := by
  unfold agrees Matches
  cases hp : p.value with
  | num x => cases d <;> simp [isClose, Close]
  | other s => cases d <;> simp [eq_comm]
  | list l =>
    cases d with
    | num y => simp
    | other s => simp
    | list m =>
      simp only [reduceCtorEq, false_and, exists_false, false_or, or_false]
      split
      · rename_i h
        rw [Option.some.injEq, all_zip_close p l m h]
        simp
      · rename_i h
        constructor
        · intro h'; cases h'
        · rintro ⟨l', m', h1, h2, h3⟩
          cases h1; cases h2
          exact absurd h3.length_eq h

/-- The loop removes what it has compared, and enters differences. -/
theorem diffLoop_some : ∀ (ps : List (Param K)) (r : List (Nat × Mismatch K)) (d : List (Nat × Value K))
    (r' : List (Nat × Mismatch K)) (d' : List (Nat × Value K)), (testedLabels ps).Nodup →
    diffLoop ps (r, d) = some (r', d') →
    d'.Sublist d ∧
    (∀ l, (∀ p ∈ ps, p.tested = true → p.label ≠ l) → d'.lookup l = d.lookup l ∧ r'.lookup l = r.lookup l) ∧
    (∀ p ∈ ps, p.tested = true → d'.lookup p.label = none ∧
      r'.lookup p.label = match d.lookup p.label with
        | some v => if agrees p v = some true then r.lookup p.label else some (some p.value, some v)
        | none => some (some p.value, none)) := by
  intro ps
  induction ps with
  | nil =>
    intro r d r' d' _ h
    simp only [diffLoop, Option.some.injEq, Prod.mk.injEq] at h
    obtain ⟨rfl, rfl⟩ := h
    exact ⟨List.Sublist.refl _, fun l _ => ⟨rfl, rfl⟩, fun p hp => absurd hp (by simp)⟩
  | cons q ps ih =>
    intro r d r' d' hn h
    rw [diffLoop] at h
    by_cases hq : q.tested = true
    · have hlab : testedLabels (q :: ps) = q.label :: testedLabels ps := by
        unfold testedLabels; rw [List.filter_cons_of_pos hq]; rfl
      rw [hlab, List.nodup_cons] at hn
      have hne : ∀ p ∈ ps, p.tested = true → p.label ≠ q.label := by
        intro p hp ht he
        refine hn.1 (List.mem_map.mpr ⟨p, List.mem_filter.mpr ⟨hp, by simpa using ht⟩, he⟩)
      unfold diffStep at h
      rw [if_pos hq] at h
      dsimp only at h
      cases hl : d.lookup q.label with
      | none =>
        rw [hl] at h
        dsimp only [Option.bind_some] at h
        obtain ⟨h1, h2, h3⟩ := ih _ _ r' d' hn.2 h
        refine ⟨h1, fun l hl' => ?_, fun p hp ht => ?_⟩
        · obtain ⟨h4, h5⟩ := h2 l fun p hp => hl' p (by simp [hp])
          refine ⟨h4, ?_⟩
          rw [h5, lookup_insert, if_neg (fun he => hl' q (by simp) hq he.symm)]
        · rcases List.mem_cons.mp hp with rfl | hp
          · obtain ⟨h4, h5⟩ := h2 p.label hne
            rw [h4, h5, hl, lookup_insert, if_pos rfl]
            exact ⟨rfl, rfl⟩
          · obtain ⟨h4, h5⟩ := h3 p hp ht
            rw [lookup_insert, if_neg (hne p hp ht)] at h5
            exact ⟨h4, h5⟩
      | some v =>
        rw [hl] at h
        dsimp only at h
        cases ha : agrees q v with
        | none => rw [ha] at h; cases h
        | some ok =>
          rw [ha] at h
          dsimp only [Option.map_some, Option.bind_some] at h
          obtain ⟨h1, h2, h3⟩ := ih _ _ r' d' hn.2 h
          refine ⟨h1.trans List.filter_sublist, fun l hl' => ?_, fun p hp ht => ?_⟩
          · obtain ⟨h4, h5⟩ := h2 l fun p hp => hl' p (by simp [hp])
            have hne' : l ≠ q.label := fun he => hl' q (by simp) hq he.symm
            rw [h4, h5, lookup_filter, if_neg hne']
            refine ⟨rfl, ?_⟩
            cases ok
            · simp only [Bool.false_eq_true, if_false]
              rw [lookup_insert, if_neg hne']
            · rfl
          · rcases List.mem_cons.mp hp with rfl | hp
            · obtain ⟨h4, h5⟩ := h2 p.label hne
              rw [h4, h5, hl, lookup_filter, if_pos rfl]
              refine ⟨rfl, ?_⟩
              cases ok
              · simp only [Bool.false_eq_true, if_false, ha, Option.some.injEq]
                rw [lookup_insert, if_pos rfl]
              · simp [ha]
            · obtain ⟨h4, h5⟩ := h3 p hp ht
              refine ⟨h4, ?_⟩
              rw [h5, lookup_filter, if_neg (hne p hp ht)]
              have : (if ok = true then r else insert r q.label (some q.value, some v)).lookup p.label =
                  r.lookup p.label := by
                cases ok
                · simp only [Bool.false_eq_true, if_false]
                  rw [lookup_insert, if_neg (hne p hp ht)]
                · rfl
              rw [this]
    · have hq' : q.tested = false := by simpa using hq
      have hlab : testedLabels (q :: ps) = testedLabels ps := by
        unfold testedLabels; rw [List.filter_cons_of_neg (by simpa using hq)]
      rw [hlab] at hn
      unfold diffStep at h
      rw [if_neg hq, Option.bind_some] at h
      obtain ⟨h1, h2, h3⟩ := ih _ _ r' d' hn h
      refine ⟨h1, fun l hl' => h2 l fun p hp => hl' p (by simp [hp]), fun p hp ht => ?_⟩
      rcases List.mem_cons.mp hp with rfl | hp
      · exact absurd ht hq
      · exact h3 p hp ht

theorem diffLoop_none : ∀ (ps : List (Param K)) (r : List (Nat × Mismatch K)) (d : List (Nat × Value K)),
    (testedLabels ps).Nodup →
    (diffLoop ps (r, d) = none ↔
      ∃ p ∈ ps, p.tested = true ∧ ∃ v, d.lookup p.label = some v ∧ agrees p v = none) := by
  intro ps
  induction ps with
  | nil => intro r d _; simp [diffLoop]
  | cons q ps ih =>
    intro r d hn
    rw [diffLoop]
    by_cases hq : q.tested = true
    · have hlab : testedLabels (q :: ps) = q.label :: testedLabels ps := by
        unfold testedLabels; rw [List.filter_cons_of_pos hq]; rfl
      rw [hlab, List.nodup_cons] at hn
      have hne : ∀ p ∈ ps, p.tested = true → p.label ≠ q.label := by
        intro p hp ht he
        refine hn.1 (List.mem_map.mpr ⟨p, List.mem_filter.mpr ⟨hp, by simpa using ht⟩, he⟩)
      unfold diffStep
      rw [if_pos hq]
      dsimp only
      cases hl : d.lookup q.label with
      | none =>
        dsimp only [Option.bind_some]
        rw [ih _ _ hn.2]
        simp [hl]
      | some v =>
        dsimp only
        cases ha : agrees q v with
        | none =>
          simp only [Option.map_none, Option.bind_none, true_iff]
          exact ⟨q, by simp, hq, v, hl, ha⟩
        | some ok =>
          dsimp only [Option.map_some, Option.bind_some]
          rw [ih _ _ hn.2]
          constructor
          · rintro ⟨p, hp, ht, w, hw, hpw⟩
            rw [lookup_filter, if_neg (hne p hp ht)] at hw
            exact ⟨p, by simp [hp], ht, w, hw, hpw⟩
          · rintro ⟨p, hp, ht, w, hw, hpw⟩
            rcases List.mem_cons.mp hp with rfl | hp
            · rw [hl] at hw; cases hw
              rw [ha] at hpw; cases hpw
            · exact ⟨p, hp, ht, w, by rw [lookup_filter, if_neg (hne p hp ht)]; exact hw, hpw⟩
    · have hlab : testedLabels (q :: ps) = testedLabels ps := by
        unfold testedLabels; rw [List.filter_cons_of_neg (by simpa using hq)]
      rw [hlab] at hn
      unfold diffStep
      rw [if_neg hq, Option.bind_some, ih _ _ hn]
      simp [hq]

theorem lookup_diff (entries : List (Param K)) (d : List (Nat × Value K)) (r : List (Nat × Mismatch K))
    (he : (testedLabels entries).Nodup) (hd : (d.map Prod.fst).Nodup) (h : diff entries d = some r)
    (l : Nat) (m : Mismatch K) : r.lookup l = some m ↔ Differs entries d l m := by
  unfold diff at h
  obtain ⟨⟨r', d'⟩, hs, rfl⟩ := Option.map_eq_some_iff.mp h
  obtain ⟨h1, h2, h3⟩ := diffLoop_some entries [] d r' d' he hs
  have hd' : (d'.map Prod.fst).Nodup := hd.sublist (h1.map _)
  dsimp only
  rw [fold_insert (fun v => ((none, some v) : Mismatch K)) d' hd']
  unfold Differs
  by_cases hl : ∃ p ∈ entries, p.tested = true ∧ p.label = l
  · obtain ⟨p, hp, ht, rfl⟩ := hl
    obtain ⟨h4, h5⟩ := h3 p hp ht
    have huniq : ∀ q ∈ entries, q.tested = true → q.label = p.label → q = p := by
      intro q hq hqt hql
      unfold testedLabels at he
      exact List.inj_on_of_nodup_map he (List.mem_filter.mpr ⟨hq, by simpa using hqt⟩)
        (List.mem_filter.mpr ⟨hp, by simpa using ht⟩) hql
    rw [h4]
    dsimp only
    rw [h5]
    cases hv : d.lookup p.label with
    | none =>
      have hno := (lookup_none_iff hd).mp hv
      dsimp only
      constructor
      · intro h; cases h
        exact Or.inl ⟨p, hp, ht, rfl, Or.inr ⟨hno, rfl⟩⟩
      · rintro (⟨q, hq, hqt, hql, h⟩ | ⟨h, -⟩)
        · obtain rfl := huniq q hq hqt hql
          rcases h with ⟨v, hv', -, -⟩ | ⟨-, rfl⟩
          · exact absurd hv' (hno v)
          · rfl
        · exact absurd rfl (h p hp ht)
    | some v =>
      have hmem := mem_of_lookup hv
      dsimp only
      by_cases ha : agrees p v = some true
      · rw [if_pos ha]
        constructor
        · intro h; cases h
        · rintro (⟨q, hq, hqt, hql, h⟩ | ⟨h, -⟩)
          · obtain rfl := huniq q hq hqt hql
            rcases h with ⟨w, hw, hnm, -⟩ | ⟨hno, -⟩
            · have := lookup_of_mem hd hw
              rw [hv] at this; cases this
              exact absurd ((agrees_true q v).mp ha) hnm
            · exact absurd hmem (hno v)
          · exact absurd rfl (h p hp ht)
      · rw [if_neg ha]
        constructor
        · intro h; cases h
          exact Or.inl ⟨p, hp, ht, rfl, Or.inl ⟨v, hmem, fun h => ha ((agrees_true p v).mpr h), rfl⟩⟩
        · rintro (⟨q, hq, hqt, hql, h⟩ | ⟨h, -⟩)
          · obtain rfl := huniq q hq hqt hql
            rcases h with ⟨w, hw, -, rfl⟩ | ⟨hno, -⟩
            · have := lookup_of_mem hd hw
              rw [hv] at this; cases this
              rfl
            · exact absurd hmem (hno v)
          · exact absurd rfl (h p hp ht)
  · have hl' : ∀ p ∈ entries, p.tested = true → p.label ≠ l := fun p hp ht he => hl ⟨p, hp, ht, he⟩
    obtain ⟨h4, h5⟩ := h2 l hl'
    rw [h4, h5]
    cases hv : d.lookup l with
    | none =>
      have hno := (lookup_none_iff hd).mp hv
      constructor
      · intro h; cases h
      · rintro (⟨q, hq, hqt, hql, -⟩ | ⟨-, v, hv', -⟩)
        · exact absurd hql (hl' q hq hqt)
        · exact absurd hv' (hno v)
    | some v =>
      dsimp only
      constructor
      · intro h; cases h
        exact Or.inr ⟨hl', v, mem_of_lookup hv, rfl⟩
      · rintro (⟨q, hq, hqt, hql, -⟩ | ⟨-, w, hw, rfl⟩)
        · exact absurd hql (hl' q hq hqt)
        · have := lookup_of_mem hd hw
          rw [hv] at this; cases this
          rfl

theorem diff_none (entries : List (Param K)) (d : List (Nat × Value K))
    (he : (testedLabels entries).Nodup) (hd : (d.map Prod.fst).Nodup) :
    diff entries d = none ↔ ∃ p ∈ entries, p.tested = true ∧ ∃ v, (p.label, v) ∈ d ∧ Incomparable p v := by
  unfold diff
  rw [Option.map_eq_none_iff, diffLoop_none entries [] d he]
  constructor
  · rintro ⟨p, hp, ht, v, hv, ha⟩
    exact ⟨p, hp, ht, v, mem_of_lookup hv, (agrees_none p v).mp ha⟩
  · rintro ⟨p, hp, ht, v, hv, ha⟩
    exact ⟨p, hp, ht, v, lookup_of_mem hd hv, (agrees_none p v).mpr ha⟩

theorem insert_new {V : Type} (r : List (Nat × V)) (key : Nat) (v : V) (h : key ∉ r.map Prod.fst) :
    insert r key v = r ++ [(key, v)] := by
  unfold insert
  rw [List.filter_eq_self.mpr]
  intro q hq
  have : q.1 ≠ key := by rintro rfl; exact h (List.mem_map.mpr ⟨q, hq, rfl⟩)
  simpa using this

theorem toDict_fold : ∀ (ps : List (Param K)) (d : List (Nat × Value K)),
    (d.map Prod.fst ++ ps.map (·.label)).Nodup →
    ps.foldl (fun d p => insert d p.label p.value) d = d ++ ps.map fun p => (p.label, p.value) := by
  intro ps
  induction ps with
  | nil => intro d _; simp
  | cons p ps ih =>
    intro d h
    rw [List.foldl_cons, insert_new, ih]
    · simp
    · simpa using h
    · intro hm
      rw [List.nodup_append] at h
      exact h.2.2 _ hm p.label (by simp) rfl

end Diff

section Series
variable {K : Type} [LinearOrder K] [Inhabited K]

theorem map_getElem_perm {A : Type} [Inhabited A] (l : List A) (idx : List Nat)
    (h : idx.Perm (List.range l.length)) : (idx.map fun i => l[i]!).Perm l := by
  refine (h.map _).trans ?_
  have : (List.range l.length).map (fun i => l[i]!) = l := by
    apply List.ext_getElem
    · simp
    · intro i h1 h2
      simp [h2]
  rw [this]

theorem zip_perm (rows : List (K × K × K)) (idx : List Nat) (h : idx.Perm (List.range rows.length)) :
    (List.zip (idx.map fun i => (rows.map fun r => r.1)[i]!)
      (idx.map fun i => (rows.map fun r => r.2.1)[i]!)).Perm (rows.map fun r => (r.1, r.2.1)) := by
  rw [List.zip_map']
  have hm : idx.map (fun i => ((rows.map fun r => r.1)[i]!, (rows.map fun r => r.2.1)[i]!)) =
      idx.map fun i => (rows.map fun r => (r.1, r.2.1))[i]! := by
    refine List.map_congr_left fun i hi => ?_
    have hi : i < rows.length := List.mem_range.mp (h.mem_iff.mp hi)
    simp [hi]
  rw [hm]
  exact map_getElem_perm _ idx (by simpa using h)

end Series

end PyNucleus.Reports
