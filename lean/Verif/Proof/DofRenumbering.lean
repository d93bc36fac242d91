import Verif.Model.DofRenumbering
import Mathlib.Data.List.GetD
import Mathlib.Data.List.Nodup

namespace PyNucleus.DofRenumbering

/-- The dictionary holds negative dofs with the values -1, -2, … -/
structure Boundary.Good (b : Boundary) : Prop where
  keys : (b.map.map Prod.fst).Nodup
  neg : ∀ p ∈ b.map, p.1 < 0
  vals : ∀ (i : Nat) p, b.map[i]? = some p → p.2 = -(i + 1 : Int)
  next : b.next = -(b.map.length + 1 : Int)

theorem lookup_append_of_some {l l' : List (Int × Int)} {d v : Int} (h : l.lookup d = some v) :
    (l ++ l').lookup d = some v := by
  induction l with
  | nil => cases h
  | cons p l ih =>
    rw [List.cons_append]
    rw [List.lookup_cons] at h ⊢
    split at h
    · exact h
    · exact ih h

theorem lookup_mem {l : List (Int × Int)} {d v : Int} (h : l.lookup d = some v) : (d, v) ∈ l := by
  induction l with
  | nil => cases h
  | cons p l ih =>
    rw [List.lookup_cons] at h
    split at h
    · rename_i he
      simp only [Option.some.injEq] at h
      have : d = p.1 := by simpa using he
      rw [this, ← h]; simp
    · exact List.mem_cons_of_mem _ (ih h)

theorem lookup_of_mem {l : List (Int × Int)} (hn : (l.map Prod.fst).Nodup) {d v : Int} (h : (d, v) ∈ l) :
    l.lookup d = some v := by
  induction l with
  | nil => cases h
  | cons p l ih =>
    rw [List.map_cons, List.nodup_cons] at hn
    rw [List.lookup_cons]
    rcases List.mem_cons.1 h with rfl | h
    · simp
    · have : (d == p.1) = false := by
        rw [beq_eq_false_iff_ne]
        rintro rfl
        exact hn.1 (List.mem_map.2 ⟨_, h, rfl⟩)
      rw [this]
      exact ih hn.2 h

theorem lookup_none {l : List (Int × Int)} {d : Int} (h : l.lookup d = none) : d ∉ l.map Prod.fst := by
  induction l with
  | nil => simp
  | cons p l ih =>
    rw [List.lookup_cons] at h
    split at h
    · cases h
    · rename_i he
      rw [List.map_cons, List.mem_cons, not_or]
      exact ⟨by simpa using he, ih h⟩

/-- The value of an entry for a given dictionary. -/
def value (m : List (Int × Int)) (d : Int) : Int := if 0 ≤ d then d else (m.lookup d).getD 0

/-- `m'` extends `m` by the negative ones of the entries `l`. -/
structure Grows (b b' : Boundary) (l : List Int) : Prop where
  good : b'.Good
  ext : ∃ e, b'.map = b.map ++ e ∧ ∀ p ∈ e, p.1 ∈ l
  all : ∀ d ∈ l, d < 0 → ∃ v, b'.map.lookup d = some v

theorem renumber_spec (b : Boundary) (hb : b.Good) (d : Int) :
    Grows b (renumber b d).2 [d] ∧ (renumber b d).1 = value (renumber b d).2.map d := by
  unfold renumber
  by_cases hd : 0 ≤ d
  · rw [if_pos hd]
    refine ⟨⟨hb, ⟨[], by simp, by simp⟩, ?_⟩, by simp [value, hd]⟩
    intro d' hd' hn
    rw [List.mem_singleton.1 hd'] at hn; omega
  · rw [if_neg hd]
    cases hl : b.map.lookup d with
    | some v =>
      refine ⟨⟨hb, ⟨[], by simp, by simp⟩, ?_⟩, by simp [value, hd, hl]⟩
      intro d' hd' _
      rw [List.mem_singleton.1 hd']; exact ⟨v, hl⟩
    | none =>
      have hnot := lookup_none hl
      have hkeys : ((b.map ++ [(d, b.next)]).map Prod.fst).Nodup := by
        rw [List.map_append]
        refine List.nodup_append.2 ⟨hb.keys, by simp, ?_⟩
        intro a ha c hc
        simp only [List.map_cons, List.map_nil, List.mem_singleton] at hc
        subst hc; rintro rfl; exact hnot ha
      have hfind : (b.map ++ [(d, b.next)]).lookup d = some b.next := lookup_of_mem hkeys (by simp)
      refine ⟨⟨⟨hkeys, ?_, ?_, ?_⟩, ⟨_, rfl, by simp⟩, ?_⟩, by simp [value, hd, hfind]⟩
      · intro p hp
        rcases List.mem_append.1 hp with hp | hp
        · exact hb.neg p hp
        · rw [List.mem_singleton.1 hp]; exact lt_of_not_ge hd
      · intro i p hp
        rcases Nat.lt_or_ge i b.map.length with hi | hi
        · rw [List.getElem?_append_left hi] at hp; exact hb.vals i p hp
        · rw [List.getElem?_append_right hi] at hp
          have : i - b.map.length = 0 := by
            by_contra hne
            obtain ⟨k, hk⟩ := Nat.exists_eq_succ_of_ne_zero hne
            rw [hk] at hp; simp at hp
          rw [this] at hp
          simp only [List.getElem?_cons_zero, Option.some.injEq] at hp
          rw [← hp]
          have : i = b.map.length := by omega
          rw [this]; exact hb.next
      · dsimp only
        rw [List.length_append, List.length_singleton, hb.next]; push_cast; omega
      · intro d' hd' _
        rw [List.mem_singleton.1 hd']; exact ⟨_, hfind⟩

theorem Grows.trans {b b' b'' : Boundary} {l l' : List Int} (h : Grows b b' l) (h' : Grows b' b'' l') :
    Grows b b'' (l ++ l') := by
  obtain ⟨e, he, hm⟩ := h.ext
  obtain ⟨e', he', hm'⟩ := h'.ext
  refine ⟨h'.good, ⟨e ++ e', by rw [he', he, List.append_assoc], ?_⟩, ?_⟩
  · intro p hp
    rcases List.mem_append.1 hp with hp | hp
    · exact List.mem_append_left _ (hm p hp)
    · exact List.mem_append_right _ (hm' p hp)
  · intro d hd hn
    rcases List.mem_append.1 hd with hd | hd
    · obtain ⟨v, hv⟩ := h.all d hd hn
      exact ⟨v, by rw [he']; exact lookup_append_of_some hv⟩
    · exact h'.all d hd hn

theorem value_ext {b b' : Boundary} {l : List Int} (h : Grows b b' l) {d : Int}
    (hd : d < 0 → ∃ v, b.map.lookup d = some v) : value b'.map d = value b.map d := by
  unfold value
  by_cases h0 : 0 ≤ d
  · rw [if_pos h0, if_pos h0]
  · obtain ⟨v, hv⟩ := hd (lt_of_not_ge h0)
    obtain ⟨e, he, _⟩ := h.ext
    rw [if_neg h0, if_neg h0, he, lookup_append_of_some hv, hv]

theorem renumberRow_spec (l : List Int) : ∀ (b : Boundary), b.Good →
    Grows b (renumberRow b l).2 l ∧ (renumberRow b l).1 = l.map (value (renumberRow b l).2.map) := by
  induction l with
  | nil => intro b hb; exact ⟨⟨hb, ⟨[], by simp [renumberRow], by simp⟩, by simp⟩, rfl⟩
  | cons d l ih =>
    intro b hb
    obtain ⟨g1, e1⟩ := renumber_spec b hb d
    obtain ⟨g2, e2⟩ := ih _ g1.good
    refine ⟨g1.trans g2, ?_⟩
    simp only [renumberRow, List.map_cons]
    rw [e2, e1, value_ext g2 fun hn => g1.all d (by simp) hn]

theorem renumberRows_spec (rows : List (List Int)) : ∀ (b : Boundary), b.Good →
    Grows b (renumberRows b rows).2 rows.flatten ∧
    (renumberRows b rows).1 = rows.map fun r => r.map (value (renumberRows b rows).2.map) := by
  induction rows with
  | nil => intro b hb; exact ⟨⟨hb, ⟨[], by simp [renumberRows], by simp⟩, by simp⟩, rfl⟩
  | cons r rows ih =>
    intro b hb
    obtain ⟨g1, e1⟩ := renumberRow_spec r b hb
    obtain ⟨g2, e2⟩ := ih _ g1.good
    refine ⟨by rw [List.flatten_cons]; exact g1.trans g2, ?_⟩
    simp only [renumberRows, List.map_cons]
    rw [e2, e1]
    congr 1
    apply List.map_congr_left
    intro d hd
    exact (value_ext g2 fun hn => g1.all d hd hn).symm

theorem value_neg {b : Boundary} (hb : b.Good) {d : Int} (hd : d < 0) {v : Int}
    (hv : b.map.lookup d = some v) : ∃ i : Nat, i < b.map.length ∧ b.map[i]? = some (d, v) ∧
      value b.map d = -(i + 1 : Int) := by
  obtain ⟨i, hi, he⟩ := List.getElem_of_mem (lookup_mem hv)
  have h1 : b.map[i]? = some (d, v) := by rw [List.getElem?_eq_getElem hi, he]
  refine ⟨i, hi, h1, ?_⟩
  have := hb.vals i _ h1
  simp only at this
  simp [value, not_le.2 hd, hv, this]

/-! ## Dofs of selected cells -/

theorem dofCheck_row (row : List Int) (t : List Bool) (d : Nat) :
    (row.foldl (fun t d => if 0 ≤ d then t.set d.toNat true else t) t).length = t.length ∧
    ((row.foldl (fun t d => if 0 ≤ d then t.set d.toNat true else t) t).getD d true = true ↔
      t.getD d true = true ∨ (d : Int) ∈ row) := by
  induction row generalizing t with
  | nil => simp
  | cons e row ih =>
    rw [List.foldl_cons]
    by_cases he : 0 ≤ e
    · rw [if_pos he]
      obtain ⟨h1, h2⟩ := ih (t.set e.toNat true)
      refine ⟨by rw [h1, List.length_set], ?_⟩
      rw [h2, List.mem_cons]
      by_cases hd : (d : Int) = e
      · have : e.toNat = d := by omega
        rcases Nat.lt_or_ge d t.length with hl | hl
        · simp [List.getD_eq_getElem?_getD, List.getElem?_set, this, hl, hd]
        · simp [List.getD_eq_getElem?_getD, List.getElem?_eq_none hl, List.getElem?_set, this, hd, not_lt.2 hl]
      · have : e.toNat ≠ d := by omega
        simp [List.getD_eq_getElem?_getD, List.getElem?_set, this, hd]
    · rw [if_neg he]
      obtain ⟨h1, h2⟩ := ih t
      refine ⟨h1, ?_⟩
      have : (d : Int) ≠ e := by omega
      rw [h2, List.mem_cons]
      simp [this]

theorem dofCheck_spec (numDofs : Nat) (dofs : List (List Int)) (sel : List Nat) :
    (dofCheck numDofs dofs sel).all id = true ↔ ∀ d < numDofs, ∃ c ∈ sel, (d : Int) ∈ dofs.getD c [] := by
  have key : ∀ (sel : List Nat) (t : List Bool),
      (sel.foldl (fun t c => (dofs.getD c []).foldl (fun t d => if 0 ≤ d then t.set d.toNat true else t) t) t).length = t.length ∧
      ∀ d : Nat, (sel.foldl (fun t c => (dofs.getD c []).foldl (fun t d => if 0 ≤ d then t.set d.toNat true else t) t) t).getD d true = true ↔
        t.getD d true = true ∨ ∃ c ∈ sel, (d : Int) ∈ dofs.getD c [] := by
    intro sel
    induction sel with
    | nil => intro t; simp
    | cons c sel ih =>
      intro t
      rw [List.foldl_cons]
      obtain ⟨h1, h2⟩ := ih ((dofs.getD c []).foldl (fun t d => if 0 ≤ d then t.set d.toNat true else t) t)
      refine ⟨by rw [h1, (dofCheck_row _ t 0).1], ?_⟩
      intro d
      rw [h2 d, (dofCheck_row _ t d).2]
      simp [or_assoc]
  obtain ⟨h1, h2⟩ := key sel (List.replicate numDofs false)
  rw [List.length_replicate] at h1
  unfold dofCheck
  constructor
  · intro h d hd
    have h3 := (h2 d).1 (by
      rw [List.getD_eq_getElem _ _ (by rw [h1]; exact hd)]
      exact List.all_eq_true.1 h _ (List.getElem_mem _))
    rcases h3 with h3 | h3
    · simp [List.getD_eq_getElem?_getD, List.getElem?_replicate, hd] at h3
    · exact h3
  · intro h
    rw [List.all_eq_true]
    intro x hx
    obtain ⟨d, hd, rfl⟩ := List.getElem_of_mem hx
    have h3 := (h2 d).2 (Or.inr (h d (by rw [h1] at hd; exact hd)))
    rw [List.getD_eq_getElem _ _ hd] at h3
    exact h3

/-! ## Inverse of a permutation -/

theorem inverse_spec (idx u : List Nat) (hu : u.length = idx.length) (hn : idx.Nodup)
    (hlt : ∀ i ∈ idx, i < idx.length) (k : Nat) (hk : k < idx.length) :
    (inverse idx u).getD (idx.getD k 0) 0 = k := by
  have key : ∀ m, m ≤ idx.length →
      ((List.range m).foldl (fun inv dof => inv.set (idx.getD dof 0) dof) u).length = idx.length ∧
      (k < m → ((List.range m).foldl (fun inv dof => inv.set (idx.getD dof 0) dof) u).getD (idx.getD k 0) 0 = k) := by
    intro m
    induction m with
    | zero => intro _; exact ⟨by simpa using hu, by omega⟩
    | succ m ih =>
      intro hm
      obtain ⟨h1, h2⟩ := ih (by omega)
      rw [List.range_succ, List.foldl_append, List.foldl_cons, List.foldl_nil]
      refine ⟨by rw [List.length_set, h1], ?_⟩
      intro hkm
      have hlk : idx.getD k 0 < idx.length := by
        rw [List.getD_eq_getElem _ _ hk]; exact hlt _ (List.getElem_mem _)
      by_cases he : k = m
      · subst he
        rw [List.getD_eq_getElem?_getD, List.getElem?_set, if_pos rfl, if_pos (by rw [h1]; exact hlk)]
        rfl
      · have hne : idx.getD m 0 ≠ idx.getD k 0 := by
          rw [List.getD_eq_getElem _ _ (by omega), List.getD_eq_getElem _ _ hk]
          intro e
          exact he ((List.Nodup.getElem_inj_iff hn).1 e).symm
        have := h2 (by omega)
        rw [List.getD_eq_getElem?_getD] at this
        rw [List.getD_eq_getElem?_getD, List.getElem?_set, if_neg hne]
        exact this
  exact (key idx.length (le_refl _)).2 hk

/-! ## Unique values -/

theorem mem_unique (l : List Nat) (x : Nat) : x ∈ unique l ↔ x ∈ l := by
  unfold unique
  rw [(List.perm_insertionSort _ _).mem_iff, List.mem_dedup]

theorem nodup_unique (l : List Nat) : (unique l).Nodup := by
  unfold unique
  rw [(List.perm_insertionSort _ _).nodup_iff]
  exact List.nodup_dedup l

theorem sorted_unique (l : List Nat) : (unique l).Pairwise (· < ·) := by
  have h1 : (unique l).Pairwise (· ≤ ·) := List.pairwise_insertionSort _ _
  have h2 := nodup_unique l
  rw [List.Nodup] at h2
  exact (h1.and h2).imp fun h => lt_of_le_of_ne h.1 h.2

end PyNucleus.DofRenumbering
