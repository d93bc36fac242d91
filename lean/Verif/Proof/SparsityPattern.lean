import Verif.Model.SparsityPattern
import Verif.Proof.SortedRow

/-! Helper lemmas for `sparsityPattern`. -/

namespace PyNucleus.SparsityPattern

open PyNucleus.SortedRow

theorem addRow_spec (il : Nat) (r : Row Unit) (J : Int) (hr : r.WF) (hil : 0 < il)
    (hlim : J ∉ r.keys → r.count + il < W) (hcW : r.count < W) :
    ∃ r' b, addRow il r J = some (r', b) ∧ r'.WF ∧
      (∀ K, K ∈ r'.keys ↔ K = J ∨ K ∈ r.keys) ∧
      r'.count = r.count + (if b then 1 else 0) := by
  rcases find_live W r J hr hcW with ⟨l1, v, l2, hl, hf, _⟩ | ⟨l1, l2, hl, hf, h1, h2⟩
  · refine ⟨r, false, by simp [addRow, hf], hr, ?_, by simp⟩
    intro K
    constructor
    · exact Or.inr
    · rintro (rfl | h)
      · simp [Row.keys, hl]
      · exact h
  · have hnot : J ∉ r.keys := by
      simp only [Row.keys, hl, List.map_append, List.mem_append, List.mem_map, not_or, not_exists,
        not_and]
      exact ⟨fun p hp e => by have := h1 p hp; omega, fun p hp e => by have := h2 p hp; omega⟩
    have hlim' := hlim hnot
    simp only [addRow, hf]
    -- the row after a possible reallocation
    obtain ⟨r1, hr1, hb1, hc1, hl1⟩ : ∃ r1 : Row Unit,
        (if r.count = r.length then
          { r with buf := realloc (0, ()) r.buf (r.length + il), length := (r.length + il) % W }
         else r) = r1 ∧ r1.buf.take r.count = l1 ++ l2 ∧ r1.count = r.count ∧
         (r.count < r1.buf.length ∧ r1.buf.length = r1.length) := by
      refine ⟨_, rfl, ?_⟩
      have hlen := hr.len
      have hle := hr.count_le
      by_cases hc : r.count = r.length
      · rw [if_pos hc]
        refine ⟨?_, rfl, ?_, ?_⟩
        · show (realloc (0, ()) r.buf (r.length + il)).take r.count = l1 ++ l2
          rw [realloc_take _ _ _ _ hle (by omega)]
          exact hl
        · show r.count < (realloc (0, ()) r.buf (r.length + il)).length
          rw [realloc_length]; omega
        · show (realloc (0, ()) r.buf (r.length + il)).length = (r.length + il) % W
          rw [realloc_length, Nat.mod_eq_of_lt (by omega)]
      · rw [if_neg hc]
        exact ⟨hl, rfl, by omega, hlen⟩
    rw [hr1]
    obtain ⟨b, b', e1, e2, e3, e4⟩ := insert_live r1.buf r.count l1 l2 J () hl1.1 hb1
    rw [hc1, e1]
    simp only [e2]
    have hsort := sorted_insert (v := ()) (by rw [← hl]; exact hr.live_sorted) h1 h2
    have hbl : r.count + 1 ≤ b'.length := by rw [e3]; omega
    refine ⟨_, true, rfl, ⟨hbl, by show b'.length = r1.length; rw [e3]; exact hl1.2, ?_⟩, ?_, by simp⟩
    · refine (sorted_iff b' (r.count + 1) hbl).2 ?_
      rw [e4]; exact hsort
    · intro K
      simp only [Row.keys, Row.live, e4]
      have : r.buf.take r.count = l1 ++ l2 := hl
      rw [this]
      simp only [List.map_append, List.map_cons, List.mem_append, List.mem_cons]
      constructor
      · rintro (h | h | h)
        · exact Or.inr (Or.inl h)
        · exact Or.inl h
        · exact Or.inr (Or.inr h)
      · rintro (h | h | h)
        · exact Or.inr (Or.inl h)
        · exact Or.inl h
        · exact Or.inr (Or.inr h)

/-- Invariant: after the calls `done`, row `i` holds exactly the columns added to it. -/
structure Inv (n il : Nat) (done : List (Nat × Int)) (s : SP) : Prop where
  len : s.rows.length = n
  il : s.initialLength = il
  wf : ∀ i (h : i < s.rows.length), s.rows[i].WF
  mem : ∀ i (h : i < s.rows.length) (J : Int), J ∈ s.rows[i].keys ↔ (i, J) ∈ done
  nnz : s.nnz = (s.rows.map Row.count).sum

theorem inv_init (n il : Nat) : Inv n il [] (SP.init n il) where
  len := by simp [SP.init]
  il := rfl
  wf := by
    intro i h
    simp only [SP.init, List.getElem_replicate]
    exact ⟨Nat.zero_le _, by simp, fun i j _ hj => by simp at hj⟩
  mem := by
    intro i h J
    simp [SP.init, Row.keys, Row.live]
  nnz := by
    simp [SP.init]

theorem sorted_nodup {V : Type} (r : Row V) (hr : r.WF) : r.keys.Nodup := by
  unfold Row.keys List.Nodup
  rw [List.pairwise_map]
  exact hr.live_sorted.imp (fun h => by omega)

theorem sum_set (l : List Nat) (i : Nat) (h : i < l.length) (x : Nat) :
    (l.set i x).sum + l[i] = l.sum + x := by
  induction l generalizing i with
  | nil => simp at h
  | cons a t ih =>
    cases i with
    | zero => simp; omega
    | succ i =>
      simp only [List.set_cons_succ, List.sum_cons, List.getElem_cons_succ]
      have := ih i (by simpa using h)
      omega

theorem step_inv (n il : Nat) (hil : 0 < il) (full done : List (Nat × Int)) (s : SP)
    (hlim : ∀ (i : Nat) (l : List Int), l.Nodup → (∀ J ∈ l, (i, J) ∈ full) → l.length + il ≤ W)
    (hs : Inv n il done s) (hd : ∀ c ∈ done, c ∈ full) (I : Nat) (J : Int) (hI : I < n)
    (hIJ : (I, J) ∈ full) :
    ∃ s', s.add I J = some s' ∧ Inv n il (done ++ [(I, J)]) s' := by
  have hIr : I < s.rows.length := by rw [hs.len]; exact hI
  have hwf := hs.wf I hIr
  have hlen : s.rows[I].keys.length = s.rows[I].count := by
    unfold Row.keys; rw [List.length_map]; exact hwf.live_length
  have hnd := sorted_nodup _ hwf
  have hsub : ∀ K ∈ s.rows[I].keys, (I, K) ∈ full := fun K hK => hd _ ((hs.mem I hIr K).1 hK)
  have h1 := hlim I s.rows[I].keys hnd hsub
  obtain ⟨r', b, e1, hwf', hmem', hcount'⟩ := addRow_spec il s.rows[I] J hwf hil
    (by
      intro hJ
      have := hlim I (J :: s.rows[I].keys) (List.nodup_cons.2 ⟨hJ, hnd⟩)
        (by
          intro K hK
          rcases List.mem_cons.1 hK with rfl | hK
          · exact hIJ
          · exact hsub K hK)
      rw [List.length_cons, hlen] at this
      omega) (by rw [hlen] at h1; omega)
  refine ⟨{ s with rows := s.rows.set I r', nnz := if b then s.nnz + 1 else s.nnz }, ?_, ?_⟩
  · simp only [SP.add, List.getElem?_eq_getElem hIr, hs.il, e1]
  · refine ⟨by simp [hs.len], hs.il, ?_, ?_, ?_⟩
    · intro i h
      simp only [List.getElem_set]
      split
      · exact hwf'
      · exact hs.wf i (by simpa using h)
    · intro i h K
      simp only [List.getElem_set]
      rw [List.mem_append, List.mem_singleton]
      split
      · rename_i hi
        subst hi
        rw [hmem', hs.mem I hIr]
        constructor
        · rintro (rfl | h)
          · exact Or.inr rfl
          · exact Or.inl h
        · rintro (h | h)
          · exact Or.inr h
          · exact Or.inl (Prod.mk.inj h).2
      · rename_i hi
        rw [hs.mem i (by simpa using h)]
        constructor
        · exact Or.inl
        · rintro (h | h)
          · exact h
          · exact absurd (Prod.mk.inj h).1.symm hi
    · simp only [List.map_set, hs.nnz]
      have := sum_set (s.rows.map Row.count) I (by simpa using hIr) r'.count
      rw [List.getElem_map] at this
      cases b <;> simp only [Bool.false_eq_true, if_false, if_true] at hcount' ⊢ <;> omega

theorem addAll_inv (n il : Nat) (hil : 0 < il) (full : List (Nat × Int))
    (hlim : ∀ (i : Nat) (l : List Int), l.Nodup → (∀ J ∈ l, (i, J) ∈ full) → l.length + il ≤ W)
    (hrow : ∀ c ∈ full, c.1 < n) :
    ∀ (rest done : List (Nat × Int)) (s : SP), Inv n il done s → full = done ++ rest →
      ∃ s', s.addAll rest = some s' ∧ Inv n il full s' := by
  intro rest
  induction rest with
  | nil =>
    intro done s hs hf
    refine ⟨s, rfl, ?_⟩
    rw [hf, List.append_nil]; exact hs
  | cons c rest ih =>
    obtain ⟨I, J⟩ := c
    intro done s hs hf
    have hIJ : (I, J) ∈ full := by rw [hf]; simp
    obtain ⟨s', h1, h2⟩ := step_inv n il hil full done s hlim hs
      (fun c hc => by rw [hf]; simp [hc]) I J (hrow _ hIJ) hIJ
    obtain ⟨s'', h3, h4⟩ := ih (done ++ [(I, J)]) s' h2 (by rw [hf]; simp)
    exact ⟨s'', by simp [SP.addAll, h1, h3], h4⟩

end PyNucleus.SparsityPattern
