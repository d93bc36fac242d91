import Mathlib.Data.List.Nodup
import Mathlib.Tactic.Linarith
import Mathlib.Tactic.Ring
import Verif.Spec.FaceMap
import Verif.Proof.SortedRow

/-! Lemmas for `faceVals`. -/

namespace PyNucleus.FaceVals

open PyNucleus.SortedRow PyNucleus.Spec

theorem scan_spec (p : Int × Int × Int → Bool) (buf : List (Int × Int × Int)) : ∀ n m, m + n ≤ buf.length →
    scan p buf n m = some ((((buf.drop m).take n).findIdx? p).map (· + m)) := by
  intro n
  induction n with
  | zero => intro m _; simp [scan]
  | succ n ih =>
    intro m h
    rw [scan, List.getElem?_eq_getElem (show m < buf.length by omega), List.drop_eq_getElem_cons (show m < buf.length by omega)]
    simp only [List.take_succ_cons, List.findIdx?_cons]
    by_cases hp : p buf[m] = true
    · simp [hp]
    · simp only [hp, Bool.false_eq_true, if_false]
      rw [ih (m + 1) (by omega), Option.map_map]
      congr 2
      funext k
      simp only [Function.comp]
      omega

/-- The order of the entries. -/
def Less (a b : Int × Int × Int) : Prop := a.1 < b.1 ∨ (a.1 = b.1 ∧ a.2.1 < b.2.1)

theorem Less.ne {a b : Int × Int × Int} (h : Less a b) : (a.1, a.2.1) ≠ (b.1, b.2.1) := by
  intro e
  have e1 := (Prod.mk.inj e).1
  have e2 := (Prod.mk.inj e).2
  rcases h with h | h <;> omega

/-- A row holds the list `l`. -/
structure Holds (r : Row) (l : List (Int × Int × Int)) : Prop where
  live : r.buf.take r.count = l
  len : l.length = r.count
  small : r.count < 256
  sorted : l.Pairwise Less
  room : (r.count ≤ r.length ∧ r.length ≤ r.buf.length) ∨ 256 ≤ r.buf.length
  cap : r.length < 256

theorem Holds.le {r : Row} {l : List (Int × Int × Int)} (h : Holds r l) : r.count ≤ r.buf.length := by
  rcases h.room with h' | h'
  · omega
  · have := h.small
    omega

theorem Holds.scan {r : Row} {l : List (Int × Int × Int)} (h : Holds r l) (p : Int × Int × Int → Bool) :
    scan p r.buf r.count 0 = some (l.findIdx? p) := by
  rw [scan_spec p r.buf r.count 0 (by rw [Nat.zero_add]; exact h.le), List.drop_zero, h.live]
  simp

theorem Holds.get {r : Row} {l : List (Int × Int × Int)} (h : Holds r l) {m : Nat} (hm : m < l.length) :
    r.buf[m]? = some l[m] := by
  have h2 : l[m]? = r.buf[m]? := by
    conv => lhs; rw [← h.live]
    rw [List.getElem?_take_of_lt (h.len ▸ hm)]
  rw [← h2, List.getElem?_eq_getElem hm]

/-- The value of a list at a key. -/
def At (l : List (Int × Int × Int)) (f : Int × Int → Option Int) : Prop := ∀ J K v, (J, K, v) ∈ l ↔ f (J, K) = some v

theorem split_at (l : List (Int × Int × Int)) (m : Nat) (hm : m < l.length) : l = l.take m ++ l[m] :: l.drop (m + 1) := by
  rw [List.getElem_cons_drop, List.take_append_drop]

/-- Result of the search for a key. -/
theorem find_key {l : List (Int × Int × Int)} {f : Int × Int → Option Int} (hf : At l f) (J K : Int) :
    (∃ m v, ∃ hm : m < l.length, l.findIdx? (isKey J K) = some m ∧ l[m] = (J, K, v) ∧ f (J, K) = some v) ∨
      (l.findIdx? (isKey J K) = none ∧ f (J, K) = none ∧ ∀ e ∈ l, ¬(e.1 = J ∧ e.2.1 = K)) := by
  cases hfi : l.findIdx? (isKey J K) with
  | none =>
    right
    rw [List.findIdx?_eq_none_iff] at hfi
    have hno : ∀ e ∈ l, ¬(e.1 = J ∧ e.2.1 = K) := by
      intro e he
      have := hfi e he
      simpa [isKey] using this
    refine ⟨rfl, ?_, hno⟩
    cases hv : f (J, K) with
    | none => rfl
    | some v => exact absurd ⟨rfl, rfl⟩ (hno _ ((hf J K v).mpr hv))
  | some m =>
    left
    rw [List.findIdx?_eq_some_iff_getElem] at hfi
    obtain ⟨hm, h1, _⟩ := hfi
    simp only [isKey, decide_eq_true_eq] at h1
    have e : l[m] = (J, K, l[m].2.2) := by
      rw [← h1.1, ← h1.2]
    refine ⟨m, l[m].2.2, hm, rfl, e, ?_⟩
    rw [← hf, ← e]
    exact List.getElem_mem hm

theorem getRow_spec {r : Row} {l : List (Int × Int × Int)} (h : Holds r l) {f : Int × Int → Option Int} (hf : At l f) (J K : Int) :
    getRow r J K = some ((f (J, K)).getD (-1)) := by
  unfold getRow
  rw [h.scan]
  rcases find_key hf J K with ⟨m, v, hm, h1, h2, h3⟩ | ⟨h1, h2, _⟩
  · rw [h1, h3]
    simp only [h.get hm, Option.map_some, h2, Option.getD_some]
  · rw [h1, h2]
    rfl

theorem pairwise_erase {l : List (Int × Int × Int)} (h : l.Pairwise Less) (m : Nat) :
    (l.take m ++ l.drop (m + 1)).Pairwise Less := by
  refine List.Pairwise.sublist ?_ h
  rw [← List.eraseIdx_eq_take_drop_succ]
  exact List.eraseIdx_sublist l m

theorem hitRow_spec {r : Row} {l : List (Int × Int × Int)} (h : Holds r l) {f : Int × Int → Option Int} (hf : At l f) (del : Bool)
    {J K v : Int} {m : Nat} (hm : m < l.length) (he : l[m] = (J, K, v)) :
    ∃ r' l', hitRow del r m = some (r', if del then -1 else 0, v) ∧ Holds r' l' ∧
      At l' (if del then fun k => if k = (J, K) then none else f k else f) ∧
      (l'.length : Int) = l.length + (if del then -1 else 0) := by
  unfold hitRow
  rw [h.get hm, he]
  cases del with
  | false => exact ⟨r, l, by simp, h, by simpa using hf, by simp⟩
  | true =>
    have hmc : m < r.count := h.len ▸ hm
    obtain ⟨b, h1, h2, h3⟩ := delete_spec r.buf r.count m hmc h.le
    have hc : (r.count + 255) % 256 = r.count - 1 := by
      have := h.small
      omega
    have ht : r.buf.take m = l.take m := by
      rw [← h.live, List.take_take, min_eq_left hmc.le]
    simp only [if_true, h1]
    have hsmall := h.small
    refine ⟨_, l.take m ++ l.drop (m + 1), rfl, ?_, ?_, ?_⟩
    · constructor
      · show b.take ((r.count + 255) % 256) = _
        rw [hc, h3, ht, h.live]
      · show _ = (r.count + 255) % 256
        rw [hc, List.length_append, List.length_take, List.length_drop, h.len]
        omega
      · show (r.count + 255) % 256 < 256
        omega
      · exact pairwise_erase h.sorted m
      · show ((r.count + 255) % 256 ≤ r.length ∧ r.length ≤ b.length) ∨ 256 ≤ b.length
        rw [hc, h2]
        rcases h.room with h' | h'
        · left
          omega
        · exact Or.inr h'
      · exact h.cap
    · have hs := split_at l m hm
      have hp := h.sorted
      rw [hs, List.pairwise_append, List.pairwise_cons] at hp
      obtain ⟨_, ⟨hp2, _⟩, hp3⟩ := hp
      intro J' K' v'
      by_cases hk : (J', K') = (J, K)
      · have hk1 := (Prod.mk.inj hk).1
        have hk2 := (Prod.mk.inj hk).2
        subst hk1 hk2
        simp only [if_true, reduceCtorEq, iff_false, List.mem_append, not_or]
        constructor
        · intro hmem
          exact (hp3 _ hmem l[m] (List.mem_cons_self)).ne (by rw [he])
        · intro hmem
          exact (hp2 _ hmem).ne (by rw [he])
      · show _ ↔ (if (J', K') = (J, K) then none else f (J', K')) = some v'
        rw [if_neg hk, ← hf, List.mem_append]
        conv => rhs; rw [hs, List.mem_append, List.mem_cons]
        constructor
        · rintro (h' | h')
          · exact Or.inl h'
          · exact Or.inr (Or.inr h')
        · rintro (h' | h' | h')
          · exact Or.inl h'
          · exfalso
            rw [he] at h'
            exact hk (by rw [(Prod.mk.inj h').1, (Prod.mk.inj (Prod.mk.inj h').2).1])
          · exact Or.inr h'
    · rw [List.length_append, List.length_take, List.length_drop]
      push_cast
      omega

/-- More memory changes nothing and makes room. -/
theorem grow_spec {r : Row} {l : List (Int × Int × Int)} (h : Holds r l) {inc : Nat} (hinc : 0 < inc) :
    Holds (grow inc r) l ∧ (grow inc r).count = r.count ∧ r.count < (grow inc r).buf.length ∧
      ((r.count < (grow inc r).length ∧ (grow inc r).length ≤ (grow inc r).buf.length) ∨ 256 ≤ (grow inc r).buf.length) := by
  have hs := h.small
  unfold grow
  split
  · rename_i hcl
    have hroom : (r.count < (r.length + inc) % 256 ∧ (r.length + inc) % 256 ≤ r.length + inc) ∨ 256 ≤ r.length + inc := by
      by_cases hlt : r.length + inc < 256
      · left
        rw [Nat.mod_eq_of_lt hlt]
        omega
      · right
        omega
    refine ⟨⟨?_, h.len, hs, h.sorted, ?_, Nat.mod_lt _ (by omega)⟩, rfl, ?_, ?_⟩
    · show (realloc (0, 0, 0) r.buf (r.length + inc)).take r.count = l
      rw [realloc_take _ _ _ _ h.le (by omega), h.live]
    · show (r.count ≤ (r.length + inc) % 256 ∧ (r.length + inc) % 256 ≤ (realloc (0, 0, 0) r.buf (r.length + inc)).length) ∨ _
      simp only [realloc_length]
      omega
    · simp only [realloc_length]
      omega
    · simp only [realloc_length]
      exact hroom
  · rename_i hcl
    have hr := h.room
    refine ⟨h, rfl, ?_, ?_⟩ <;> omega

/-- Position of a new key. -/
theorem find_greater {l : List (Int × Int × Int)} (hl : l.Pairwise Less) (J K v : Int) (hno : ∀ e ∈ l, ¬(e.1 = J ∧ e.2.1 = K)) :
    ∃ m, (l.findIdx? (isGreater J K)).getD l.length = m ∧ m ≤ l.length ∧
      (l.take m ++ (J, K, v) :: l.drop m).Pairwise Less := by
  refine ⟨_, rfl, ?_, ?_⟩
  · cases hfi : l.findIdx? (isGreater J K) with
    | none => simp
    | some m =>
      rw [List.findIdx?_eq_some_iff_getElem] at hfi
      exact hfi.1.le
  · set m := (l.findIdx? (isGreater J K)).getD l.length with hm
    have hbefore : ∀ i (hi : i < l.length), i < m → Less l[i] (J, K, v) := by
      intro i hi him
      have hng : ¬isGreater J K l[i] = true := by
        cases hfi : l.findIdx? (isGreater J K) with
        | none =>
          rw [List.findIdx?_eq_none_iff] at hfi
          rw [hfi _ (List.getElem_mem hi)]
          simp
        | some m' =>
          rw [hfi] at hm
          rw [List.findIdx?_eq_some_iff_getElem] at hfi
          exact hfi.2.2 i (by simpa [hm] using him)
      have hne := hno _ (List.getElem_mem hi)
      simp only [isGreater, decide_eq_true_eq] at hng
      unfold Less
      simp only
      omega
    have hafter : ∀ i (hi : i < l.length), m ≤ i → Less (J, K, v) l[i] := by
      intro i hi him
      cases hfi : l.findIdx? (isGreater J K) with
      | none =>
        rw [hfi] at hm
        simp only [Option.getD_none] at hm
        omega
      | some m' =>
        rw [hfi] at hm
        simp only [Option.getD_some] at hm
        have him : m' ≤ i := hm ▸ him
        rw [List.findIdx?_eq_some_iff_getElem] at hfi
        obtain ⟨hlt, h1, _⟩ := hfi
        simp only [isGreater, decide_eq_true_eq] at h1
        have h0 : Less (J, K, v) l[m'] := by
          unfold Less
          simp only
          omega
        rcases Nat.lt_or_eq_of_le him with h' | h'
        · have h2 := List.pairwise_iff_getElem.mp hl m' i hlt hi h'
          unfold Less at h0 h2 ⊢
          simp only at h0 h2 ⊢
          omega
        · subst h'
          exact h0
    rw [List.pairwise_append, List.pairwise_cons]
    refine ⟨hl.sublist (List.take_sublist _ _), ⟨?_, hl.sublist (List.drop_sublist _ _)⟩, ?_⟩
    · intro b hb
      obtain ⟨i, hi, rfl⟩ := List.mem_iff_getElem.mp hb
      rw [List.getElem_drop]
      exact hafter _ _ (Nat.le_add_right _ _)
    · intro a ha b hb
      obtain ⟨i, hi, rfl⟩ := List.mem_iff_getElem.mp ha
      rw [List.length_take] at hi
      rw [List.getElem_take]
      have hi' : i < m := by omega
      rcases List.mem_cons.mp hb with rfl | hb
      · exact hbefore _ _ hi'
      · obtain ⟨k, hk, rfl⟩ := List.mem_iff_getElem.mp hb
        rw [List.getElem_drop]
        exact List.pairwise_iff_getElem.mp hl _ _ _ _ (by omega)

theorem insertRow_spec {r : Row} {l : List (Int × Int × Int)} (h : Holds r l) {f : Int × Int → Option Int} (hf : At l f) {inc : Nat}
    (hinc : 0 < inc) {J K : Int} (v : Int) (hno : ∀ e ∈ l, ¬(e.1 = J ∧ e.2.1 = K)) :
    ∃ r', insertRow inc r J K v = some (r', 1, v) ∧ r'.count = (r.count + 1) % 256 ∧
      (r.count < 255 → ∃ l', Holds r' l' ∧ At l' (fun k => if k = (J, K) then some v else f k) ∧
        l'.length = l.length + 1) := by
  obtain ⟨hg, hc, hlt, hroom⟩ := grow_spec h hinc
  obtain ⟨m, hm, hml, hp⟩ := find_greater h.sorted J K v hno
  have hlen := h.len
  unfold insertRow
  rw [hg.scan]
  have hm' : (l.findIdx? (isGreater J K)).getD (grow inc r).count = m := by
    rw [hc, ← hlen]
    exact hm
  simp only [hm']
  obtain ⟨b, b', h1, h2, h3, h4⟩ := insert_spec (grow inc r).buf (grow inc r).count m (J, K, v) (by omega) (by omega)
  simp only [h1, h2]
  refine ⟨_, rfl, by rw [hc], fun hsm => ⟨l.take m ++ (J, K, v) :: l.drop m, ?_, ?_, ?_⟩⟩
  · have hmod : ((grow inc r).count + 1) % 256 = r.count + 1 := by
      rw [hc, Nat.mod_eq_of_lt (by omega)]
    have ht : (grow inc r).buf.take m = l.take m := by
      rw [← hg.live, List.take_take, min_eq_left (by omega)]
    constructor
    · show b'.take (((grow inc r).count + 1) % 256) = _
      rw [hmod, ← hc, h4, ht, hg.live]
    · show _ = ((grow inc r).count + 1) % 256
      rw [hmod, List.length_append, List.length_cons, List.length_take, List.length_drop]
      omega
    · show ((grow inc r).count + 1) % 256 < 256
      omega
    · exact hp
    · show (((grow inc r).count + 1) % 256 ≤ (grow inc r).length ∧ (grow inc r).length ≤ b'.length) ∨ 256 ≤ b'.length
      rw [hmod, h3]
      omega
    · exact hg.cap
  · intro J' K' v'
    have hs : (J', K', v') ∈ l ↔ (J', K', v') ∈ l.take m ∨ (J', K', v') ∈ l.drop m := by
      rw [← List.mem_append, List.take_append_drop]
    rw [List.mem_append, List.mem_cons, or_left_comm, ← hs]
    by_cases hk : (J', K') = (J, K)
    · have hk1 := (Prod.mk.inj hk).1
      have hk2 := (Prod.mk.inj hk).2
      subst hk1 hk2
      simp only [if_true, Prod.mk.injEq, true_and, Option.some.injEq]
      constructor
      · rintro (h' | h')
        · exact h'.symm
        · exact absurd ⟨rfl, rfl⟩ (hno _ h')
      · intro h'
        exact Or.inl h'.symm
    · show _ ↔ (if (J', K') = (J, K) then some v else f (J', K')) = some v'
      rw [if_neg hk, ← hf]
      constructor
      · rintro (h' | h')
        · exact absurd (by rw [(Prod.mk.inj h').1, (Prod.mk.inj (Prod.mk.inj h').2).1]) hk
        · exact h'
      · exact Or.inr
  · rw [List.length_append, List.length_cons, List.length_take, List.length_drop]
    omega

/-- The dictionary represents the map. -/
structure Rel (n : Nat) (d : Dict) (m : FaceMap) : Prop where
  len : d.rows.length = n
  inc : 0 < d.lengthInc
  row : ∀ i (h : i < d.rows.length), ∃ l, Holds d.rows[i] l ∧ At l fun k => m ((i : Int), k)
  out : ∀ I k, (I < 0 ∨ (n : Int) ≤ I) → m (I, k) = none
  nnz : d.nnz = ((d.rows.map Row.count).sum : Nat)

theorem rel_init (n initialLength lengthInc : Nat) (del : Bool) (hi : initialLength < 256) (hinc : 0 < lengthInc) :
    Rel n (init n initialLength lengthInc del) fun _ => none := by
  refine ⟨by simp [init], hinc, ?_, fun _ _ _ => rfl, by simp [init]⟩
  intro i h
  refine ⟨[], ?_, ?_⟩
  · simp only [init, List.getElem_replicate]
    exact ⟨by simp, rfl, by simp, List.Pairwise.nil, Or.inl ⟨by simp, by simp⟩, hi⟩
  · intro J K v
    simp

theorem row?_spec {n : Nat} {d : Dict} {m : FaceMap} (h : Rel n d m) {I : Int} (h0 : 0 ≤ I) (hI : I < n) :
    ∃ hi : I.toNat < d.rows.length, row? d I = some d.rows[I.toNat] ∧ (I.toNat : Int) = I := by
  have : I.toNat < d.rows.length := by rw [h.len]; omega
  exact ⟨this, by rw [row?, if_pos h0, List.getElem?_eq_getElem this], Int.toNat_of_nonneg h0⟩

theorem getValue_spec {n : Nat} {d : Dict} {m : FaceMap} (h : Rel n d m) {I : Int} (h0 : 0 ≤ I) (hI : I < n) (J K : Int) :
    getValue d I J K = some ((m (I, J, K)).getD (-1)) := by
  obtain ⟨hi, h1, h2⟩ := row?_spec h h0 hI
  obtain ⟨l, hl, ha⟩ := h.row _ hi
  unfold getValue
  rw [h1]
  simp only [getRow_spec hl ha J K, h2]

theorem sum_set (l : List Nat) (i : Nat) (h : i < l.length) (x : Nat) :
    ((l.set i x).sum : Int) = (l.sum : Int) + x - l[i] := by
  induction l generalizing i with
  | nil => exact absurd h (by simp)
  | cons a l ih =>
    cases i with
    | zero => simp; ring
    | succ i =>
      simp only [List.set_cons_succ, List.sum_cons, List.getElem_cons_succ]
      push_cast
      rw [ih i (by simpa using h)]
      ring

/-- Replacing a row. -/
theorem rel_set {n : Nat} {d : Dict} {m : FaceMap} (h : Rel n d m) {I : Int} (h0 : 0 ≤ I) (hI : I < n)
    (hi : I.toNat < d.rows.length) {r' : Row} {l' : List (Int × Int × Int)} (hl : Holds r' l') {m' : FaceMap}
    (ha : At l' fun k => m' (I, k)) (hm : ∀ I' k, I' ≠ I → m' (I', k) = m (I', k)) {dn : Int}
    (hn : (r'.count : Int) = d.rows[I.toNat].count + dn) :
    Rel n { d with rows := d.rows.set I.toNat r', nnz := d.nnz + dn } m' := by
  have hI' := Int.toNat_of_nonneg h0
  refine ⟨by simp [h.len], h.inc, ?_, ?_, ?_⟩
  · intro i hi'
    simp only [List.length_set] at hi'
    by_cases he : i = I.toNat
    · subst he
      refine ⟨l', ?_, ?_⟩
      · simpa using hl
      · rw [hI']
        exact ha
    · obtain ⟨l, hl2, ha2⟩ := h.row i hi'
      refine ⟨l, ?_, ?_⟩
      · simp only [List.getElem_set_ne (Ne.symm he)]
        exact hl2
      · intro J K v
        show _ ↔ m' ((i : Int), J, K) = some v
        rw [hm _ _ (show (i : Int) ≠ I by omega)]
        exact ha2 J K v
  · intro I' k hI2
    rw [hm I' k (by omega)]
    exact h.out I' k hI2
  · simp only [List.map_set]
    rw [sum_set _ _ (by simpa using hi), h.nnz, hn, List.getElem_map]
    ring

theorem enterValue_rel {n : Nat} {d : Dict} {m : FaceMap} (h : Rel n d m) {I : Int} (h0 : 0 ≤ I) (hI : I < n) (J K val : Int)
    (hfit : FaceFits (faceStep d.deleteHits m (.enter I J K val)).1) :
    ∃ d', enterValue d I J K val = some (d', (faceStep d.deleteHits m (.enter I J K val)).2) ∧
      Rel n d' (faceStep d.deleteHits m (.enter I J K val)).1 ∧ d'.deleteHits = d.deleteHits := by
  obtain ⟨hi, h1, h2⟩ := row?_spec h h0 hI
  obtain ⟨l, hl, ha⟩ := h.row _ hi
  rw [h2] at ha
  have hlen := hl.len
  unfold enterValue
  rw [h1]
  simp only [enterRow, hl.scan, faceStep] at hfit ⊢
  rcases find_key ha J K with ⟨p, v, hp, f1, f2, f3⟩ | ⟨f1, f2, f3⟩
  · obtain ⟨r', l', e1, e2, e3, e4⟩ := hitRow_spec hl ha d.deleteHits hp f2
    have f3 : m (I, J, K) = some v := f3
    simp only [f1, e1, f3]
    refine ⟨_, rfl, ?_, rfl⟩
    refine rel_set h h0 hI hi e2 ?_ ?_ ?_
    · cases hd : d.deleteHits with
      | false => simpa [hd] using e3
      | true =>
        simp only [hd, if_true] at e3
        intro J' K' v'
        rw [e3 J' K' v']
        simp only [if_true, FaceMap.put, Prod.mk.injEq, true_and]
    · intro I' k hne
      split
      · simp only [FaceMap.put, Prod.mk.injEq, hne, false_and, if_false]
      · rfl
    · rw [← e2.len, e4, hlen]
  · have f2 : m (I, J, K) = none := f2
    obtain ⟨r', e1, e2, e3⟩ := insertRow_spec hl ha h.inc val f3
    simp only [f2] at hfit ⊢
    simp only [f1, e1]
    have hsm : d.rows[I.toNat].count < 255 := by
      have hnd : (((J, K) : Int × Int) :: l.map fun e => (e.1, e.2.1)).Nodup := by
        rw [List.nodup_cons]
        constructor
        · intro hmem
          obtain ⟨e, he, hek⟩ := List.mem_map.mp hmem
          exact f3 e he ⟨(Prod.mk.inj hek).1, (Prod.mk.inj hek).2⟩
        · rw [List.Nodup, List.pairwise_map]
          exact hl.sorted.imp fun hab => hab.ne
      have := hfit I _ hnd (by
        intro k hk
        rcases List.mem_cons.mp hk with rfl | hk
        · simp [FaceMap.put]
        · obtain ⟨e, he, rfl⟩ := List.mem_map.mp hk
          have := (ha e.1 e.2.1 e.2.2).mp he
          simp only at this
          simp only [FaceMap.put]
          split
          · simp
          · rw [this]
            simp)
      simp only [List.length_cons, List.length_map, hlen] at this
      omega
    obtain ⟨l', g1, g2, g3⟩ := e3 hsm
    refine ⟨_, rfl, ?_, rfl⟩
    refine rel_set h h0 hI hi g1 ?_ ?_ ?_
    · intro J' K' v'
      rw [g2 J' K' v']
      simp only [FaceMap.put, Prod.mk.injEq, true_and]
    · intro I' k hne
      simp only [FaceMap.put, Prod.mk.injEq, hne, false_and, if_false]
    · rw [← g1.len, g3, hlen]
      push_cast
      rfl

theorem run_rel {n : Nat} : ∀ (ops : List Op) (d : Dict) (m : FaceMap), Rel n d m →
    (∀ op ∈ ops, 0 ≤ faceRow op ∧ faceRow op < n) →
    (∀ pre, pre <+: ops → FaceFits (faceRun d.deleteHits m pre).1) →
    ∃ d', run d ops = some (d', (faceRun d.deleteHits m ops).2) ∧ Rel n d' (faceRun d.deleteHits m ops).1 ∧
      d'.deleteHits = d.deleteHits := by
  intro ops
  induction ops with
  | nil => intro d m h _ _; exact ⟨d, rfl, h, rfl⟩
  | cons op ops ih =>
    intro d m h hrow hfit
    have hr := hrow op List.mem_cons_self
    have hf1 : FaceFits (faceStep d.deleteHits m op).1 := hfit [op] ⟨ops, rfl⟩
    have key : ∃ d', step d op = some (d', (faceStep d.deleteHits m op).2) ∧ Rel n d' (faceStep d.deleteHits m op).1 ∧
        d'.deleteHits = d.deleteHits := by
      cases op with
      | enter I J K val => exact enterValue_rel h hr.1 hr.2 J K val hf1
      | get I J K =>
        refine ⟨d, ?_, h, rfl⟩
        have hg := getValue_spec (I := I) h hr.1 hr.2 J K
        simp only [step, hg, Option.map_some, faceStep]
    obtain ⟨d1, e1, e2, e3⟩ := key
    obtain ⟨d2, g1, g2, g3⟩ := ih d1 _ e2 (fun o ho => hrow o (List.mem_cons_of_mem _ ho)) (by
      intro pre hpre
      rw [e3]
      have := hfit (op :: pre) (List.cons_prefix_cons.mpr ⟨rfl, hpre⟩)
      exact this)
    rw [e3] at g1 g2 g3
    exact ⟨d2, by simp only [run, e1, g1, faceRun], g2, g3⟩

/-! ### Iteration -/

/-- Entries of the rows from `i` on. -/
def itemsFrom (rows : List Row) (i : Nat) : List ((Int × Int × Int) × Int) :=
  if h : i < rows.length then
    ((rows[i].buf.take rows[i].count).map fun e => (((i : Int), e.1, e.2.1), e.2.2)) ++ itemsFrom rows (i + 1)
  else []
termination_by rows.length - i

theorem itemsFrom_lt {rows : List Row} {i : Nat} (h : i < rows.length) : itemsFrom rows i =
    ((rows[i].buf.take rows[i].count).map fun e => (((i : Int), e.1, e.2.1), e.2.2)) ++ itemsFrom rows (i + 1) := by
  rw [itemsFrom, dif_pos h]

theorem itemsFrom_ge {rows : List Row} {i : Nat} (h : rows.length ≤ i) : itemsFrom rows i = [] := by
  rw [itemsFrom, dif_neg (by omega)]

theorem skipEmpty_spec (rows : List Row) : ∀ k i, rows.length - i = k →
    itemsFrom rows i = itemsFrom rows (skipEmpty rows i) ∧
      ∀ h : skipEmpty rows i < rows.length, 0 < rows[skipEmpty rows i].count := by
  intro k
  induction k with
  | zero =>
    intro i hk
    have e : skipEmpty rows i = i := by rw [skipEmpty, dif_neg (by omega)]
    rw [e]
    exact ⟨rfl, fun h => absurd h (by omega)⟩
  | succ k ih =>
    intro i hk
    have hi : i < rows.length := by omega
    by_cases hc : rows[i].count = 0
    · have e : skipEmpty rows i = skipEmpty rows (i + 1) := by
        rw [skipEmpty, dif_pos hi, if_pos hc]
      rw [e, itemsFrom_lt hi, hc]
      exact ih (i + 1) (by omega)
    · have e : skipEmpty rows i = i := by rw [skipEmpty, dif_pos hi, if_neg hc]
      have e' : ∀ j, j = i → ∀ h : j < rows.length, 0 < rows[j].count := by
        rintro j rfl h
        omega
      exact ⟨by rw [e], e' _ e⟩

theorem iterate_spec (d : Dict) (hw : ∀ i (h : i < d.rows.length), d.rows[i].count ≤ d.rows[i].buf.length) :
    ∀ fuel i jj, (∀ h : i < d.rows.length, jj < d.rows[i].count) → (d.rows.length ≤ i → jj = 0) →
      (itemsFrom d.rows i).length < fuel + jj →
      iterate d fuel i jj = some ((itemsFrom d.rows i).drop jj) := by
  intro fuel
  induction fuel with
  | zero =>
    intro i jj h1 h2 h3
    exfalso
    by_cases hi : i < d.rows.length
    · have := h1 hi
      rw [itemsFrom_lt hi, List.length_append, List.length_map, List.length_take, min_eq_left (hw i hi)] at h3
      omega
    · have := h2 (by omega)
      omega
  | succ fuel ih =>
    intro i jj h1 h2 h3
    by_cases hi : i < d.rows.length
    · have hj := h1 hi
      have hb := hw i hi
      rw [iterate, List.getElem?_eq_getElem hi]
      simp only
      rw [List.getElem?_eq_getElem (show jj < d.rows[i].buf.length by omega)]
      simp only
      have hlen : ((d.rows[i].buf.take d.rows[i].count).map fun e => (((i : Int), e.1, e.2.1), e.2.2)).length = d.rows[i].count := by
        rw [List.length_map, List.length_take, min_eq_left hb]
      have hget : jj < (itemsFrom d.rows i).length := by
        rw [itemsFrom_lt hi, List.length_append, hlen]
        omega
      have hhead : (itemsFrom d.rows i)[jj] =
          (((i : Int), d.rows[i].buf[jj].1, d.rows[i].buf[jj].2.1), d.rows[i].buf[jj].2.2) := by
        simp only [itemsFrom_lt hi]
        rw [List.getElem_append_left (by omega), List.getElem_map, List.getElem_take]
      rw [List.drop_eq_getElem_cons hget, hhead]
      by_cases hlast : (jj : Int) < (d.rows[i].count : Int) - 1
      · rw [if_pos hlast, ih i (jj + 1) (fun _ => by omega) (fun h => by omega) (by omega)]
        rfl
      · have hjj : jj + 1 = d.rows[i].count := by omega
        obtain ⟨s1, s2⟩ := skipEmpty_spec d.rows _ (i + 1) rfl
        rw [if_neg hlast, ih _ 0 s2 (fun _ => rfl) (by
          rw [← s1]
          rw [itemsFrom_lt hi, List.length_append, hlen] at h3
          omega)]
        rw [List.drop_zero, ← s1]
        have : (itemsFrom d.rows i).drop (jj + 1) = itemsFrom d.rows (i + 1) := by
          rw [itemsFrom_lt hi]
          exact List.drop_left' (by rw [hlen, hjj])
        rw [this]
        rfl
    · have := h2 (by omega)
      subst this
      rw [iterate, List.getElem?_eq_none (by omega), itemsFrom_ge (by omega)]
      rfl

/-- The order of the keys. -/
def KeyLess (a b : (Int × Int × Int) × Int) : Prop :=
  a.1.1 < b.1.1 ∨ (a.1.1 = b.1.1 ∧ (a.1.2.1 < b.1.2.1 ∨ (a.1.2.1 = b.1.2.1 ∧ a.1.2.2 < b.1.2.2)))

theorem itemsFrom_spec {n : Nat} {d : Dict} {m : FaceMap} (h : Rel n d m) : ∀ k i, d.rows.length - i = k →
    (itemsFrom d.rows i).Pairwise KeyLess ∧
      ∀ I J K v, ((I, J, K), v) ∈ itemsFrom d.rows i ↔ (i : Int) ≤ I ∧ m (I, J, K) = some v := by
  intro k
  induction k with
  | zero =>
    intro i hk
    rw [itemsFrom_ge (by omega)]
    refine ⟨List.Pairwise.nil, fun I J K v => ?_⟩
    simp only [List.not_mem_nil, false_iff, not_and]
    intro hI
    have := h.len
    rw [h.out I (J, K) (Or.inr (by omega))]
    simp
  | succ k ih =>
    intro i hk
    have hi : i < d.rows.length := by omega
    obtain ⟨ih1, ih2⟩ := ih (i + 1) (by omega)
    obtain ⟨l, hl, ha⟩ := h.row i hi
    rw [itemsFrom_lt hi, hl.live]
    constructor
    · rw [List.pairwise_append, List.pairwise_map]
      refine ⟨hl.sorted.imp fun hab => Or.inr ⟨rfl, hab⟩, ih1, ?_⟩
      intro a ha' b hb
      obtain ⟨e, _, rfl⟩ := List.mem_map.mp ha'
      obtain ⟨⟨I, J, K⟩, v⟩ := b
      have := ((ih2 I J K v).mp hb).1
      left
      show (i : Int) < I
      omega
    · intro I J K v
      rw [List.mem_append, ih2]
      constructor
      · rintro (h' | h')
        · obtain ⟨⟨a, b, c⟩, he, hek⟩ := List.mem_map.mp h'
          simp only [Prod.mk.injEq] at hek
          obtain ⟨⟨rfl, rfl, rfl⟩, rfl⟩ := hek
          exact ⟨le_refl _, (ha _ _ _).mp he⟩
        · exact ⟨by omega, h'.2⟩
      · rintro ⟨h1, h2⟩
        rcases lt_or_eq_of_le h1 with h' | h'
        · exact Or.inr ⟨by omega, h2⟩
        · subst h'
          left
          exact List.mem_map.mpr ⟨(J, K, v), (ha J K v).mpr h2, rfl⟩

theorem itemsFrom_length {n : Nat} {d : Dict} {m : FaceMap} (h : Rel n d m) : ∀ k i, d.rows.length - i = k →
    (itemsFrom d.rows i).length = ((d.rows.drop i).map Row.count).sum := by
  intro k
  induction k with
  | zero =>
    intro i hk
    rw [itemsFrom_ge (by omega), List.drop_eq_nil_of_le (by omega)]
    rfl
  | succ k ih =>
    intro i hk
    have hi : i < d.rows.length := by omega
    obtain ⟨l, hl, ha⟩ := h.row i hi
    rw [itemsFrom_lt hi, List.drop_eq_getElem_cons hi, hl.live, List.length_append, ih (i + 1) (by omega), List.length_map, hl.len,
      List.map_cons, List.sum_cons]

end PyNucleus.FaceVals
