import Verif.Model.SortedRow

/-! Helper lemmas about growable sorted rows. -/

namespace PyNucleus.SortedRow

variable {V : Type}

/-- Key in slot `i` of a buffer. -/
def key (buf : List (Int × V)) (i : Nat) : Int := ((buf[i]?).map Prod.fst).getD 0

/-- Well-formed row. -/
structure Row.WF (r : Row V) : Prop where
  count_le : r.count ≤ r.buf.length
  len : r.buf.length = r.length
  sorted : ∀ i j, i < j → j < r.count → key r.buf i < key r.buf j

/-- What the search must return on the first `n` slots. -/
def FindSpec (buf : List (Int × V)) (n : Nat) (J : Int) (res : Bool × Nat) : Prop :=
  if res.1 then res.2 < n ∧ key buf res.2 = J
  else res.2 ≤ n ∧ (∀ i, i < res.2 → key buf i < J) ∧ (∀ i, res.2 ≤ i → i < n → J < key buf i)

theorem getElem?_eq_key (buf : List (Int × V)) (i : Nat) (h : i < buf.length) :
    ∃ v, buf[i]? = some (key buf i, v) := by
  refine ⟨(buf[i]).2, ?_⟩
  simp [key, h]

theorem findLinear_spec (buf : List (Int × V)) (J : Int) (c : Nat) (hc : c ≤ buf.length)
    (hs : ∀ i j, i < j → j < c → key buf i < key buf j) :
    ∀ n m, m + n = c → (∀ i, i < m → key buf i < J) →
      ∃ res, findLinear buf J n m = some res ∧ FindSpec buf c J res := by
  intro n
  induction n with
  | zero =>
    intro m hm hlt
    refine ⟨(false, m), rfl, ?_⟩
    simp only [FindSpec, Bool.false_eq_true, if_false]
    exact ⟨by omega, hlt, fun i h1 h2 => by omega⟩
  | succ n ih =>
    intro m hm hlt
    obtain ⟨v, hv⟩ := getElem?_eq_key buf m (by omega)
    simp only [findLinear, hv]
    by_cases h1 : key buf m = J
    · refine ⟨(true, m), by simp [h1], ?_⟩
      simp only [FindSpec, if_true]
      exact ⟨by omega, h1⟩
    · by_cases h2 : key buf m > J
      · refine ⟨(false, m), by simp [h1, h2], ?_⟩
        simp only [FindSpec, Bool.false_eq_true, if_false]
        refine ⟨by omega, hlt, fun i h3 h4 => ?_⟩
        rcases Nat.lt_or_ge m i with h5 | h5
        · have := hs m i h5 h4; omega
        · have : i = m := by omega
          subst this; exact h2
      · simp only [h1, if_false, h2]
        apply ih (m + 1) (by omega)
        intro i hi
        rcases Nat.lt_or_ge i m with h5 | h5
        · exact hlt i h5
        · have : i = m := by omega
          subst this; omega

theorem findBinary_spec (buf : List (Int × V)) (J : Int) (c : Nat) (hc : c ≤ buf.length)
    (hs : ∀ i j, i < j → j < c → key buf i < key buf j) (low high : Nat)
    (h1 : low < high) (h2 : high ≤ c) (h3 : ∀ i, i < low → key buf i < J)
    (h4 : ∀ i, high ≤ i → i < c → J < key buf i) :
      ∃ res, findBinary buf J low high = some res ∧ FindSpec buf c J res := by
  fun_induction findBinary buf J low high with
  | case1 low high hnone =>
    obtain ⟨v, hv⟩ := getElem?_eq_key buf low (by omega)
    rw [hv] at hnone; cases hnone
  | case2 low high v hK =>
    refine ⟨_, rfl, ?_⟩
    obtain ⟨v', hv⟩ := getElem?_eq_key buf low (by omega)
    rw [hv] at hK; cases hK
    simp only [FindSpec, if_true]
    exact ⟨by omega, trivial⟩
  | case3 low high K v hK hne hle hgt =>
    refine ⟨_, rfl, ?_⟩
    obtain ⟨v', hv⟩ := getElem?_eq_key buf low (by omega)
    rw [hv] at hK; cases hK
    simp only [FindSpec, Bool.false_eq_true, if_false]
    refine ⟨by omega, h3, fun i h5 h6 => ?_⟩
    rcases Nat.lt_or_ge low i with h7 | h7
    · have := hs low i h7 h6; omega
    · have : i = low := by omega
      subst this; exact hgt
  | case4 low high K v hK hne hle hgt =>
    refine ⟨_, rfl, ?_⟩
    obtain ⟨v', hv⟩ := getElem?_eq_key buf low (by omega)
    rw [hv] at hK; cases hK
    simp only [FindSpec, Bool.false_eq_true, if_false]
    refine ⟨by omega, fun i hi => ?_, fun i h5 h6 => h4 i (by omega) h6⟩
    rcases Nat.lt_or_ge i low with h7 | h7
    · exact h3 i h7
    · have : i = low := by omega
      subst this; omega
  | case5 low high K v hK hne hle hnone =>
    obtain ⟨v', hv⟩ := getElem?_eq_key buf ((low + high) / 2) (by omega)
    rw [hv] at hnone; cases hnone
  | case6 low high K v hK hne hle K' v' hK' hle' ih =>
    obtain ⟨v'', hv⟩ := getElem?_eq_key buf ((low + high) / 2) (by omega)
    rw [hv] at hK'; cases hK'
    apply ih (by omega) h2
    · intro i hi
      have := hs i ((low + high) / 2) hi (by omega)
      omega
    · exact h4
  | case7 low high K v hK hne hle K' v' hK' hle' ih =>
    obtain ⟨v'', hv⟩ := getElem?_eq_key buf ((low + high) / 2) (by omega)
    rw [hv] at hK'; cases hK'
    apply ih (by omega) (by omega) h3
    intro i hi hic
    rcases Nat.lt_or_ge ((low + high) / 2) i with h7 | h7
    · have := hs _ i h7 hic; omega
    · have : i = (low + high) / 2 := by omega
      subst this; omega

theorem findIndex_spec (W : Nat) (r : Row V) (J : Int) (hr : r.WF) (hW : r.count < W) :
    ∃ res, findIndex W r J = some res ∧ FindSpec r.buf r.count J res := by
  have aux : ∀ res : Bool × Nat, FindSpec r.buf r.count J res → res.2 % W = res.2 := by
    rintro ⟨b, k⟩ h
    apply Nat.mod_eq_of_lt
    cases b <;> simp only [FindSpec, Bool.false_eq_true, if_false, if_true] at h <;>
      have := h.1 <;> show k < W <;> omega
  unfold findIndex
  split
  · obtain ⟨res, h1, h2⟩ := findLinear_spec r.buf J r.count hr.count_le hr.sorted r.count 0
      (by omega) (by intro i hi; omega)
    refine ⟨res, ?_, h2⟩
    rw [h1, Option.map_some, aux res h2]
  · rename_i h20
    obtain ⟨res, h1, h2⟩ := findBinary_spec r.buf J r.count hr.count_le hr.sorted 0 r.count
      (by omega) (by omega) (by intro i hi; omega) (by intro i hi; omega)
    refine ⟨res, ?_, h2⟩
    rw [Nat.mod_eq_of_lt hW, h1, Option.map_some, aux res h2]

theorem shiftUp_spec {α : Type} (m : Nat) : ∀ (it : Nat) (buf : List α), m + it < buf.length →
    ∃ b, shiftUp m it buf = some b ∧ b.length = buf.length ∧
      ∀ i, b[i]? = if m < i ∧ i ≤ m + it then buf[i - 1]? else buf[i]? := by
  intro it
  induction it with
  | zero =>
    intro buf h
    refine ⟨buf, rfl, rfl, fun i => ?_⟩
    rw [if_neg (by omega)]
  | succ it ih =>
    intro buf h
    have h1 : buf[m + it]? = some (buf[m + it]'(by omega)) := List.getElem?_eq_getElem (by omega)
    simp only [shiftUp, h1, store]
    rw [if_pos (by omega)]
    simp only
    obtain ⟨b, hb, hl, hget⟩ := ih (buf.set (m + it + 1) (buf[m + it]'(by omega)))
      (by rw [List.length_set]; omega)
    refine ⟨b, hb, by rw [hl, List.length_set], fun i => ?_⟩
    rw [hget]
    by_cases h2 : m < i ∧ i ≤ m + it
    · rw [if_pos h2, if_pos (by omega), List.getElem?_set]
      rw [if_neg (by omega)]
    · rw [if_neg h2, List.getElem?_set]
      by_cases h3 : m + it + 1 = i
      · subst h3
        rw [if_pos rfl, if_pos (by omega), if_pos (by omega)]
        rw [show m + it + 1 - 1 = m + it by omega, h1]
      · rw [if_neg h3, if_neg (by omega)]

theorem shiftDown_spec {α : Type} : ∀ (it m : Nat) (buf : List α), m + it < buf.length →
    ∃ b, shiftDown it m buf = some b ∧ b.length = buf.length ∧
      ∀ i, b[i]? = if m ≤ i ∧ i < m + it then buf[i + 1]? else buf[i]? := by
  intro it
  induction it with
  | zero =>
    intro m buf h
    refine ⟨buf, rfl, rfl, fun i => ?_⟩
    rw [if_neg (by omega)]
  | succ it ih =>
    intro m buf h
    have h1 : buf[m + 1]? = some (buf[m + 1]'(by omega)) := List.getElem?_eq_getElem (by omega)
    simp only [shiftDown, h1, store]
    rw [if_pos (by omega)]
    simp only
    obtain ⟨b, hb, hl, hget⟩ := ih (m + 1) (buf.set m (buf[m + 1]'(by omega)))
      (by rw [List.length_set]; omega)
    refine ⟨b, hb, by rw [hl, List.length_set], fun i => ?_⟩
    rw [hget]
    by_cases h2 : m + 1 ≤ i ∧ i < m + 1 + it
    · rw [if_pos h2, if_pos (by omega), List.getElem?_set]
      rw [if_neg (by omega)]
    · rw [if_neg h2, List.getElem?_set]
      by_cases h3 : m = i
      · subst h3
        rw [if_pos rfl, if_pos (by omega), if_pos (by omega), h1]
      · rw [if_neg h3, if_neg (by omega)]

theorem realloc_length {α : Type} (junk : α) (buf : List α) (n : Nat) :
    (realloc junk buf n).length = n := by
  simp [realloc]; omega

theorem realloc_getElem? {α : Type} (junk : α) (buf : List α) (n i : Nat) (hi : i < n)
    (hb : i < buf.length) : (realloc junk buf n)[i]? = buf[i]? := by
  unfold realloc
  rw [List.getElem?_append_left (by simp; omega), List.getElem?_take_of_lt hi]

/-- Inserting into a buffer with room. -/
theorem insert_spec {α : Type} (buf : List α) (c m : Nat) (x : α) (hm : m ≤ c)
    (hc : c < buf.length) :
    ∃ b b', shiftUp m (c - m) buf = some b ∧ store b m x = some b' ∧ b'.length = buf.length ∧
      b'.take (c + 1) = buf.take m ++ x :: (buf.take c).drop m := by
  obtain ⟨b, h1, h2, h3⟩ := shiftUp_spec m (c - m) buf (by omega)
  refine ⟨b, b.set m x, h1, by rw [store, if_pos (by omega)], by rw [List.length_set, h2], ?_⟩
  apply List.ext_getElem?
  intro i
  rw [List.getElem?_take, List.getElem?_set]
  by_cases hi : i < c + 1
  · rw [if_pos hi]
    rcases Nat.lt_trichotomy i m with h | h | h
    · rw [if_neg (by omega), h3, if_neg (by omega), List.getElem?_append_left (by simp; omega),
        List.getElem?_take_of_lt h]
    · subst h
      rw [if_pos rfl, if_pos (by omega), List.getElem?_append_right (by simp; omega)]
      have h0 : i - (buf.take i).length = 0 := by simp; omega
      rw [h0]; simp
    · rw [if_neg (by omega), h3, if_pos (by omega), List.getElem?_append_right (by simp; omega)]
      have h0 : i - (buf.take m).length = (i - m - 1) + 1 := by
        rw [List.length_take]; omega
      rw [h0, List.getElem?_cons_succ, List.getElem?_drop, List.getElem?_take_of_lt (by omega)]
      congr 1
      omega
  · rw [if_neg hi]
    symm
    apply List.getElem?_eq_none
    simp
    omega

/-- Removing from a buffer. -/
theorem delete_spec {α : Type} (buf : List α) (c m : Nat) (hm : m < c) (hc : c ≤ buf.length) :
    ∃ b, shiftDown (c - (m + 1)) m buf = some b ∧ b.length = buf.length ∧
      b.take (c - 1) = buf.take m ++ (buf.take c).drop (m + 1) := by
  obtain ⟨b, h1, h2, h3⟩ := shiftDown_spec (c - (m + 1)) m buf (by omega)
  refine ⟨b, h1, h2, ?_⟩
  apply List.ext_getElem?
  intro i
  rw [List.getElem?_take]
  by_cases hi : i < c - 1
  · rw [if_pos hi, h3]
    by_cases h : i < m
    · rw [if_neg (by omega), List.getElem?_append_left (by simp; omega),
        List.getElem?_take_of_lt h]
    · rw [if_pos (by omega), List.getElem?_append_right (by simp; omega)]
      have h0 : i - (buf.take m).length = i - m := by rw [List.length_take]; omega
      rw [h0, List.getElem?_drop, List.getElem?_take_of_lt (by omega)]
      congr 1
      omega
  · rw [if_neg hi]
    symm
    apply List.getElem?_eq_none
    simp
    omega

theorem sorted_iff (buf : List (Int × V)) (c : Nat) (hc : c ≤ buf.length) :
    (∀ i j, i < j → j < c → key buf i < key buf j) ↔
      (buf.take c).Pairwise (fun a b => a.1 < b.1) := by
  rw [List.pairwise_iff_getElem]
  have hkey : ∀ i (h : i < (buf.take c).length), ((buf.take c)[i]).1 = key buf i := by
    intro i h
    rw [List.length_take] at h
    rw [List.getElem_take]
    unfold key
    rw [List.getElem?_eq_getElem (by omega)]
    rfl
  constructor
  · intro h i j hi hj hij
    rw [hkey, hkey]
    exact h i j hij (by rw [List.length_take] at hj; omega)
  · intro h i j hij hj
    have := h i j (by rw [List.length_take]; omega) (by rw [List.length_take]; omega) hij
    rwa [hkey, hkey] at this

theorem Row.WF.live_sorted {r : Row V} (hr : r.WF) :
    r.live.Pairwise (fun a b => a.1 < b.1) :=
  (sorted_iff r.buf r.count hr.count_le).1 hr.sorted

theorem Row.WF.live_length {r : Row V} (hr : r.WF) : r.live.length = r.count := by
  unfold Row.live
  rw [List.length_take]
  have := hr.count_le
  omega

/-- The search either finds the key or the place where it belongs. -/
theorem find_live (W : Nat) (r : Row V) (J : Int) (hr : r.WF) (hW : r.count < W) :
    (∃ l1 v l2, r.live = l1 ++ (J, v) :: l2 ∧ findIndex W r J = some (true, l1.length) ∧
        r.buf[l1.length]? = some (J, v)) ∨
    (∃ l1 l2, r.live = l1 ++ l2 ∧ findIndex W r J = some (false, l1.length) ∧
        (∀ p ∈ l1, p.1 < J) ∧ (∀ p ∈ l2, J < p.1)) := by
  obtain ⟨⟨b, k⟩, h1, h2⟩ := findIndex_spec W r J hr hW
  have hlen := hr.live_length
  cases b with
  | true =>
    simp only [FindSpec, if_true] at h2
    obtain ⟨hk, hJ⟩ := h2
    left
    have hkl : k < r.live.length := by omega
    have hkb : k < r.buf.length := by have := hr.count_le; omega
    obtain ⟨v, hv⟩ := getElem?_eq_key r.buf k hkb
    rw [hJ] at hv
    have hlive : r.live[k]? = some (J, v) := by
      unfold Row.live
      rw [List.getElem?_take_of_lt hk, hv]
    refine ⟨r.live.take k, v, r.live.drop (k + 1), ?_, ?_, ?_⟩
    · rw [List.getElem?_eq_getElem hkl] at hlive
      have := Option.some.inj hlive
      rw [← this, ← List.drop_eq_getElem_cons, List.take_append_drop]
    · rw [h1, List.length_take]
      congr 2
      omega
    · rw [List.length_take, show min k r.live.length = k by omega, hv]
  | false =>
    simp only [FindSpec, Bool.false_eq_true, if_false] at h2
    obtain ⟨hk, hlt, hgt⟩ := h2
    right
    refine ⟨r.live.take k, r.live.drop k, (List.take_append_drop _ _).symm, ?_, ?_, ?_⟩
    · rw [h1, List.length_take]
      congr 2
      omega
    · intro p hp
      obtain ⟨i, hi, rfl⟩ := List.mem_iff_getElem.1 hp
      rw [List.length_take] at hi
      have := hlt i (by omega)
      rw [List.getElem_take]
      unfold Row.live
      rw [List.getElem_take]
      unfold key at this
      rw [List.getElem?_eq_getElem (by have := hr.count_le; omega)] at this
      exact this
    · intro p hp
      obtain ⟨i, hi, rfl⟩ := List.mem_iff_getElem.1 hp
      rw [List.length_drop] at hi
      have := hgt (k + i) (by omega) (by omega)
      rw [List.getElem_drop]
      unfold Row.live
      rw [List.getElem_take]
      unfold key at this
      rw [List.getElem?_eq_getElem (by have := hr.count_le; omega)] at this
      exact this

/-- Insertion into a row with room. -/
theorem insert_live (buf : List (Int × V)) (c : Nat) (l1 l2 : List (Int × V)) (J : Int) (v : V)
    (hc : c < buf.length) (hl : buf.take c = l1 ++ l2) :
    ∃ b b', shiftUp l1.length (c - l1.length) buf = some b ∧ store b l1.length (J, v) = some b' ∧
      b'.length = buf.length ∧ b'.take (c + 1) = l1 ++ (J, v) :: l2 := by
  have hle : l1.length ≤ c := by
    have := congrArg List.length hl
    rw [List.length_take, List.length_append] at this
    omega
  obtain ⟨b, b', h1, h2, h3, h4⟩ := insert_spec buf c l1.length (J, v) hle hc
  refine ⟨b, b', h1, h2, h3, ?_⟩
  have h5 : buf.take l1.length = l1 := by
    have : (buf.take c).take l1.length = l1 := by rw [hl, List.take_left]
    rw [List.take_take, Nat.min_eq_left hle] at this
    exact this
  rw [h4, h5, hl, List.drop_left]

/-- Removal of a slot. -/
theorem delete_live (buf : List (Int × V)) (c : Nat) (l1 l2 : List (Int × V)) (x : Int × V)
    (hc : c ≤ buf.length) (hl : buf.take c = l1 ++ x :: l2) :
    ∃ b, shiftDown (c - (l1.length + 1)) l1.length buf = some b ∧
      b.length = buf.length ∧ b.take (c - 1) = l1 ++ l2 := by
  have hlt : l1.length < c := by
    have := congrArg List.length hl
    rw [List.length_take, List.length_append, List.length_cons] at this
    omega
  obtain ⟨b, h1, h3, h4⟩ := delete_spec buf c l1.length hlt hc
  refine ⟨b, h1, h3, ?_⟩
  have h5 : buf.take l1.length = l1 := by
    have : (buf.take c).take l1.length = l1 := by rw [hl, List.take_left]
    rw [List.take_take, Nat.min_eq_left (by omega)] at this
    exact this
  rw [h4, h5, hl]
  congr 1
  rw [show l1.length + 1 = (l1 ++ [x]).length by simp,
    show l1 ++ x :: l2 = (l1 ++ [x]) ++ l2 by simp, List.drop_left]

theorem realloc_take {α : Type} (junk : α) (buf : List α) (n c : Nat) (hc : c ≤ buf.length)
    (hn : c ≤ n) : (realloc junk buf n).take c = buf.take c := by
  apply List.ext_getElem?
  intro i
  rw [List.getElem?_take, List.getElem?_take]
  split
  · exact realloc_getElem? junk buf n i (by omega) (by omega)
  · rfl

theorem sorted_insert {l1 l2 : List (Int × V)} {J : Int} {v : V}
    (h : (l1 ++ l2).Pairwise (fun a b => a.1 < b.1)) (h1 : ∀ p ∈ l1, p.1 < J)
    (h2 : ∀ p ∈ l2, J < p.1) : (l1 ++ (J, v) :: l2).Pairwise (fun a b => a.1 < b.1) := by
  rw [List.pairwise_append] at h ⊢
  refine ⟨h.1, List.pairwise_cons.2 ⟨fun p hp => h2 p hp, h.2.1⟩, ?_⟩
  intro a ha b hb
  rcases List.mem_cons.1 hb with rfl | hb
  · exact h1 a ha
  · exact h.2.2 a ha b hb

theorem sorted_delete {l1 l2 : List (Int × V)} {x : Int × V}
    (h : (l1 ++ x :: l2).Pairwise (fun a b => a.1 < b.1)) :
    (l1 ++ l2).Pairwise (fun a b => a.1 < b.1) := by
  refine List.Pairwise.sublist ?_ h
  exact List.Sublist.append_left (List.sublist_cons_self _ _) _

end PyNucleus.SortedRow
