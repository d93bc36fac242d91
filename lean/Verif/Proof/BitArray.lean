import Verif.Model.BitArray

/-! Helper lemmas for the bit array. -/

namespace PyNucleus.BitArray

/-- Bit `p` of the concatenated words. -/
def bit (a : List Word) (p : Nat) : Bool :=
  match a[p / 64]? with
  | some w => w.getLsbD (p % 64)
  | none => false

theorem and_one_ne (v : Word) : (v &&& 1#64 != 0#64) = v.getLsbD 0 := by
  have h : (v &&& 1#64) = BitVec.ofNat 64 (v.getLsbD 0).toNat := by
    apply BitVec.eq_of_getLsbD_eq
    intro i hi
    by_cases h0 : i = 0
    · subst h0
      rw [BitVec.getLsbD_and]
      cases hb : v.getLsbD 0 <;> simp
    · have : (1#64).getLsbD i = false := by
        rw [BitVec.getLsbD_one]; simp [h0]
      rw [BitVec.getLsbD_and, this, Bool.and_false]
      cases hb : v.getLsbD 0 <;> simp [h0]
  rw [h]
  cases v.getLsbD 0 <;> simp

theorem inSet_eq_bit (a : List Word) (i : Nat) : inSet a i = bit a i := by
  have hn : i - i / 64 * 64 = i % 64 := by omega
  unfold inSet bit
  simp only [hn]
  cases a[i / 64]? with
  | none => rfl
  | some w => simp only [and_one_ne, BitVec.getLsbD_ushiftRight, Nat.add_zero]

theorem bit_grow (a : List Word) (k p : Nat) : bit (grow a k) p = bit a p := by
  unfold bit
  by_cases hk : k ≥ a.length
  · rw [grow, if_pos hk]
    by_cases h : p / 64 < a.length
    · rw [List.getElem?_append_left h]
    · rw [List.getElem?_append_right (by omega)]
      have : a[p / 64]? = none := List.getElem?_eq_none_iff.2 (by omega)
      rw [this]
      cases h' : (List.replicate (k + 1 - a.length) 0#64)[p / 64 - a.length]? with
      | none => rfl
      | some w =>
        have := List.mem_of_getElem? h'
        rw [(List.mem_replicate.1 this).2]
        simp
  · rw [grow, if_neg hk]

theorem grow_length (a : List Word) (k : Nat) : k < (grow a k).length := by
  unfold grow
  split
  · simp; omega
  · omega

theorem bit_set (a : List Word) (i p : Nat) : bit (set a i) p = (decide (p = i) || bit a p) := by
  have hn : i - i / 64 * 64 = i % 64 := by omega
  rw [← bit_grow a (i / 64) p]
  unfold set bit
  simp only [hn, List.getElem?_modify]
  by_cases hk : i / 64 = p / 64
  · have hlt := grow_length a (i / 64)
    rw [hk] at hlt ⊢
    rw [List.getElem?_eq_getElem hlt]
    simp only [if_true, Option.map_eq_map, Option.map_some, BitVec.getLsbD_or,
      BitVec.getLsbD_shiftLeft, BitVec.getLsbD_one]
    by_cases hpi : p = i
    · subst hpi
      have : p % 64 < 64 := Nat.mod_lt _ (by omega)
      simp [this]
    · have h1 : ¬ (p % 64 = i % 64) := by omega
      have : (decide (p % 64 < 64) && !decide (p % 64 < i % 64) &&
          (decide (0 < 64) && decide (p % 64 - i % 64 = 0))) = false := by
        simp; omega
      rw [this]
      simp [hpi]
  · have hpi : p ≠ i := fun h => hk (by rw [h])
    have hp' : decide (p = i) = false := by simp [hpi]
    rw [hp', Bool.false_or]
    simp only [if_neg hk]
    cases (grow a (i / 64))[p / 64]? <;> rfl

theorem bit_init (h m p : Nat) : bit (init h m) p = false := by
  unfold bit init
  cases h' : (List.replicate (max h (m / 64 + 1)) 0#64)[p / 64]? with
  | none => rfl
  | some w =>
    have := List.mem_of_getElem? h'
    rw [(List.mem_replicate.1 this).2]
    simp

theorem bit_empty (a : List Word) (p : Nat) : bit (empty a) p = false := by
  unfold bit empty
  rw [List.getElem?_map]
  cases a[p / 64]? <;> simp

theorem bit_foldl_set (s : List Nat) : ∀ (a : List Word) (p : Nat),
    bit (s.foldl set a) p = (decide (p ∈ s) || bit a p) := by
  induction s with
  | nil => intro a p; simp
  | cons i s ih =>
    intro a p
    rw [List.foldl_cons, ih, bit_set]
    by_cases h : p = i <;> by_cases h' : p ∈ s <;> simp [h, h']

/-! ### counting -/

/-- Number of set positions in `[n, n+m)` of a word. -/
theorem popcount_eq (w : Word) : ∀ m n c, popcount m (w >>> n) c =
    c + ((List.range' n m).filter fun j => w.getLsbD j).length := by
  intro m
  induction m with
  | zero => intro n c; simp [popcount]
  | succ m ih =>
    intro n c
    rw [popcount, ← BitVec.shiftRight_add, ih, and_one_ne, List.range'_succ, List.filter_cons]
    simp only [BitVec.getLsbD_ushiftRight, Nat.add_zero]
    by_cases h : w.getLsbD n <;> simp [h] <;> omega

theorem bit_cons (w : Word) (ws : List Word) (p : Nat) :
    bit (w :: ws) p = if p < 64 then w.getLsbD p else bit ws (p - 64) := by
  unfold bit
  by_cases h : p < 64
  · have h0 : p / 64 = 0 := by omega
    simp [h, h0, Nat.mod_eq_of_lt h]
  · have h0 : p / 64 = (p - 64) / 64 + 1 := by omega
    have h1 : p % 64 = (p - 64) % 64 := by omega
    simp [h, h0, h1]

/-- All set positions in increasing order. -/
def bits (a : List Word) : List Nat := (List.range (64 * a.length)).filter fun p => bit a p

theorem filter_range'_shift (f : Nat → Bool) (s : Nat) : ∀ m n,
    ((List.range' (n + s) m).filter f).length = ((List.range' n m).filter fun j => f (j + s)).length := by
  intro m
  induction m with
  | zero => intro n; rfl
  | succ m ih =>
    intro n
    rw [List.range'_succ, List.range'_succ, List.filter_cons, List.filter_cons]
    have := ih (n + 1)
    rw [show n + 1 + s = n + s + 1 by omega] at this
    by_cases h : f (n + s) <;> simp [h, this]

theorem bits_cons_length (w : Word) (ws : List Word) :
    (bits (w :: ws)).length =
      ((List.range' 0 64).filter fun j => w.getLsbD j).length + (bits ws).length := by
  unfold bits
  rw [List.range_eq_range', List.length_cons,
    show 64 * (ws.length + 1) = 64 + 64 * ws.length by omega, ← List.range'_append_1,
    List.filter_append, List.length_append]
  have hsum : ∀ {x x' y y' : Nat}, x = x' → y = y' → x + y = x' + y' := by omega
  refine hsum (congrArg List.length ?_) ?_
  · apply List.filter_congr
    intro p hp
    rw [List.mem_range'_1] at hp
    rw [bit_cons, if_pos (by omega)]
  · rw [List.range_eq_range', filter_range'_shift]
    congr 1
    apply List.filter_congr
    intro p _
    rw [bit_cons, if_neg (by omega), Nat.add_sub_cancel]

theorem getNumEntries_from (a : List Word) : ∀ c,
    a.foldl (fun c w => popcount 64 w c) c = c + (bits a).length := by
  induction a with
  | nil => intro c; simp [bits]
  | cons w ws ih =>
    intro c
    have h := popcount_eq w 64 0 c
    rw [show w >>> 0 = w from by simp] at h
    rw [List.foldl_cons, ih, h, bits_cons_length]
    omega

theorem mem_bits (a : List Word) (p : Nat) : p ∈ bits a ↔ bit a p = true := by
  unfold bits
  rw [List.mem_filter, List.mem_range]
  constructor
  · exact fun h => h.2
  · intro h
    refine ⟨?_, h⟩
    unfold bit at h
    by_cases hlt : p / 64 < a.length
    · omega
    · rw [List.getElem?_eq_none_iff.2 (by omega)] at h
      cases h

theorem bits_sorted (a : List Word) : (bits a).Pairwise (· < ·) :=
  List.Pairwise.filter _ List.pairwise_lt_range

/-! ### iterator -/

theorem scanWord_spec (w : Word) : ∀ m n, n + m = 64 →
    (∀ q, scanWord m n (w >>> n) = some q →
      n ≤ q ∧ q < 64 ∧ w.getLsbD q = true ∧ ∀ j, n ≤ j → j < q → w.getLsbD j = false) ∧
    (scanWord m n (w >>> n) = none → ∀ j, n ≤ j → j < 64 → w.getLsbD j = false) := by
  intro m
  induction m with
  | zero =>
    intro n hn
    refine ⟨?_, ?_⟩
    · intro q h; simp [scanWord] at h
    · intro _ j h1 h2; omega
  | succ m ih =>
    intro n hn
    have ih := ih (n + 1) (by omega)
    rw [scanWord, and_one_ne, ← BitVec.shiftRight_add, BitVec.getLsbD_ushiftRight, Nat.add_zero]
    by_cases h : w.getLsbD n = true
    · rw [if_pos h]
      refine ⟨fun q hq => ?_, fun hq => by cases hq⟩
      cases hq
      exact ⟨Nat.le_refl _, by omega, h, fun j h1 h2 => by omega⟩
    · have h' : w.getLsbD n = false := by simpa using h
      rw [if_neg h]
      refine ⟨fun q hq => ?_, fun hq j h1 h2 => ?_⟩
      · obtain ⟨a1, a2, a3, a4⟩ := ih.1 q hq
        refine ⟨by omega, a2, a3, fun j h1 h2 => ?_⟩
        by_cases hj : j = n
        · subst hj; exact h'
        · exact a4 j (by omega) h2
      · by_cases hj : j = n
        · subst hj; exact h'
        · exact ih.2 hq j (by omega) h2

theorem scanWords_spec (a : List Word) : ∀ m k, m + k = a.length →
    (∀ kk n, scanWords k (a.drop k) = some (kk, n) →
      n < 64 ∧ k ≤ kk ∧ bit a (kk * 64 + n) = true ∧
        ∀ p, k * 64 ≤ p → p < kk * 64 + n → bit a p = false) ∧
    (scanWords k (a.drop k) = none → ∀ p, k * 64 ≤ p → bit a p = false) := by
  intro m
  induction m with
  | zero =>
    intro k hk
    rw [List.drop_of_length_le (by omega)]
    refine ⟨fun kk n h => by simp [scanWords] at h, fun _ p hp => ?_⟩
    unfold bit
    rw [List.getElem?_eq_none_iff.2 (by omega)]
  | succ m ih =>
    intro k hk
    have ih := ih (k + 1) (by omega)
    have hlt : k < a.length := by omega
    have hbit : ∀ p, k * 64 ≤ p → p < (k + 1) * 64 → bit a p = a[k].getLsbD (p - k * 64) := by
      intro p h1 h2
      unfold bit
      rw [show p / 64 = k by omega, List.getElem?_eq_getElem hlt, show p % 64 = p - k * 64 by omega]
    have hs := scanWord_spec a[k] 64 0 rfl
    rw [show a[k] >>> 0 = a[k] from by simp] at hs
    rw [List.drop_eq_getElem_cons hlt, scanWords]
    cases hsc : scanWord 64 0 a[k] with
    | some q =>
      obtain ⟨_, b2, b3, b4⟩ := hs.1 q hsc
      refine ⟨fun kk n h => ?_, fun h => by simp at h⟩
      simp only [Option.some.injEq, Prod.mk.injEq] at h
      obtain ⟨rfl, rfl⟩ := h
      refine ⟨b2, Nat.le_refl _, ?_, fun p h1 h2 => ?_⟩
      · rw [hbit _ (by omega) (by omega), show k * 64 + q - k * 64 = q by omega]; exact b3
      · rw [hbit p h1 (by omega)]; exact b4 _ (by omega) (by omega)
    | none =>
      have b := hs.2 hsc
      refine ⟨fun kk n h => ?_, fun h p hp => ?_⟩
      · obtain ⟨c1, c2, c3, c4⟩ := ih.1 kk n h
        refine ⟨c1, by omega, c3, fun p h1 h2 => ?_⟩
        by_cases hp : p < (k + 1) * 64
        · rw [hbit p h1 hp]; exact b _ (by omega) (by omega)
        · exact c4 p (by omega) h2
      · by_cases hp' : p < (k + 1) * 64
        · rw [hbit p hp hp']; exact b _ (by omega) (by omega)
        · exact ih.2 h p (by omega)

/-- Iterator state positioned just before `p`. -/
structure At (it : Iter) (p : Nat) : Prop where
  n_lt : it.n < 64
  pos : it.k * 64 + it.n + 1 = (p : Int)

theorem at_reset : At Iter.reset 0 := ⟨by decide, by decide⟩

/-- Inside the array a step finds the next set position, or none is left. -/
theorem step_spec (a : List Word) (it : Iter) (p : Nat) (h : At it p) (hp : p < 64 * a.length) :
    (∃ (q : Nat) (it' : Iter), step a it = .value it' ∧ it'.i = (q : Int) ∧ At it' (q + 1) ∧ p ≤ q ∧
      q < 64 * a.length ∧ bit a q = true ∧ ∀ j, p ≤ j → j < q → bit a j = false) ∨
    (step a it = .done ∧ ∀ j, p ≤ j → bit a j = false) := by
  obtain ⟨hn, hpos⟩ := h
  -- the pair (k0, n0) is the position p
  have hpair : (if it.n = 63 then (it.k + 1, 0) else (it.k, it.n + 1) : Int × Nat) =
      (((p / 64 : Nat) : Int), p % 64) := by
    split
    · rename_i h63
      rw [h63] at hpos
      congr 1 <;> omega
    · congr 1 <;> omega
  have hlt : p / 64 < a.length := by omega
  have hnb : ∀ q, p / 64 * 64 ≤ q → q < (p / 64 + 1) * 64 →
      bit a q = a[p / 64].getLsbD (q - p / 64 * 64) := by
    intro q h1 h2
    unfold bit
    rw [show q / 64 = p / 64 by omega, List.getElem?_eq_getElem hlt,
      show q % 64 = q - p / 64 * 64 by omega]
  have hbl : ∀ q, bit a q = true → q < 64 * a.length := by
    intro q hq
    have := (mem_bits a q).2 hq
    unfold bits at this
    rw [List.mem_filter, List.mem_range] at this
    exact this.1
  unfold step
  simp only [hpair]
  rw [if_neg (by omega)]
  simp only [Int.toNat_natCast, List.getElem?_eq_getElem hlt]
  have hs := scanWord_spec a[p / 64] (64 - p % 64) (p % 64) (by omega)
  cases hsc : scanWord (64 - p % 64) (p % 64) (a[p / 64] >>> (p % 64)) with
  | some q =>
    left
    obtain ⟨b1, b2, b3, b4⟩ := hs.1 q hsc
    have hb : bit a (p / 64 * 64 + q) = true := by
      rw [hnb _ (by omega) (by omega), show p / 64 * 64 + q - p / 64 * 64 = q by omega]; exact b3
    refine ⟨p / 64 * 64 + q, _, rfl, by simp only; omega, ⟨b2, by simp only; omega⟩, by omega,
      hbl _ hb, hb, fun j h1 h2 => ?_⟩
    rw [hnb j (by omega) (by omega)]
    exact b4 _ (by omega) (by omega)
  | none =>
    have b := hs.2 hsc
    have hfirst : ∀ j, p ≤ j → j < (p / 64 + 1) * 64 → bit a j = false := by
      intro j h1 h2
      rw [hnb j (by omega) h2]
      exact b _ (by omega) (by omega)
    have ht := scanWords_spec a (a.length - (p / 64 + 1)) (p / 64 + 1) (by omega)
    simp only
    cases htc : scanWords (p / 64 + 1) (a.drop (p / 64 + 1)) with
    | some kn =>
      obtain ⟨kk, n⟩ := kn
      left
      obtain ⟨c1, c2, c3, c4⟩ := ht.1 kk n htc
      refine ⟨kk * 64 + n, _, rfl, by simp only; omega, ⟨c1, by simp only; omega⟩, by omega,
        hbl _ c3, c3, fun j h1 h2 => ?_⟩
      by_cases hj : j < (p / 64 + 1) * 64
      · exact hfirst j h1 hj
      · exact c4 j (by omega) h2
    | none =>
      right
      refine ⟨rfl, fun j h1 => ?_⟩
      by_cases hj : j < (p / 64 + 1) * 64
      · exact hfirst j h1 hj
      · exact ht.2 htc j (by omega)

theorem step_oob (a : List Word) (it : Iter) (h : At it (64 * a.length)) :
    step a it = .outOfBounds := by
  obtain ⟨hn, hpos⟩ := h
  have hpair : (if it.n = 63 then (it.k + 1, 0) else (it.k, it.n + 1) : Int × Nat) =
      ((a.length : Int), 0) := by
    split
    · rename_i h63
      rw [h63] at hpos
      congr 1; omega
    · congr 1 <;> omega
  unfold step
  simp only [hpair]
  rw [if_neg (by omega)]
  simp

/-- Set positions from `p` on. -/
def bitsFrom (a : List Word) (p : Nat) : List Nat := (bits a).filter fun q => decide (p ≤ q)

/-- Two strictly sorted lists with the same members are equal. -/
theorem nat_sorted_ext : ∀ {l l' : List Nat}, l.Pairwise (· < ·) → l'.Pairwise (· < ·) →
    (∀ x, x ∈ l ↔ x ∈ l') → l = l' := by
  intro l
  induction l with
  | nil =>
    intro l' _ _ h
    cases l' with
    | nil => rfl
    | cons x t => exact absurd ((h x).2 (by simp)) (by simp)
  | cons x t ih =>
    intro l' h1 h2 h
    cases l' with
    | nil => exact absurd ((h x).1 (by simp)) (by simp)
    | cons y u =>
      rw [List.pairwise_cons] at h1 h2
      have hxy : x = y := by
        rcases List.mem_cons.1 ((h x).1 (by simp)) with e | e
        · exact e
        · rcases List.mem_cons.1 ((h y).2 (by simp)) with e' | e'
          · exact e'.symm
          · have := h1.1 y e'; have := h2.1 x e; omega
      subst hxy
      congr 1
      refine ih h1.2 h2.2 fun z => ?_
      constructor
      · intro hz
        rcases List.mem_cons.1 ((h z).1 (List.mem_cons_of_mem _ hz)) with e | e
        · have := h1.1 z hz; omega
        · exact e
      · intro hz
        rcases List.mem_cons.1 ((h z).2 (List.mem_cons_of_mem _ hz)) with e | e
        · have := h2.1 z hz; omega
        · exact e

theorem bitsFrom_sorted (a : List Word) (p : Nat) : (bitsFrom a p).Pairwise (· < ·) :=
  List.Pairwise.filter _ (bits_sorted a)

theorem mem_bitsFrom (a : List Word) (p q : Nat) : q ∈ bitsFrom a p ↔ p ≤ q ∧ bit a q = true := by
  unfold bitsFrom
  rw [List.mem_filter, mem_bits]
  simp [and_comm]

theorem bitsFrom_step (a : List Word) (p q : Nat) (hpq : p ≤ q) (hq : bit a q = true)
    (h : ∀ j, p ≤ j → j < q → bit a j = false) : bitsFrom a p = q :: bitsFrom a (q + 1) := by
  refine nat_sorted_ext (bitsFrom_sorted a p) ?_ ?_
  · refine List.pairwise_cons.2 ⟨fun x hx => ?_, bitsFrom_sorted a _⟩
    have := ((mem_bitsFrom a _ _).1 hx).1; omega
  · intro x
    rw [List.mem_cons, mem_bitsFrom, mem_bitsFrom]
    constructor
    · rintro ⟨h1, h2⟩
      rcases Nat.lt_trichotomy x q with hlt | rfl | hgt
      · rw [h x h1 hlt] at h2; cases h2
      · exact Or.inl rfl
      · exact Or.inr ⟨by omega, h2⟩
    · rintro (rfl | ⟨h1, h2⟩)
      · exact ⟨hpq, hq⟩
      · exact ⟨by omega, h2⟩

theorem drain_ok (a : List Word) (hlast : bit a (64 * a.length - 1) = false) (hne : a ≠ []) :
    ∀ fuel it p, At it p → p < 64 * a.length → 64 * a.length - p < fuel →
      drain a fuel it = some ((bitsFrom a p).map fun (q : Nat) => (q : Int)) := by
  have hpos : 0 < a.length := List.length_pos_iff.2 hne
  intro fuel
  induction fuel with
  | zero => intro it p _ _ h; omega
  | succ fuel ih =>
    intro it p hat hp hf
    rcases step_spec a it p hat hp with ⟨q, it', h1, h2, h3, h4, h5, h6, h7⟩ | ⟨h1, h2⟩
    · rw [drain, h1]
      have hq : q + 1 < 64 * a.length := by
        rcases Nat.lt_or_ge (q + 1) (64 * a.length) with h | h
        · exact h
        · have : q = 64 * a.length - 1 := by omega
          rw [this, hlast] at h6; cases h6
      simp only [ih it' (q + 1) h3 hq (by omega), bitsFrom_step a p q h4 h6 h7, h2]
      rfl
    · rw [drain, h1]
      have : bitsFrom a p = [] := by
        rw [List.eq_nil_iff_forall_not_mem]
        intro x hx
        obtain ⟨e1, e2⟩ := (mem_bitsFrom a p x).1 hx
        rw [h2 x e1] at e2; cases e2
      rw [this]; rfl

theorem drain_oob (a : List Word) (hlast : bit a (64 * a.length - 1) = true) (hne : a ≠ []) :
    ∀ fuel it p, At it p → p ≤ 64 * a.length → drain a fuel it = none := by
  have hpos : 0 < a.length := List.length_pos_iff.2 hne
  intro fuel
  induction fuel with
  | zero => intro it p _ _; rfl
  | succ fuel ih =>
    intro it p hat hp
    by_cases hp' : p < 64 * a.length
    · rcases step_spec a it p hat hp' with ⟨q, it', h1, h2, h3, h4, h5, h6, h7⟩ | ⟨h1, h2⟩
      · rw [drain, h1]
        simp only [ih it' (q + 1) h3 (by omega), Option.map_none]
      · rw [h2 _ (by omega)] at hlast; cases hlast
    · have : p = 64 * a.length := by omega
      subst this
      rw [drain, step_oob a it hat]

/-! ### union, intersection -/

theorem bit_nil (p : Nat) : bit [] p = false := by simp [bit]

theorem bit_union (a b : List Word) : ∀ p, bit (union a b) p = (bit a p || bit b p) := by
  fun_induction union a b with
  | case1 bs => intro p; simp [bit_nil]
  | case2 as h => intro p; simp [bit_nil]
  | case3 a as b bs ih =>
    intro p
    rw [bit_cons, bit_cons, bit_cons]
    split
    · simp
    · rw [ih]

theorem bit_inter (a b : List Word) : ∀ p, bit (inter a b) p = (bit a p && bit b p) := by
  fun_induction inter a b with
  | case1 a as b bs ih =>
    intro p
    rw [bit_cons, bit_cons, bit_cons]
    split
    · simp
    · rw [ih]
  | case2 as bs h =>
    intro p
    cases as with
    | nil => simp [bit_nil]
    | cons a as =>
      cases bs with
      | nil => simp [bit_nil]
      | cons b bs => exact absurd rfl (h a as b bs rfl)

end PyNucleus.BitArray
