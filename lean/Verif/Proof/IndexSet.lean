import Verif.Model.IndexSet
import Mathlib.Tactic.Tauto

/-! Helper lemmas for index sets. -/

namespace PyNucleus.IndexSet

theorem linearSearch_spec (a : List Int) (i : Int) :
    ∀ n mid, mid + n = a.length → (∀ k (h : k < a.length), k < mid → a[k] ≠ i) →
      (∃ k, ∃ h : k < a.length, linearSearch a i n mid = some (some k) ∧ a[k] = i) ∨
      (linearSearch a i n mid = some none ∧ i ∉ a) := by
  intro n
  induction n with
  | zero =>
    intro mid hm hlt
    right
    refine ⟨rfl, fun hmem => ?_⟩
    obtain ⟨k, hk, he⟩ := List.mem_iff_getElem.1 hmem
    exact hlt k hk (by omega) he
  | succ n ih =>
    intro mid hm hlt
    have h1 : a[mid]? = some (a[mid]'(by omega)) := List.getElem?_eq_getElem (by omega)
    simp only [linearSearch, h1]
    by_cases he : a[mid]'(by omega) = i
    · left
      exact ⟨mid, by omega, by simp [he], he⟩
    · rw [if_neg he]
      apply ih (mid + 1) (by omega)
      intro k hk hlt'
      by_cases hkm : k = mid
      · subst hkm; exact he
      · exact hlt k hk (by omega)

theorem binarySearch_spec (a : List Int) (i : Int) (hs : a.Pairwise (· ≤ ·)) (low high : Nat)
    (h1 : low < high) (h2 : high ≤ a.length)
    (h3 : low = 0 ∨ ∃ h : low < a.length, a[low] ≤ i)
    (h4 : ∀ k (h : k < a.length), high ≤ k → i < a[k]) :
    (∃ k, ∃ h : k < a.length, binarySearch a i low high = some (some k) ∧ a[k] = i) ∨
      (binarySearch a i low high = some none ∧ i ∉ a) := by
  rw [List.pairwise_iff_getElem] at hs
  fun_induction binarySearch a i low high with
  | case1 low high hnone =>
    rw [List.getElem?_eq_none_iff] at hnone; omega
  | case2 low high hK =>
    left
    obtain ⟨h, he⟩ := List.getElem?_eq_some_iff.1 hK
    exact ⟨low, h, rfl, he⟩
  | case3 low high x hK hne hle =>
    right
    refine ⟨rfl, fun hmem => ?_⟩
    obtain ⟨k, hk, he⟩ := List.mem_iff_getElem.1 hmem
    obtain ⟨hl, hx⟩ := List.getElem?_eq_some_iff.1 hK
    have hklt : k < high := by
      rcases Nat.lt_or_ge k high with h | h
      · exact h
      · have := h4 k hk h; omega
    by_cases hkl : k = low
    · subst hkl; omega
    · have := hs k low hk hl (by omega)
      rcases h3 with h | ⟨h, h'⟩
      · omega
      · omega
  | case4 low high x hK hne hle hnone =>
    rw [List.getElem?_eq_none_iff] at hnone; omega
  | case5 low high x hK hne hle y hy hle' ih =>
    obtain ⟨hl, hx⟩ := List.getElem?_eq_some_iff.1 hy
    exact ih (by omega) h2 (Or.inr ⟨hl, by omega⟩) h4
  | case6 low high x hK hne hle y hy hle' ih =>
    obtain ⟨hl, hx⟩ := List.getElem?_eq_some_iff.1 hy
    refine ih (by omega) (by omega) h3 ?_
    intro k hk hge
    by_cases hkl : k = (low + high) / 2
    · subst hkl; omega
    · have := hs _ k hl hk (by omega)
      omega

theorem search_spec (a : List Int) (i : Int) (hs : a.Pairwise (· ≤ ·)) :
    (∃ k, ∃ h : k < a.length, search a i = some (some k) ∧ a[k] = i) ∨
      (search a i = some none ∧ i ∉ a) := by
  unfold search
  split
  · exact linearSearch_spec a i a.length 0 (by omega) (by intro k _ h; omega)
  · exact binarySearch_spec a i hs 0 a.length (by omega) (by omega) (Or.inl rfl)
      (by intro k hk h; omega)

theorem union_length (a b : List Int) : (unionFill a b).length = unionCount a b := by
  fun_induction unionFill a b with
  | case1 l2 => rw [unionCount]
  | case2 l1 h => cases l1 <;> simp [unionCount]
  | case3 t1 i2 t2 ih => rw [unionCount]; simp [ih]
  | case4 i1 t1 i2 t2 h h' ih => rw [unionCount]; simp [h, h', ih]
  | case5 i1 t1 i2 t2 h h' ih => rw [unionCount]; simp [h, h', ih]

theorem inter_length (a b : List Int) : (interFill a b).length = interCount a b := by
  fun_induction interFill a b with
  | case1 l2 => simp [interCount]
  | case2 l1 h => cases l1 <;> simp [interCount]
  | case3 t1 i2 t2 ih => rw [interCount]; simp [ih]
  | case4 i1 t1 i2 t2 h h' ih => rw [interCount]; simp [h, h', ih]
  | case5 i1 t1 i2 t2 h h' ih => rw [interCount]; simp [h, h', ih]

theorem minus_length (a b : List Int) : (minusFill a b).length = minusCount a b := by
  fun_induction minusFill a b with
  | case1 l2 => simp [minusCount]
  | case2 l1 h => cases l1 <;> simp [minusCount]
  | case3 t1 i2 t2 ih => rw [minusCount]; simp [ih]
  | case4 i1 t1 i2 t2 h h' ih => rw [minusCount]; simp [h, h', ih]
  | case5 i1 t1 i2 t2 h h' ih => rw [minusCount]; simp [h, h', ih]

theorem mem_unionFill (a b : List Int) (x : Int) : x ∈ unionFill a b ↔ x ∈ a ∨ x ∈ b := by
  fun_induction unionFill a b with
  | case1 l2 => simp
  | case2 l1 h => simp
  | case3 t1 i2 t2 ih => simp only [List.mem_cons, ih]; tauto
  | case4 i1 t1 i2 t2 h h' ih => simp only [List.mem_cons, ih]; tauto
  | case5 i1 t1 i2 t2 h h' ih => simp only [List.mem_cons, ih]; tauto

theorem sorted_unionFill (a b : List Int) (ha : a.Pairwise (· < ·)) (hb : b.Pairwise (· < ·)) :
    (unionFill a b).Pairwise (· < ·) := by
  fun_induction unionFill a b with
  | case1 l2 => exact hb
  | case2 l1 h => exact ha
  | case3 t1 i2 t2 ih =>
    rw [List.pairwise_cons] at ha hb ⊢
    refine ⟨fun x hx => ?_, ih ha.2 hb.2⟩
    rcases (mem_unionFill _ _ _).1 hx with h | h
    · exact ha.1 x h
    · exact hb.1 x h
  | case4 i1 t1 i2 t2 h h' ih =>
    rw [List.pairwise_cons] at ha ⊢
    refine ⟨fun x hx => ?_, ih ha.2 hb⟩
    rcases (mem_unionFill _ _ _).1 hx with h1 | h1
    · exact ha.1 x h1
    · rw [List.pairwise_cons] at hb
      rcases List.mem_cons.1 h1 with rfl | h1
      · exact h'
      · have := hb.1 x h1; omega
  | case5 i1 t1 i2 t2 h h' ih =>
    rw [List.pairwise_cons] at hb ⊢
    refine ⟨fun x hx => ?_, ih ha hb.2⟩
    rcases (mem_unionFill _ _ _).1 hx with h1 | h1
    · rw [List.pairwise_cons] at ha
      rcases List.mem_cons.1 h1 with rfl | h1
      · omega
      · have := ha.1 x h1; omega
    · exact hb.1 x h1

theorem mem_interFill (a b : List Int) (ha : a.Pairwise (· < ·)) (hb : b.Pairwise (· < ·))
    (x : Int) : x ∈ interFill a b ↔ x ∈ a ∧ x ∈ b := by
  fun_induction interFill a b with
  | case1 l2 => simp
  | case2 l1 h => simp
  | case3 t1 i2 t2 ih =>
    rw [List.pairwise_cons] at ha hb
    simp only [List.mem_cons, ih ha.2 hb.2]
    constructor
    · rintro (h | h)
      · exact ⟨Or.inl h, Or.inl h⟩
      · exact ⟨Or.inr h.1, Or.inr h.2⟩
    · rintro ⟨h1 | h1, h2 | h2⟩
      · exact Or.inl h1
      · exact Or.inl h1
      · exact Or.inl h2
      · exact Or.inr ⟨h1, h2⟩
  | case4 i1 t1 i2 t2 h h' ih =>
    rw [ih (List.pairwise_cons.1 ha).2 hb]
    rw [List.pairwise_cons] at ha hb
    simp only [List.mem_cons]
    constructor
    · rintro ⟨h1, h2⟩; exact ⟨Or.inr h1, h2⟩
    · rintro ⟨rfl | h1, h2⟩
      · rcases h2 with h2 | h2
        · omega
        · have := hb.1 x h2; omega
      · exact ⟨h1, h2⟩
  | case5 i1 t1 i2 t2 h h' ih =>
    rw [ih ha (List.pairwise_cons.1 hb).2]
    rw [List.pairwise_cons] at ha hb
    simp only [List.mem_cons]
    constructor
    · rintro ⟨h1, h2⟩; exact ⟨h1, Or.inr h2⟩
    · rintro ⟨h1, rfl | h2⟩
      · rcases h1 with h1 | h1
        · omega
        · have := ha.1 x h1; omega
      · exact ⟨h1, h2⟩

theorem sorted_interFill (a b : List Int) (ha : a.Pairwise (· < ·)) (hb : b.Pairwise (· < ·)) :
    (interFill a b).Pairwise (· < ·) := by
  fun_induction interFill a b with
  | case1 l2 => exact List.Pairwise.nil
  | case2 l1 h => exact List.Pairwise.nil
  | case3 t1 i2 t2 ih =>
    rw [List.pairwise_cons] at ha hb ⊢
    refine ⟨fun x hx => ?_, ih ha.2 hb.2⟩
    exact ha.1 x ((mem_interFill _ _ ha.2 hb.2 _).1 hx).1
  | case4 i1 t1 i2 t2 h h' ih => exact ih (List.pairwise_cons.1 ha).2 hb
  | case5 i1 t1 i2 t2 h h' ih => exact ih ha (List.pairwise_cons.1 hb).2

theorem mem_minusFill (a b : List Int) (ha : a.Pairwise (· < ·)) (hb : b.Pairwise (· < ·))
    (x : Int) : x ∈ minusFill a b ↔ x ∈ a ∧ x ∉ b := by
  fun_induction minusFill a b with
  | case1 l2 => simp
  | case2 l1 h => simp
  | case3 t1 i2 t2 ih =>
    rw [List.pairwise_cons] at ha hb
    simp only [List.mem_cons, ih ha.2 hb.2, not_or]
    constructor
    · rintro ⟨h1, h2⟩
      have := ha.1 x h1
      exact ⟨Or.inr h1, by omega, h2⟩
    · rintro ⟨h1 | h1, h2, h3⟩
      · exact absurd h1 h2
      · exact ⟨h1, h3⟩
  | case4 i1 t1 i2 t2 h h' ih =>
    have ih := ih (List.pairwise_cons.1 ha).2 hb
    rw [List.pairwise_cons] at ha hb
    simp only [List.mem_cons, not_or] at ih ⊢
    rw [ih]
    constructor
    · rintro (rfl | ⟨h1, h2⟩)
      · refine ⟨Or.inl rfl, h, fun h3 => ?_⟩
        have := hb.1 _ h3; omega
      · exact ⟨Or.inr h1, h2⟩
    · rintro ⟨h1 | h1, h2⟩
      · exact Or.inl h1
      · exact Or.inr ⟨h1, h2⟩
  | case5 i1 t1 i2 t2 h h' ih =>
    have ih := ih ha (List.pairwise_cons.1 hb).2
    rw [List.pairwise_cons] at ha hb
    simp only [List.mem_cons, not_or] at ih ⊢
    rw [ih]
    constructor
    · rintro ⟨h1, h2⟩
      refine ⟨h1, ?_, h2⟩
      rcases h1 with h1 | h1
      · omega
      · have := ha.1 x h1; omega
    · rintro ⟨h1, _, h2⟩; exact ⟨h1, h2⟩

theorem sorted_minusFill (a b : List Int) (ha : a.Pairwise (· < ·)) (hb : b.Pairwise (· < ·)) :
    (minusFill a b).Pairwise (· < ·) := by
  fun_induction minusFill a b with
  | case1 l2 => exact List.Pairwise.nil
  | case2 l1 h => exact ha
  | case3 t1 i2 t2 ih => exact ih (List.pairwise_cons.1 ha).2 (List.pairwise_cons.1 hb).2
  | case4 i1 t1 i2 t2 h h' ih =>
    rw [List.pairwise_cons] at ha ⊢
    refine ⟨fun x hx => ?_, ih ha.2 hb⟩
    exact ha.1 x ((mem_minusFill _ _ ha.2 hb _).1 hx).1
  | case5 i1 t1 i2 t2 h h' ih => exact ih ha (List.pairwise_cons.1 hb).2

theorem compareIndices_le {a b : Int} (ha : 0 ≤ a) (ha' : a < 2147483648) (hb : 0 ≤ b)
    (hb' : b < 2147483648) : compareIndices a b ≤ 0 ↔ a ≤ b := by
  unfold compareIndices wrap32
  omega

theorem insertBy_perm (x : Int) (l : List Int) : (insertBy x l).Perm (x :: l) := by
  induction l with
  | nil => exact List.Perm.refl _
  | cons y t ih =>
    simp only [insertBy]
    split
    · exact List.Perm.refl _
    · exact (List.Perm.cons y ih).trans (List.Perm.swap x y t)

theorem ofArray_perm (l : List Int) : (ofArray l).Perm l := by
  induction l with
  | nil => exact List.Perm.refl _
  | cons x t ih => exact (insertBy_perm x _).trans (List.Perm.cons x ih)

theorem insertBy_sorted (x : Int) (l : List Int) (hx : 0 ≤ x ∧ x < 2147483648)
    (hl : ∀ y ∈ l, 0 ≤ y ∧ y < 2147483648) (hs : l.Pairwise (· ≤ ·)) :
    (insertBy x l).Pairwise (· ≤ ·) := by
  induction l with
  | nil => simp [insertBy]
  | cons y t ih =>
    have hy := hl y (by simp)
    simp only [insertBy]
    rw [List.pairwise_cons] at hs
    split
    · rename_i hc
      rw [compareIndices_le hx.1 hx.2 hy.1 hy.2] at hc
      refine List.pairwise_cons.2 ⟨fun z hz => ?_, List.pairwise_cons.2 hs⟩
      rcases List.mem_cons.1 hz with rfl | hz
      · exact hc
      · have := hs.1 z hz; omega
    · rename_i hc
      rw [compareIndices_le hx.1 hx.2 hy.1 hy.2] at hc
      refine List.pairwise_cons.2 ⟨fun z hz => ?_,
        ih (fun z hz => hl z (List.mem_cons_of_mem _ hz)) hs.2⟩
      rcases List.mem_cons.1 ((insertBy_perm x t).mem_iff.1 hz) with rfl | hz
      · omega
      · exact hs.1 z hz

theorem ofArray_sorted (l : List Int) (hl : ∀ y ∈ l, 0 ≤ y ∧ y < 2147483648) :
    (ofArray l).Pairwise (· ≤ ·) := by
  induction l with
  | nil => exact List.Pairwise.nil
  | cons x t ih =>
    refine insertBy_sorted x _ (hl x (by simp)) ?_ (ih fun y hy => hl y (List.mem_cons_of_mem _ hy))
    intro y hy
    exact hl y (List.mem_cons_of_mem _ ((ofArray_perm t).mem_iff.1 hy))

theorem rangeCollect_pos (start stop inc : Int) (hinc : 0 < inc) :
    ∀ (fuel k : Nat), stop - (start + inc * k) ≤ fuel →
      ∃ l, rangeCollect start stop inc (fuel + 1) k = some l ∧ l.Pairwise (· < ·) ∧
        ∀ x, x ∈ l ↔ ∃ n : Nat, k ≤ n ∧ x = start + inc * n ∧ x < stop := by
  have mono : ∀ n m : Nat, n ≤ m → inc * n ≤ inc * m := fun n m h =>
    Int.mul_le_mul_of_nonneg_left (by omega) (by omega)
  intro fuel
  induction fuel with
  | zero =>
    intro k hk
    have hs : rangeStep start stop inc k = none := by
      unfold rangeStep; rw [if_pos hinc, if_neg (by omega)]
    refine ⟨[], by simp [rangeCollect, hs], List.Pairwise.nil, fun x => ?_⟩
    simp only [List.not_mem_nil, false_iff]
    rintro ⟨n, h1, h2, h3⟩
    have := mono k n h1
    omega
  | succ fuel ih =>
    intro k hk
    by_cases hlt : start + inc * k < stop
    · have hs : rangeStep start stop inc k = some (start + inc * k) := by
        unfold rangeStep; rw [if_pos hinc, if_pos hlt]
      have hk1 : inc * ((k + 1 : Nat) : Int) = inc * k + inc := by
        rw [Int.natCast_add, Int.mul_add]; simp
      obtain ⟨l, h1, h2, h3⟩ := ih (k + 1) (by omega)
      refine ⟨(start + inc * k) :: l, ?_, List.pairwise_cons.2 ⟨fun x hx => ?_, h2⟩, fun x => ?_⟩
      · rw [rangeCollect, hs]; simp only [h1]; rfl
      · obtain ⟨n, hn, rfl, _⟩ := (h3 x).1 hx
        have := mono (k + 1) n hn
        omega
      · rw [List.mem_cons, h3]
        constructor
        · rintro (rfl | ⟨n, hn, h4, h5⟩)
          · exact ⟨k, Nat.le_refl _, rfl, hlt⟩
          · exact ⟨n, by omega, h4, h5⟩
        · rintro ⟨n, hn, h4, h5⟩
          by_cases hnk : n = k
          · subst hnk; exact Or.inl h4
          · exact Or.inr ⟨n, by omega, h4, h5⟩
    · have hs : rangeStep start stop inc k = none := by
        unfold rangeStep; rw [if_pos hinc, if_neg hlt]
      refine ⟨[], by rw [rangeCollect, hs], List.Pairwise.nil, fun x => ?_⟩
      simp only [List.not_mem_nil, false_iff]
      rintro ⟨n, h1, h2, h3⟩
      have := mono k n h1
      omega

theorem isSortedFrom_iff (l : List Int) : ∀ acc i,
    isSortedFrom acc i l = true ↔ acc = true ∧ (i :: l).Pairwise (· < ·) := by
  induction l with
  | nil => intro acc i; simp [isSortedFrom]
  | cons j t ih =>
    intro acc i
    simp only [isSortedFrom, ih, Bool.and_eq_true, decide_eq_true_eq]
    constructor
    · rintro ⟨⟨h1, h2⟩, h3⟩
      refine ⟨h1, List.pairwise_cons.2 ⟨fun x hx => ?_, h3⟩⟩
      rcases List.mem_cons.1 hx with rfl | hx
      · exact h2
      · have := (List.pairwise_cons.1 h3).1 x hx; omega
    · rintro ⟨h1, h2⟩
      rw [List.pairwise_cons] at h2
      exact ⟨⟨h1, h2.1 j (by simp)⟩, h2.2⟩

theorem isSorted_iff (l : List Int) : isSorted l = true ↔ l.Pairwise (· < ·) := by
  cases l with
  | nil => simp [isSorted]
  | cons i t => simp [isSorted, isSortedFrom_iff]

end PyNucleus.IndexSet
