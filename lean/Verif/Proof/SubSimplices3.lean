import Verif.Proof.SubSimplices2

namespace PyNucleus.Interaction

variable {K : Type} [Field K] [LinearOrder K] [IsStrictOrderedRing K]

/-! ### Points of the parts -/

theorem sum_vertex (n i : Nat) (hi : i < n) (f w : Nat → K) (hw : ∀ k, k < n → w k = if k = i then 1 else 0) : ∑ k ∈ Finset.range n, w k * f k = f i := by
  rw [Finset.sum_congr rfl fun k hk => by rw [hw k (Finset.mem_range.1 hk)]]
  simp [hi]

theorem sum_edge (n a b : Nat) (ha : a < n) (hb : b < n) (hab : a ≠ b) (c : K) (f w : Nat → K)
    (hw : ∀ k, k < n → w k = if k = a then 1 - c else if k = b then c else 0) : ∑ k ∈ Finset.range n, w k * f k = f a + c * (f b - f a) := by
  have : ∀ k ∈ Finset.range n, w k * f k = (if k = a then (1 - c) * f a else 0) + if k = b then c * f b else 0 := by
    intro k hk
    rw [hw k (Finset.mem_range.1 hk)]
    by_cases h1 : k = a
    · subst h1; simp [hab]
    · by_cases h2 : k = b
      · subst h2; simp [h1]
      · simp [h1, h2]
  rw [Finset.sum_congr rfl this, Finset.sum_add_distrib]
  simp [ha, hb]
  ring

/-- Coordinates of a corner that is not a special point. -/
theorem corner_weights {n : Nat} {ind : Nat → Bool} {fi : Nat → Nat → List K} {w : Nat → K} (h01 : ∀ a b, ∀ c ∈ fi a b, 0 ≤ c ∧ c ≤ 1)
    (h : Corner n ind fi none w) : Weights n w := by
  rcases h with ⟨i, hi, _, hw⟩ | ⟨a, b, c, ha, hb, hab, hc, hw⟩ | ⟨v, hv, _⟩
  · refine ⟨fun k hk => by rw [hw k hk]; split <;> simp, ?_⟩
    have := sum_vertex n i hi (fun _ => 1) w hw
    simpa using this
  · obtain ⟨c0, c1⟩ := h01 a b c hc
    refine ⟨fun k hk => ?_, ?_⟩
    · rw [hw k hk]
      split
      · exact sub_nonneg.2 c1
      · split
        · exact c0
        · exact le_rfl
    · have := sum_edge n a b ha hb hab c (fun _ => 1) w hw
      simpa using this
  · cases hv

theorem combine_vertex (n i : Nat) (hi : i < n) (s : Simplex K) (w : Nat → K) (hw : ∀ k, k < n → w k = if k = i then 1 else 0) : combine n s w = s i := by
  funext j
  exact sum_vertex n i hi (fun k => s k j) w hw

theorem combine_edge (n a b : Nat) (ha : a < n) (hb : b < n) (hab : a ≠ b) (c : K) (s : Simplex K) (w : Nat → K)
    (hw : ∀ k, k < n → w k = if k = a then 1 - c else if k = b then c else 0) : combine n s w = onSegment s a b c := by
  funext j
  exact sum_edge n a b ha hb hab c (fun k => s k j) w hw

theorem combine_image (n : Nat) (s : Simplex K) (A : Nat → Nat → K) (w : Nat → K) (hw : Weights n w) :
    InHull n (fun j => combine n s fun k => A k j) (combine n s (image n A w)) := by
  refine ⟨w, hw.1, hw.2, fun k => ?_⟩
  unfold combine image
  simp only [Finset.mul_sum, Finset.sum_mul]
  rw [Finset.sum_comm]
  exact Finset.sum_congr rfl fun i _ => Finset.sum_congr rfl fun j _ => by ring

theorem weights_image (n : Nat) (A : Nat → Nat → K) (w : Nat → K) (hw : Weights n w) (hA : ∀ j, j < n → Weights n fun k => A k j) : Weights n (image n A w) := by
  refine ⟨fun i hi => Finset.sum_nonneg fun j hj => mul_nonneg ((hA j (Finset.mem_range.1 hj)).1 i hi) (hw.1 j (Finset.mem_range.1 hj)), ?_⟩
  unfold image
  rw [Finset.sum_comm]
  have : ∀ j ∈ Finset.range n, ∑ i ∈ Finset.range n, A i j * w j = w j := by
    intro j hj
    rw [← Finset.sum_mul, (hA j (Finset.mem_range.1 hj)).2, one_mul]
  rw [Finset.sum_congr rfl this]
  exact hw.2

/-! ### The two balls -/

theorem cross2_01 (sqrt : K → K) (hs : IsSqrt sqrt) (dim : Nat) (h2 : K) (x : Point K) (s : Simplex K) (a b : Nat) : ∀ c ∈ cross2 sqrt dim h2 x s a b, 0 ≤ c ∧ c ≤ 1 := by
  intro c hc
  unfold cross2 at hc
  dsimp only at hc
  split at hc
  · simp at hc
  · rcases List.mem_append.1 hc with hc | hc <;> split at hc
    · rename_i h; simp only [List.mem_singleton] at hc; subst hc; exact h
    · simp at hc
    · rename_i h; simp only [List.mem_singleton] at hc; subst hc; exact h
    · simp at hc

theorem cross2_sorted (sqrt : K → K) (hs : IsSqrt sqrt) (dim : Nat) (h2 : K) (x : Point K) (s : Simplex K) (a b : Nat) : (cross2 sqrt dim h2 x s a b).Pairwise (· ≤ ·) := by
  unfold cross2
  dsimp only
  split
  · exact List.Pairwise.nil
  · rename_i h
    have := (hs _ (not_lt.1 h)).1
    split <;> split <;> simp only [List.nil_append, List.append_nil, List.singleton_append, List.pairwise_cons, List.mem_singleton, forall_eq, List.not_mem_nil,
      IsEmpty.forall_iff, implies_true, List.Pairwise.nil, and_true]
    exact (sub_le_self _ this).trans (le_add_of_nonneg_right this)

theorem inside_ne (dim : Nat) (h2 : K) (x a b : Point K) (h : isInside .l2 dim h2 x a ≠ isInside .l2 dim h2 x b) :
    (euclid2 dim x a ≤ h2 ∧ h2 < euclid2 dim x b) ∨ (h2 < euclid2 dim x a ∧ euclid2 dim x b ≤ h2) := by
  unfold isInside at h
  rw [dist2_l2, dist2_l2] at h
  by_cases ha : euclid2 dim x a ≤ h2 <;> by_cases hb : euclid2 dim x b ≤ h2
  · simp [ha, hb] at h
  · exact .inl ⟨ha, not_le.1 hb⟩
  · exact .inr ⟨not_le.1 ha, hb⟩
  · simp [ha, hb] at h

theorem euclid2_pos_comm (dim : Nat) (a b : Point K) : euclid2 dim a b = euclid2 dim b a := by
  rw [← dist2_l2, ← dist2_l2, dist2_comm]

/-- A corner lies in the ball. -/
theorem corner_inside (sqrt : K → K) (hs : IsSqrt sqrt) (dim n : Nat) (h2 : K) (x : Point K) (s : Simplex K)
    (hn : ∀ a b, a < n → b < n → a ≠ b → 0 < euclid2 dim (s a) (s b)) (w : Nat → K)
    (h : Corner n (fun j => isInside .l2 dim h2 x (s j)) (cross2 sqrt dim h2 x s) none w) : euclid2 dim x (combine n s w) ≤ h2 := by
  rcases h with ⟨i, hi, hin, hw⟩ | ⟨a, b, c, ha, hb, hab, hc, hw⟩ | ⟨v, hv, _⟩
  · rw [combine_vertex n i hi s w hw, ← dist2_l2]
    simpa [isInside] using hin
  · rw [combine_edge n a b ha hb hab c s w hw]
    exact le_of_eq ((mem_cross2 sqrt hs dim h2 x s a b (hn b a hb ha hab.symm) c).1 hc).2.2
  · cases hv

/-! ### The loops over the vertices of the other triangle -/

/-- The values for all vertices of the other triangle. -/
def merged (fi : Nat → Nat → Nat → List K) (a b : Nat) : List K := (List.range 3).flatMap fun j => fi j a b

theorem mem_merged (fi : Nat → Nat → Nat → List K) (a b : Nat) (c : K) : c ∈ merged fi a b ↔ ∃ j, j < 3 ∧ c ∈ fi j a b := by
  simp [merged, List.mem_flatMap]

theorem widest_mem (on : Nat → Bool) (fi : Nat → Nat → Nat → List K) (i o1 o2 : Nat) (m : K × K) (h1 : ∀ j, j < 3 → on j = true → fi j i o1 ≠ [])
    (h2 : ∀ j, j < 3 → on j = true → fi j i o2 ≠ []) (h0 : ∀ j a b, ∀ c ∈ fi j a b, 0 ≤ c) (hon : ∃ j, j < 3 ∧ on j = true) :
    (widest on fi i o1 o2 m).1 ∈ merged fi i o1 ∧ (widest on fi i o1 o2 m).2.1 ∈ merged fi i o2 := by
  have gen : ∀ (l : List Nat), (∀ j ∈ l, j < 3) → ∀ st : K × K × (K × K),
      ((st.1 ∈ merged fi i o1 ∧ st.2.1 ∈ merged fi i o2) ∨ (st.1 = 0 ∧ st.2.1 = 0 ∧ ∃ j ∈ l, on j = true)) →
      (l.foldl (fun st j => if on j then
        let m1 := store st.2.2 (fi j i o1)
        let m2 := store m1 (fi j i o2)
        (max st.1 m1.1, max st.2.1 m2.1, m2) else st) st).1 ∈ merged fi i o1 ∧
      (l.foldl (fun st j => if on j then
        let m1 := store st.2.2 (fi j i o1)
        let m2 := store m1 (fi j i o2)
        (max st.1 m1.1, max st.2.1 m2.1, m2) else st) st).2.1 ∈ merged fi i o2 := by
    intro l
    induction l with
    | nil =>
      intro _ st h
      rcases h with h | ⟨_, _, j, hj, _⟩
      · exact h
      · simp at hj
    | cons j l ih =>
      intro hl st h
      simp only [List.foldl_cons]
      apply ih fun j hj => hl j (List.mem_cons_of_mem _ hj)
      by_cases hj : on j = true
      · rw [if_pos hj]
        left
        have hj3 := hl j List.mem_cons_self
        have x1 := store_fst st.2.2 _ (h1 j hj3 hj)
        have x2 := store_fst (store st.2.2 (fi j i o1)) _ (h2 j hj3 hj)
        dsimp only
        rcases h with ⟨a, b⟩ | ⟨a, b, _⟩
        · refine ⟨?_, ?_⟩
          · rcases max_choice st.1 (store st.2.2 (fi j i o1)).1 with e | e <;> rw [e]
            · exact a
            · exact (mem_merged _ _ _ _).2 ⟨j, hj3, x1⟩
          · rcases max_choice st.2.1 (store (store st.2.2 (fi j i o1)) (fi j i o2)).1 with e | e <;> rw [e]
            · exact b
            · exact (mem_merged _ _ _ _).2 ⟨j, hj3, x2⟩
        · rw [a, b, max_eq_right (h0 _ _ _ _ x1), max_eq_right (h0 _ _ _ _ x2)]
          exact ⟨(mem_merged _ _ _ _).2 ⟨j, hj3, x1⟩, (mem_merged _ _ _ _).2 ⟨j, hj3, x2⟩⟩
      · rw [if_neg hj]
        rcases h with h | ⟨a, b, j', hj', ho⟩
        · exact .inl h
        · rcases List.mem_cons.1 hj' with rfl | hj'
          · exact absurd ho hj
          · exact .inr ⟨a, b, j', hj', ho⟩
  obtain ⟨j, hj, ho⟩ := hon
  exact gen (List.range 3) (by simp) (0, 0, m) (.inr ⟨rfl, rfl, j, List.mem_range.2 hj, ho⟩)

theorem nearest_mem (on1 on2 : Nat → Bool) (fi : Nat → Nat → Nat → List K) (o i1 i2 : Nat) (m : K × K) (h1 : ∀ j, j < 3 → on1 j = true → fi j o i1 ≠ [])
    (h2 : ∀ j, j < 3 → on2 j = true → fi j o i2 ≠ []) (h0 : ∀ j a b, ∀ c ∈ fi j a b, c ≤ 1) (hon1 : ∃ j, j < 3 ∧ on1 j = true)
    (hon2 : ∃ j, j < 3 ∧ on2 j = true) :
    (nearest on1 on2 fi o i1 i2 m).1 ∈ merged fi o i1 ∧ (nearest on1 on2 fi o i1 i2 m).2.1 ∈ merged fi o i2 := by
  have gen : ∀ (l : List Nat), (∀ j ∈ l, j < 3) → ∀ st : K × K × (K × K),
      (st.1 ∈ merged fi o i1 ∨ (st.1 = 1 ∧ ∃ j ∈ l, on1 j = true)) → (st.2.1 ∈ merged fi o i2 ∨ (st.2.1 = 1 ∧ ∃ j ∈ l, on2 j = true)) →
      (l.foldl (fun st j =>
        let st := if on1 j then
          let m1 := store st.2.2 (fi j o i1)
          (min st.1 m1.1, st.2.1, m1) else st
        if on2 j then
          let m2 := store st.2.2 (fi j o i2)
          (st.1, min st.2.1 m2.1, m2)
        else st) st).1 ∈ merged fi o i1 ∧
      (l.foldl (fun st j =>
        let st := if on1 j then
          let m1 := store st.2.2 (fi j o i1)
          (min st.1 m1.1, st.2.1, m1) else st
        if on2 j then
          let m2 := store st.2.2 (fi j o i2)
          (st.1, min st.2.1 m2.1, m2)
        else st) st).2.1 ∈ merged fi o i2 := by
    intro l
    induction l with
    | nil =>
      intro _ st ha hb
      refine ⟨?_, ?_⟩
      · rcases ha with h | ⟨_, j, hj, _⟩
        · exact h
        · simp at hj
      · rcases hb with h | ⟨_, j, hj, _⟩
        · exact h
        · simp at hj
    | cons j l ih =>
      intro hl st ha hb
      simp only [List.foldl_cons]
      have hj3 := hl j List.mem_cons_self
      -- first half of the step
      have s1 : ∀ st : K × K × (K × K), (st.1 ∈ merged fi o i1 ∨ (st.1 = 1 ∧ ∃ j' ∈ j :: l, on1 j' = true)) →
          (if on1 j then (min st.1 (store st.2.2 (fi j o i1)).1, st.2.1, store st.2.2 (fi j o i1)) else st).1 ∈ merged fi o i1 ∨
            ((if on1 j then (min st.1 (store st.2.2 (fi j o i1)).1, st.2.1, store st.2.2 (fi j o i1)) else st).1 = 1 ∧ ∃ j' ∈ l, on1 j' = true) := by
        intro st ha
        by_cases hj : on1 j = true
        · rw [if_pos hj]
          left
          have x1 := store_fst st.2.2 _ (h1 j hj3 hj)
          dsimp only
          rcases ha with a | ⟨a, _⟩
          · rcases min_choice st.1 (store st.2.2 (fi j o i1)).1 with e | e <;> rw [e]
            · exact a
            · exact (mem_merged _ _ _ _).2 ⟨j, hj3, x1⟩
          · rw [a, min_eq_right (h0 _ _ _ _ x1)]
            exact (mem_merged _ _ _ _).2 ⟨j, hj3, x1⟩
        · rw [if_neg hj]
          rcases ha with a | ⟨a, j', hj', ho⟩
          · exact .inl a
          · rcases List.mem_cons.1 hj' with rfl | hj'
            · exact absurd ho hj
            · exact .inr ⟨a, j', hj', ho⟩
      have s1' : ∀ st : K × K × (K × K), (if on1 j then (min st.1 (store st.2.2 (fi j o i1)).1, st.2.1, store st.2.2 (fi j o i1)) else st).2.1 = st.2.1 := by
        intro st; split <;> rfl
      have s2 : ∀ st : K × K × (K × K), (st.2.1 ∈ merged fi o i2 ∨ (st.2.1 = 1 ∧ ∃ j' ∈ j :: l, on2 j' = true)) →
          (if on2 j then (st.1, min st.2.1 (store st.2.2 (fi j o i2)).1, store st.2.2 (fi j o i2)) else st).2.1 ∈ merged fi o i2 ∨
            ((if on2 j then (st.1, min st.2.1 (store st.2.2 (fi j o i2)).1, store st.2.2 (fi j o i2)) else st).2.1 = 1 ∧ ∃ j' ∈ l, on2 j' = true) := by
        intro st hb
        by_cases hj : on2 j = true
        · rw [if_pos hj]
          left
          have x1 := store_fst st.2.2 _ (h2 j hj3 hj)
          dsimp only
          rcases hb with a | ⟨a, _⟩
          · rcases min_choice st.2.1 (store st.2.2 (fi j o i2)).1 with e | e <;> rw [e]
            · exact a
            · exact (mem_merged _ _ _ _).2 ⟨j, hj3, x1⟩
          · rw [a, min_eq_right (h0 _ _ _ _ x1)]
            exact (mem_merged _ _ _ _).2 ⟨j, hj3, x1⟩
        · rw [if_neg hj]
          rcases hb with a | ⟨a, j', hj', ho⟩
          · exact .inl a
          · rcases List.mem_cons.1 hj' with rfl | hj'
            · exact absurd ho hj
            · exact .inr ⟨a, j', hj', ho⟩
      have s2' : ∀ st : K × K × (K × K), (if on2 j then (st.1, min st.2.1 (store st.2.2 (fi j o i2)).1, store st.2.2 (fi j o i2)) else st).1 = st.1 := by
        intro st; split <;> rfl
      apply ih fun j hj => hl j (List.mem_cons_of_mem _ hj)
      · rw [s2']; exact s1 st ha
      · apply s2; rw [s1']; exact hb
  obtain ⟨j, hj, ho⟩ := hon1
  obtain ⟨j', hj', ho'⟩ := hon2
  exact gen (List.range 3) (by simp) (1, 1, m) (.inr ⟨rfl, j, List.mem_range.2 hj, ho⟩) (.inr ⟨rfl, j', List.mem_range.2 hj', ho'⟩)

/-! ### The outer loop in the plane -/

/-- Coordinates of the vertices of a part given by an affine map of coordinates. -/
def SubAff.M (e : SubAff K) : Nat → Nat → K := fun i j => e.A i j + e.b i

macro "acol" : tactic => `(tactic| (intro k hk; rcases k with _ | _ | _ | k <;> first | omega | (simp [SubAff.M, entries]; try ring)))

theorem outer2_spec (indIJ : Nat → Nat → Bool) (fi : Nat → Nat → Nat → List K) (m : K × K) (s2 : Simplex K)
    (hx : ∀ j a b, j < 3 → a < 3 → b < 3 → indIJ a j ≠ indIJ b j → fi j a b ≠ []) (h01 : ∀ j a b, ∀ c ∈ fi j a b, 0 ≤ c ∧ c ≤ 1)
    (hany : ∃ i k, i < 3 ∧ k < 3 ∧ indIJ i k = true) :
    ∃ l, outer2 indIJ fi m s2 = some l ∧
      (∀ e ∈ l, (∀ j, j < 3 → Corner 3 (fun i => (List.range 3).any (indIJ i)) (merged fi) none (fun k => e.M k j)) ∧ 0 < e.vol ∧ e.vol = det3 e.M) ∧
      l.Pairwise fun e e' => Apart 3 e.M e'.M := by
  set indI : Nat → Bool := fun i => (List.range 3).any (indIJ i) with hI
  have hr : List.range 3 = [0, 1, 2] := rfl
  have hIt : ∀ i, indI i = true → ∃ j, j < 3 ∧ indIJ i j = true := by
    intro i h; simpa [hI] using h
  have hIf : ∀ i, indI i = false → ∀ j, j < 3 → indIJ i j = false := by
    intro i h j hj
    rw [hI] at h
    simp only [List.any_eq_false, List.mem_range] at h
    simpa using h j hj
  have cases : (∃ i o1 o2, Cyclic i o1 o2 ∧ indI i = true ∧ indI o1 = false ∧ indI o2 = false ∧ ((List.range 3).filter indI).length = 1 ∧
        first 3 indI = i ∧ (i + 1) % 3 = o1 ∧ (i + 2) % 3 = o2) ∨
      (∃ o i1 i2, Cyclic o i1 i2 ∧ indI o = false ∧ indI i1 = true ∧ indI i2 = true ∧ ((List.range 3).filter indI).length = 2 ∧
        first 3 (fun j => !indI j) = o ∧ (o + 1) % 3 = i1 ∧ (o + 2) % 3 = i2) ∨
      ((∀ i, i < 3 → indI i = true) ∧ ((List.range 3).filter indI).length = 3) := by
    have some1 : indI 0 = true ∨ indI 1 = true ∨ indI 2 = true := by
      obtain ⟨i, k, hi, hk, h⟩ := hany
      have : indI i = true := by simp only [hI, List.any_eq_true, List.mem_range]; exact ⟨k, hk, h⟩
      have hi' : i = 0 ∨ i = 1 ∨ i = 2 := by omega
      rcases hi' with rfl | rfl | rfl
      · exact .inl this
      · exact .inr (.inl this)
      · exact .inr (.inr this)
    clear_value indI
    rcases h0 : indI 0 with _ | _ <;> rcases h1 : indI 1 with _ | _ <;> rcases h2 : indI 2 with _ | _
    · simp [h0, h1, h2] at some1
    · exact .inl ⟨2, 0, 1, .inr (.inr ⟨rfl, rfl, rfl⟩), h2, h0, h1, by simp [hr, h0, h1, h2], by simp [first, hr, List.findIdx_cons, h0, h1, h2], rfl, rfl⟩
    · exact .inl ⟨1, 2, 0, .inr (.inl ⟨rfl, rfl, rfl⟩), h1, h2, h0, by simp [hr, h0, h1, h2], by simp [first, hr, List.findIdx_cons, h0, h1, h2], rfl, rfl⟩
    · exact .inr (.inl ⟨0, 1, 2, .inl ⟨rfl, rfl, rfl⟩, h0, h1, h2, by simp [hr, h0, h1, h2], by simp [first, hr, List.findIdx_cons, h0, h1, h2], rfl, rfl⟩)
    · exact .inl ⟨0, 1, 2, .inl ⟨rfl, rfl, rfl⟩, h0, h1, h2, by simp [hr, h0, h1, h2], by simp [first, hr, List.findIdx_cons, h0, h1, h2], rfl, rfl⟩
    · exact .inr (.inl ⟨1, 2, 0, .inr (.inl ⟨rfl, rfl, rfl⟩), h1, h2, h0, by simp [hr, h0, h1, h2], by simp [first, hr, List.findIdx_cons, h0, h1, h2], rfl, rfl⟩)
    · exact .inr (.inl ⟨2, 0, 1, .inr (.inr ⟨rfl, rfl, rfl⟩), h2, h0, h1, by simp [hr, h0, h1, h2], by simp [first, hr, List.findIdx_cons, h0, h1, h2], rfl, rfl⟩)
    · exact .inr (.inr ⟨three _ h0 h1 h2, by simp [hr, h0, h1, h2]⟩)
  unfold outer2
  rw [← hI]
  unfold outer2For
  dsimp only
  rcases cases with ⟨i, o1, o2, hc, hi, ho1, ho2, hl, e0, e1, e2⟩ | ⟨o, i1, i2, hc, ho, hi1, hi2, hl, e0, e1, e2⟩ | ⟨hi, hl⟩
  · simp only [hl]
    rw [e0, e1, e2]
    have hlt : i < 3 ∧ o1 < 3 ∧ o2 < 3 := by rcases hc with ⟨rfl, rfl, rfl⟩ | ⟨rfl, rfl, rfl⟩ | ⟨rfl, rfl, rfl⟩ <;> simp
    obtain ⟨g1, g2⟩ := widest_mem (indIJ i) fi i o1 o2 m (fun j hj h => hx j i o1 hj hlt.1 hlt.2.1 (by rw [h, hIf o1 ho1 j hj]; simp))
      (fun j hj h => hx j i o2 hj hlt.1 hlt.2.2 (by rw [h, hIf o2 ho2 j hj]; simp)) (fun j a b c hc => (h01 j a b c hc).1) (hIt i hi)
    generalize (widest (indIJ i) fi i o1 o2 m).1 = c1 at g1 ⊢
    generalize (widest (indIJ i) fi i o1 o2 m).2.1 = c2 at g2 ⊢
    split
    · rename_i hpos
      refine ⟨_, rfl, ?_, by simp⟩
      intro e he
      simp only [List.mem_singleton] at he
      subst he
      refine ⟨?_, hpos, ?_⟩
      · rcases hc with ⟨rfl, rfl, rfl⟩ | ⟨rfl, rfl, rfl⟩ | ⟨rfl, rfl, rfl⟩
        · exact three _ (corner_vertex 0 (by omega) hi (by acol)) (corner_edge 0 1 c1 (by omega) (by omega) (by omega) g1 (by acol))
            (corner_edge 0 2 c2 (by omega) (by omega) (by omega) g2 (by acol))
        · exact three _ (corner_edge 1 0 c2 (by omega) (by omega) (by omega) g2 (by acol)) (corner_vertex 1 (by omega) hi (by acol))
            (corner_edge 1 2 c1 (by omega) (by omega) (by omega) g1 (by acol))
        · exact three _ (corner_edge 2 0 c1 (by omega) (by omega) (by omega) g1 (by acol))
            (corner_edge 2 1 c2 (by omega) (by omega) (by omega) g2 (by acol)) (corner_vertex 2 (by omega) hi (by acol))
      · rcases hc with ⟨rfl, rfl, rfl⟩ | ⟨rfl, rfl, rfl⟩ | ⟨rfl, rfl, rfl⟩ <;> simp [det3, SubAff.M, entries] <;> ring
    · exact ⟨_, rfl, by simp, by simp⟩
  · simp only [hl]
    rw [e0, e1, e2]
    have hlt : o < 3 ∧ i1 < 3 ∧ i2 < 3 := by rcases hc with ⟨rfl, rfl, rfl⟩ | ⟨rfl, rfl, rfl⟩ | ⟨rfl, rfl, rfl⟩ <;> simp
    obtain ⟨g1, g2⟩ := nearest_mem (indIJ i1) (indIJ i2) fi o i1 i2 m (fun j hj h => hx j o i1 hj hlt.1 hlt.2.1 (by rw [h, hIf o ho j hj]; simp))
      (fun j hj h => hx j o i2 hj hlt.1 hlt.2.2 (by rw [h, hIf o ho j hj]; simp)) (fun j a b c hc => (h01 j a b c hc).2) (hIt i1 hi1) (hIt i2 hi2)
    generalize (nearest (indIJ i1) (indIJ i2) fi o i1 i2 m).1 = c1 at g1 ⊢
    generalize (nearest (indIJ i1) (indIJ i2) fi o i1 i2 m).2.1 = c2 at g2 ⊢
    obtain ⟨c10, c11⟩ : 0 ≤ c1 ∧ c1 ≤ 1 := by obtain ⟨j, _, h⟩ := (mem_merged _ _ _ _).1 g1; exact h01 _ _ _ _ h
    obtain ⟨c20, c21⟩ : 0 ≤ c2 ∧ c2 ≤ 1 := by obtain ⟨j, _, h⟩ := (mem_merged _ _ _ _).1 g2; exact h01 _ _ _ _ h
    split
    · refine ⟨_, rfl, ?_, ?_⟩
      · intro e he
        rcases List.mem_append.1 he with he | he
        · split at he
          · rename_i hpos
            simp only [List.mem_singleton] at he
            subst he
            refine ⟨?_, hpos, ?_⟩
            · rcases hc with ⟨rfl, rfl, rfl⟩ | ⟨rfl, rfl, rfl⟩ | ⟨rfl, rfl, rfl⟩
              · exact three _ (corner_edge 0 1 c1 (by omega) (by omega) (by omega) g1 (by acol)) (corner_vertex 1 (by omega) hi1 (by acol))
                  (corner_vertex 2 (by omega) hi2 (by acol))
              · exact three _ (corner_vertex 0 (by omega) hi2 (by acol)) (corner_edge 1 2 c1 (by omega) (by omega) (by omega) g1 (by acol))
                  (corner_vertex 2 (by omega) hi1 (by acol))
              · exact three _ (corner_vertex 0 (by omega) hi1 (by acol)) (corner_vertex 1 (by omega) hi2 (by acol))
                  (corner_edge 2 0 c1 (by omega) (by omega) (by omega) g1 (by acol))
            · rcases hc with ⟨rfl, rfl, rfl⟩ | ⟨rfl, rfl, rfl⟩ | ⟨rfl, rfl, rfl⟩ <;> simp [det3, SubAff.M, entries] <;> ring
          · simp at he
        · split at he
          · rename_i hpos
            simp only [List.mem_singleton] at he
            subst he
            refine ⟨?_, hpos, ?_⟩
            · rcases hc with ⟨rfl, rfl, rfl⟩ | ⟨rfl, rfl, rfl⟩ | ⟨rfl, rfl, rfl⟩
              · exact three _ (corner_edge 0 2 c2 (by omega) (by omega) (by omega) g2 (by acol)) (corner_edge 0 1 c1 (by omega) (by omega) (by omega) g1 (by acol))
                  (corner_vertex 2 (by omega) hi2 (by acol))
              · exact three _ (corner_vertex 0 (by omega) hi2 (by acol)) (corner_edge 1 0 c2 (by omega) (by omega) (by omega) g2 (by acol))
                  (corner_edge 1 2 c1 (by omega) (by omega) (by omega) g1 (by acol))
              · exact three _ (corner_edge 2 0 c1 (by omega) (by omega) (by omega) g1 (by acol)) (corner_vertex 1 (by omega) hi2 (by acol))
                  (corner_edge 2 1 c2 (by omega) (by omega) (by omega) g2 (by acol))
            · rcases hc with ⟨rfl, rfl, rfl⟩ | ⟨rfl, rfl, rfl⟩ | ⟨rfl, rfl, rfl⟩ <;> simp [det3, SubAff.M, entries] <;> ring
          · simp at he
      · split <;> split <;> simp only [List.append_nil, List.nil_append, List.singleton_append, List.pairwise_cons, List.mem_cons, List.not_mem_nil, or_false,
          forall_eq, IsEmpty.forall_iff, implies_true, List.Pairwise.nil, and_true]
        rename_i p1 p2
        rcases hc with ⟨rfl, rfl, rfl⟩ | ⟨rfl, rfl, rfl⟩ | ⟨rfl, rfl, rfl⟩
        · exact apart_of _ _ 1 0 (by omega) (by omega) (1 - c1) c1 (three _ (by simp [SubAff.M, entries]; linarith) (by simp [SubAff.M, entries]; linarith)
            (by simp [SubAff.M, entries])) (three _ (by simp [SubAff.M, entries]; linarith) (by simp [SubAff.M, entries]; linarith) (by simp [SubAff.M, entries]))
            1 (by omega) (by simp [SubAff.M, entries]; linarith)
        · exact apart_of _ _ 2 1 (by omega) (by omega) (1 - c1) c1 (three _ (by simp [SubAff.M, entries]) (by simp [SubAff.M, entries]; linarith)
            (by simp [SubAff.M, entries]; linarith)) (three _ (by simp [SubAff.M, entries]) (by simp [SubAff.M, entries]; linarith)
            (by simp [SubAff.M, entries]; linarith)) 2 (by omega) (by simp [SubAff.M, entries]; linarith)
        · exact apart_of _ _ 0 2 (by omega) (by omega) (1 - c1) c1 (three _ (by simp [SubAff.M, entries]; linarith) (by simp [SubAff.M, entries])
            (by simp [SubAff.M, entries]; linarith)) (three _ (by simp [SubAff.M, entries]; linarith) (by simp [SubAff.M, entries])
            (by simp [SubAff.M, entries]; linarith)) 0 (by omega) (by simp [SubAff.M, entries]; linarith)
    · refine ⟨_, rfl, ?_, ?_⟩
      · intro e he
        rcases List.mem_append.1 he with he | he
        · split at he
          · rename_i hpos
            simp only [List.mem_singleton] at he
            subst he
            refine ⟨?_, hpos, ?_⟩
            · rcases hc with ⟨rfl, rfl, rfl⟩ | ⟨rfl, rfl, rfl⟩ | ⟨rfl, rfl, rfl⟩
              · exact three _ (corner_edge 0 2 c2 (by omega) (by omega) (by omega) g2 (by acol)) (corner_vertex 1 (by omega) hi1 (by acol))
                  (corner_vertex 2 (by omega) hi2 (by acol))
              · exact three _ (corner_vertex 0 (by omega) hi2 (by acol)) (corner_edge 1 0 c2 (by omega) (by omega) (by omega) g2 (by acol))
                  (corner_vertex 2 (by omega) hi1 (by acol))
              · exact three _ (corner_vertex 0 (by omega) hi1 (by acol)) (corner_vertex 1 (by omega) hi2 (by acol))
                  (corner_edge 2 1 c2 (by omega) (by omega) (by omega) g2 (by acol))
            · rcases hc with ⟨rfl, rfl, rfl⟩ | ⟨rfl, rfl, rfl⟩ | ⟨rfl, rfl, rfl⟩ <;> simp [det3, SubAff.M, entries] <;> ring
          · simp at he
        · split at he
          · rename_i hpos
            simp only [List.mem_singleton] at he
            subst he
            refine ⟨?_, hpos, ?_⟩
            · rcases hc with ⟨rfl, rfl, rfl⟩ | ⟨rfl, rfl, rfl⟩ | ⟨rfl, rfl, rfl⟩
              · exact three _ (corner_edge 0 1 c1 (by omega) (by omega) (by omega) g1 (by acol)) (corner_vertex 1 (by omega) hi1 (by acol))
                  (corner_edge 0 2 c2 (by omega) (by omega) (by omega) g2 (by acol))
              · exact three _ (corner_edge 1 0 c2 (by omega) (by omega) (by omega) g2 (by acol)) (corner_edge 1 2 c1 (by omega) (by omega) (by omega) g1 (by acol))
                  (corner_vertex 2 (by omega) hi1 (by acol))
              · exact three _ (corner_vertex 0 (by omega) hi1 (by acol)) (corner_edge 2 1 c2 (by omega) (by omega) (by omega) g2 (by acol))
                  (corner_edge 2 0 c1 (by omega) (by omega) (by omega) g1 (by acol))
            · rcases hc with ⟨rfl, rfl, rfl⟩ | ⟨rfl, rfl, rfl⟩ | ⟨rfl, rfl, rfl⟩ <;> simp [det3, SubAff.M, entries] <;> ring
          · simp at he
      · split <;> split <;> simp only [List.append_nil, List.nil_append, List.singleton_append, List.pairwise_cons, List.mem_cons, List.not_mem_nil, or_false,
          forall_eq, IsEmpty.forall_iff, implies_true, List.Pairwise.nil, and_true]
        rename_i p1 p2
        rcases hc with ⟨rfl, rfl, rfl⟩ | ⟨rfl, rfl, rfl⟩ | ⟨rfl, rfl, rfl⟩
        · exact apart_of _ _ 2 0 (by omega) (by omega) (1 - c2) c2 (three _ (by simp [SubAff.M, entries]; linarith) (by simp [SubAff.M, entries])
            (by simp [SubAff.M, entries]; linarith)) (three _ (by simp [SubAff.M, entries]; linarith) (by simp [SubAff.M, entries])
            (by simp [SubAff.M, entries]; linarith)) 2 (by omega) (by simp [SubAff.M, entries]; linarith)
        · exact apart_of _ _ 0 1 (by omega) (by omega) (1 - c2) c2 (three _ (by simp [SubAff.M, entries]; linarith) (by simp [SubAff.M, entries]; linarith)
            (by simp [SubAff.M, entries])) (three _ (by simp [SubAff.M, entries]; linarith) (by simp [SubAff.M, entries]; linarith) (by simp [SubAff.M, entries]))
            0 (by omega) (by simp [SubAff.M, entries]; linarith)
        · exact apart_of _ _ 1 2 (by omega) (by omega) (1 - c2) c2 (three _ (by simp [SubAff.M, entries]) (by simp [SubAff.M, entries]; linarith)
            (by simp [SubAff.M, entries]; linarith)) (three _ (by simp [SubAff.M, entries]) (by simp [SubAff.M, entries]; linarith)
            (by simp [SubAff.M, entries]; linarith)) 1 (by omega) (by simp [SubAff.M, entries]; linarith)
  · simp only [hl]
    refine ⟨_, rfl, ?_, by simp⟩
    intro e he
    simp only [List.mem_singleton] at he
    subst he
    refine ⟨three _ (corner_vertex 0 (by omega) (hi 0 (by omega)) (by acol)) (corner_vertex 1 (by omega) (hi 1 (by omega)) (by acol))
      (corner_vertex 2 (by omega) (hi 2 (by omega)) (by acol)), zero_lt_one, ?_⟩
    simp [det3, SubAff.M, entries]

end PyNucleus.Interaction
