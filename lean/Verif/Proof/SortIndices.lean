import Verif.Model.SortIndices
import Verif.Proof.Transpose

/-! Helper lemmas for `sort_indices`. -/

namespace PyNucleus.CSR

open PyNucleus.Loops PyNucleus.Spec

variable {K α : Type}

/-- The insertion loop over an array of records with a key. -/
def gsink (key : α → Nat) (dflt : α) (lo : Nat) (x : α) : Nat → List α × Bool → List α × Bool
  | kk, s =>
    if h : lo < kk ∧ key x < key (s.1.getD (kk - 1) dflt) then
      gsink key dflt lo x (kk - 1) (s.1.set kk (s.1.getD (kk - 1) dflt), false)
    else (s.1.set kk x, s.2)
  termination_by kk => kk
  decreasing_by omega

def NonDecr (key : α → Nat) (l : List α) : Prop := l.Pairwise fun a b => key a ≤ key b

instance (key : α → Nat) (l : List α) : Decidable (NonDecr key l) := by
  unfold NonDecr; infer_instance

theorem getD_append_mid (u v : List α) (x d : α) : (u ++ x :: v).getD u.length d = x := by
  rw [List.getD_eq_getElem?_getD, List.getElem?_append_right (Nat.le_refl _)]; simp

theorem set_append_mid (u v : List α) (x y : α) : (u ++ x :: v).set u.length y = u ++ y :: v := by
  rw [List.set_append_right _ _ (Nat.le_refl _)]; simp

theorem gsink_spec (key : α → Nat) (dflt : α) (x : α) (pre : List α) :
    ∀ (s : List α) (y : α) (rest : List α) (w : Bool), NonDecr key s →
      ∃ s', gsink key dflt pre.length x (pre.length + s.length) (pre ++ s ++ y :: rest, w) =
          (pre ++ s' ++ rest, w && decide (∀ a ∈ s, key a ≤ key x)) ∧
        s'.Perm (s ++ [x]) ∧ NonDecr key s' := by
  intro s
  induction s using List.reverseRecOn with
  | nil =>
    intro y rest w _
    refine ⟨[x], ?_, by simp, List.pairwise_singleton _ _⟩
    rw [gsink, dif_neg (by simp)]
    simp
  | append_singleton t l ih =>
    intro y rest w hs
    obtain ⟨ht, _, htl⟩ := List.pairwise_append.1 hs
    have hlen : pre.length + (t ++ [l]).length - 1 = (pre ++ t).length := by simp
    have hget : (pre ++ (t ++ [l]) ++ y :: rest).getD (pre.length + (t ++ [l]).length - 1) dflt = l := by
      rw [hlen, show pre ++ (t ++ [l]) ++ y :: rest = (pre ++ t) ++ l :: (y :: rest) by simp]
      exact getD_append_mid _ _ _ _
    have hlen2 : pre.length + (t ++ [l]).length = (pre ++ (t ++ [l])).length := by simp
    rw [gsink]
    simp only [hget]
    by_cases hlt : key x < key l
    · rw [dif_pos ⟨by simp, hlt⟩]
      have hset : (pre ++ (t ++ [l]) ++ y :: rest).set (pre.length + (t ++ [l]).length) l =
          pre ++ t ++ l :: (l :: rest) := by
        rw [hlen2, set_append_mid]; simp
      rw [hset, show pre.length + (t ++ [l]).length - 1 = pre.length + t.length by simp]
      obtain ⟨t', h1, h2, h3⟩ := ih l (l :: rest) false ht
      refine ⟨t' ++ [l], ?_, ?_, ?_⟩
      · rw [h1]
        have : ¬ ∀ a ∈ t ++ [l], key a ≤ key x := fun h => by
          have := h l (by simp); omega
        simp only [Bool.false_and, decide_eq_false this, Bool.and_false]
        simp
      · refine (List.Perm.append_right [l] h2).trans ?_
        simp only [List.append_assoc]
        exact List.Perm.append_left t (List.Perm.swap l x [])
      · refine List.pairwise_append.2 ⟨h3, List.pairwise_singleton _ _, fun a ha b hb => ?_⟩
        have hb' : b = l := by simpa using hb
        subst hb'
        rcases List.mem_append.1 ((h2.mem_iff).1 ha) with h | h
        · exact htl a h _ (by simp)
        · have : a = x := by simpa using h
          subst this; omega
    · rw [dif_neg (fun h => hlt h.2)]
      refine ⟨t ++ [l] ++ [x], ?_, List.Perm.refl _, ?_⟩
      · have hall : ∀ a ∈ t ++ [l], key a ≤ key x := by
          intro a ha
          rcases List.mem_append.1 ha with h | h
          · have := htl a h l (by simp); omega
          · have : a = l := by simpa using h
            subst this; omega
        rw [decide_eq_true hall, Bool.and_true, hlen2, set_append_mid]
        simp
      · refine List.pairwise_append.2 ⟨hs, List.pairwise_singleton _ _, fun a ha b hb => ?_⟩
        have hb' : b = x := by simpa using hb
        subst hb'
        rcases List.mem_append.1 ha with h | h
        · have := htl a h l (by simp); omega
        · have : a = l := by simpa using h
          subst this; omega

/-- The loop over the positions of one row. -/
theorem gsort_row (key : α → Nat) (dflt : α) (pre : List α) : ∀ (row rest : List α) (w : Bool),
    ∃ s', forRange pre.length (pre.length + row.length) (pre ++ row ++ rest, w) (fun s jj =>
          gsink key dflt pre.length (s.1.getD jj dflt) jj s) =
        (pre ++ s' ++ rest, w && decide (NonDecr key row)) ∧ s'.Perm row ∧ NonDecr key s' := by
  have key' : ∀ row rest w, ∃ s', (List.range' pre.length row.length).foldl (fun s jj =>
          gsink key dflt pre.length (s.1.getD jj dflt) jj s) (pre ++ row ++ rest, w) =
        (pre ++ s' ++ rest, w && decide (NonDecr key row)) ∧ s'.Perm row ∧ NonDecr key s' := by
    intro row
    induction row using List.reverseRecOn with
    | nil => intro rest w; exact ⟨[], by simp [NonDecr], List.Perm.refl _, List.Pairwise.nil⟩
    | append_singleton t x ih =>
      intro rest w
      obtain ⟨t', h1, h2, h3⟩ := ih (x :: rest) w
      rw [List.length_append, List.length_singleton, List.range'_1_concat, List.foldl_append,
        show pre ++ (t ++ [x]) ++ rest = pre ++ t ++ x :: rest by simp, h1]
      simp only [List.foldl_cons, List.foldl_nil]
      have hl : t'.length = t.length := h2.length_eq
      have hg : (pre ++ t' ++ x :: rest).getD (pre.length + t.length) dflt = x := by
        rw [show pre.length + t.length = (pre ++ t').length by simp [hl]]
        exact getD_append_mid _ _ _ _
      rw [hg, ← hl]
      obtain ⟨s', g1, g2, g3⟩ := gsink_spec key dflt x pre t' x rest (w && decide (NonDecr key t)) h3
      refine ⟨s', ?_, g2.trans (List.Perm.append_right [x] h2), g3⟩
      rw [g1]
      have : (NonDecr key (t ++ [x])) ↔ NonDecr key t ∧ ∀ a ∈ t', key a ≤ key x := by
        unfold NonDecr
        rw [List.pairwise_append]
        constructor
        · rintro ⟨a, _, b⟩
          exact ⟨a, fun c hc => b c ((h2.mem_iff).1 hc) x (by simp)⟩
        · rintro ⟨a, b⟩
          refine ⟨a, List.pairwise_singleton _ _, fun c hc d hd => ?_⟩
          have : d = x := by simpa using hd
          subst this
          exact b c ((h2.mem_iff).2 hc)
      rw [Bool.and_assoc, decide_eq_decide.2 this, Bool.decide_and]
  intro row rest w
  unfold forRange
  rw [Nat.add_sub_cancel_left]
  exact key' row rest w

/-- Splitting an array at the row `i`. -/
theorem split_row (p : List Nat) (n : Nat) (xs : List α) (h : ValidIndptr p n xs.length) (i : Nat)
    (hi : i < n) : xs = xs.take (p.getD i 0) ++ csrRow p xs i ++ xs.drop (p.getD (i + 1) 0) ∧
      (xs.take (p.getD i 0)).length = p.getD i 0 ∧
      (csrRow p xs i).length = p.getD (i + 1) 0 - p.getD i 0 := by
  have h1 := ValidIndptr.le_nnz h (i + 1) (by omega)
  have h2 := h.mono i hi
  refine ⟨?_, by rw [List.length_take]; omega,
    by unfold csrRow; rw [List.length_take, List.length_drop]; omega⟩
  unfold csrRow
  have e : p.getD (i + 1) 0 = p.getD i 0 + (p.getD (i + 1) 0 - p.getD i 0) := by omega
  conv => rhs; rhs; rw [e]
  rw [← List.drop_drop, List.append_assoc, List.take_append_drop, List.take_append_drop]

theorem mono_le (p : List Nat) (n nnz : Nat) (h : ValidIndptr p n nnz) (i j : Nat) (hij : i ≤ j)
    (hj : j ≤ n) : p.getD i 0 ≤ p.getD j 0 := by
  induction j with
  | zero => have : i = 0 := by omega
            rw [this]
  | succ j ih =>
    by_cases hh : i = j + 1
    · rw [hh]
    · have := ih (by omega) (by omega)
      have := h.mono j (by omega)
      omega

/-- Replacing row `i` by a row of the same length keeps the other rows. -/
theorem csrRow_replace (p : List Nat) (n : Nat) (xs : List α) (h : ValidIndptr p n xs.length)
    (i : Nat) (hi : i < n) (s : List α) (hs : s.length = (csrRow p xs i).length) :
    let xs' := xs.take (p.getD i 0) ++ s ++ xs.drop (p.getD (i + 1) 0)
    xs'.length = xs.length ∧ csrRow p xs' i = s ∧
      ∀ k, k < n → k ≠ i → csrRow p xs' k = csrRow p xs k := by
  obtain ⟨h1, h2, h3⟩ := split_row p n xs h i hi
  have hl := ValidIndptr.le_nnz h (i + 1) (by omega)
  have hm := h.mono i hi
  intro xs'
  refine ⟨?_, ?_, fun k hk hki => ?_⟩
  · simp only [xs', List.length_append, h2, hs, h3, List.length_drop]; omega
  · unfold csrRow
    simp only [xs']
    rw [List.append_assoc, List.drop_append_of_le_length (by omega), List.drop_of_length_le (by omega),
      List.nil_append, ← h3, ← hs, List.take_left']
    rfl
  · unfold csrRow
    apply List.ext_getElem?
    intro m
    rw [List.getElem?_take, List.getElem?_take]
    split
    · rename_i hm'
      rw [List.getElem?_drop, List.getElem?_drop]
      rcases Nat.lt_or_gt_of_ne hki with hlt | hgt
      · have := mono_le p n _ h (k + 1) i (by omega) (by omega)
        simp only [xs']
        rw [List.append_assoc, List.getElem?_append_left (by omega), List.getElem?_take,
          if_pos (by omega)]
      · have := mono_le p n _ h (i + 1) k (by omega) (by omega)
        have hsl : s.length = p.getD (i + 1) 0 - p.getD i 0 := by omega
        simp only [xs']
        rw [List.getElem?_append_right (by rw [List.length_append, h2, hsl]; omega),
          List.getElem?_drop, List.length_append, h2, hsl]
        congr 1
        omega
    · rfl

/-- All rows are sorted, one after the other. -/
theorem gsort_rows (key : α → Nat) (dflt : α) (p : List Nat) (n : Nat) (xs : List α)
    (h : ValidIndptr p n xs.length) :
    let r := forRange 0 n (xs, true) fun s i =>
      forRange (p.getD i 0) (p.getD (i + 1) 0) s fun s jj =>
        gsink key dflt (p.getD i 0) (s.1.getD jj dflt) jj s
    r.1.length = xs.length ∧
      (∀ k, k < n → (csrRow p r.1 k).Perm (csrRow p xs k) ∧ NonDecr key (csrRow p r.1 k)) ∧
      (r.2 = true ↔ ∀ k, k < n → NonDecr key (csrRow p xs k)) := by
  have : ∀ m, m ≤ n →
      let r := forRange 0 m (xs, true) fun s i =>
        forRange (p.getD i 0) (p.getD (i + 1) 0) s fun s jj =>
          gsink key dflt (p.getD i 0) (s.1.getD jj dflt) jj s
      r.1.length = xs.length ∧
        (∀ k, k < m → (csrRow p r.1 k).Perm (csrRow p xs k) ∧ NonDecr key (csrRow p r.1 k)) ∧
        (∀ k, m ≤ k → k < n → csrRow p r.1 k = csrRow p xs k) ∧
        (r.2 = true ↔ ∀ k, k < m → NonDecr key (csrRow p xs k)) := by
    intro m
    induction m with
    | zero => intro _; exact ⟨rfl, fun k hk => by omega, fun _ _ _ => rfl, by simp [forRange]⟩
    | succ m ih =>
      intro hm
      obtain ⟨r1, r2, r3, r4⟩ := ih (by omega)
      simp only at r1 r2 r3 r4 ⊢
      rw [forRange_succ]
      generalize forRange 0 m (xs, true) (fun s i =>
        forRange (p.getD i 0) (p.getD (i + 1) 0) s fun s jj =>
          gsink key dflt (p.getD i 0) (s.1.getD jj dflt) jj s) = r at r1 r2 r3 r4 ⊢
      obtain ⟨a, w⟩ := r
      simp only at r1 r2 r3 r4 ⊢
      have hv : ValidIndptr p n a.length := by rw [r1]; exact h
      obtain ⟨q1, q2, q3⟩ := split_row p n a hv m (by omega)
      have hmono := hv.mono m (by omega)
      obtain ⟨s', g1, g2, g3⟩ := gsort_row key dflt (a.take (p.getD m 0)) (csrRow p a m)
        (a.drop (p.getD (m + 1) 0)) w
      rw [q2, q3, ← q1, show p.getD m 0 + (p.getD (m + 1) 0 - p.getD m 0) = p.getD (m + 1) 0 by omega]
        at g1
      rw [g1]
      obtain ⟨c1, c2, c3⟩ := csrRow_replace p n a hv m (by omega) s' g2.length_eq
      simp only at c1 c2 c3 ⊢
      have hrow : csrRow p a m = csrRow p xs m := r3 m (Nat.le_refl _) (by omega)
      refine ⟨by rw [c1, r1], fun k hk => ?_, fun k hk1 hk2 => ?_, ?_⟩
      · by_cases hkm : k = m
        · subst hkm
          rw [c2, ← hrow]; exact ⟨g2, g3⟩
        · rw [c3 k (by omega) hkm]; exact r2 k (by omega)
      · rw [c3 k hk2 (by omega)]; exact r3 k (by omega) hk2
      · rw [Bool.and_eq_true, decide_eq_true_iff, r4, hrow]
        constructor
        · rintro ⟨h1, h2⟩ k hk
          by_cases hkm : k = m
          · subst hkm; exact h2
          · exact h1 k (by omega)
        · intro hh
          exact ⟨fun k hk => hh k (by omega), hh m (by omega)⟩
  obtain ⟨h1, h2, _, h4⟩ := this n (Nat.le_refl _)
  exact ⟨h1, h2, h4⟩

/-! ### the two-array version is the record version on the zipped array -/

theorem zip_set (u : List Nat) (v : List K) (k : Nat) (a : Nat) (b : K) :
    (u.set k a).zip (v.set k b) = (u.zip v).set k (a, b) := by
  induction u generalizing v k with
  | nil => simp
  | cons x u ih =>
    cases v with
    | nil => cases k <;> simp
    | cons y v =>
      cases k with
      | zero => simp
      | succ k => simp [ih]

theorem zip_getD [Zero K] (u : List Nat) (v : List K) (h : u.length = v.length) (k : Nat) :
    (u.zip v).getD k (0, 0) = (u.getD k 0, v.getD k 0) := by
  induction u generalizing v k with
  | nil => cases v with
    | nil => simp
    | cons => simp at h
  | cons x u ih =>
    cases v with
    | nil => simp at h
    | cons y v =>
      cases k with
      | zero => simp
      | succ k =>
        have := ih v (by simpa using h) k
        simpa using this

/-- Zipped arrays of a sort state. -/
def SortState.view (s : SortState K) : List (Nat × K) × Bool := (s.indices.zip s.data, s.wasSorted)

theorem sink_view [Zero K] (lo j : Nat) (d : K) : ∀ (kk : Nat) (s : SortState K),
    s.indices.length = s.data.length →
    (sink lo j d kk s).view = gsink Prod.fst (0, 0) lo (j, d) kk s.view ∧
      (sink lo j d kk s).indices.length = s.indices.length ∧
      (sink lo j d kk s).data.length = s.data.length := by
  intro kk
  induction kk using Nat.strongRecOn with
  | _ kk ih =>
    intro s hs
    rw [sink, gsink]
    have hg : s.view.1.getD (kk - 1) (0, 0) = (s.indices.getD (kk - 1) 0, s.data.getD (kk - 1) 0) :=
      zip_getD _ _ hs _
    simp only [hg]
    by_cases hc : lo < kk ∧ j < s.indices.getD (kk - 1) 0
    · rw [dif_pos hc, dif_pos hc]
      have := ih (kk - 1) (by omega)
        { indices := s.indices.set kk (s.indices.getD (kk - 1) 0)
          data := s.data.set kk (s.data.getD (kk - 1) 0)
          wasSorted := false } (by simpa using hs)
      simp only [List.length_set] at this
      refine ⟨this.1.trans ?_, this.2⟩
      congr 1
      unfold SortState.view
      simp only [zip_set]
    · rw [dif_neg hc, dif_neg hc]
      refine ⟨?_, by simp, by simp⟩
      unfold SortState.view
      simp only [zip_set]

/-- Loops with a view of the state, under an invariant. -/
theorem forRange_view {σ τ : Type} (g : σ → τ) (P : σ → Prop) (lo hi : Nat) (f : σ → Nat → σ)
    (f' : τ → Nat → τ) (h : ∀ s k, P s → g (f s k) = f' (g s) k ∧ P (f s k)) (s : σ) (hs : P s) :
    g (forRange lo hi s f) = forRange lo hi (g s) f' ∧ P (forRange lo hi s f) := by
  unfold forRange
  generalize List.range' lo (hi - lo) = l
  induction l generalizing s with
  | nil => exact ⟨rfl, hs⟩
  | cons a t ih =>
    rw [List.foldl_cons, List.foldl_cons]
    obtain ⟨h1, h2⟩ := h s a hs
    rw [← h1]
    exact ih _ h2

theorem sortIndices_view [Zero K] (p u : List Nat) (v : List K) (h : u.length = v.length) :
    (sortIndices p u v).view = forRange 0 (p.length - 1) (u.zip v, true) (fun s i =>
      forRange (p.getD i 0) (p.getD (i + 1) 0) s fun s jj =>
        gsink Prod.fst (0, 0) (p.getD i 0) (s.1.getD jj (0, 0)) jj s) ∧
      (sortIndices p u v).indices.length = u.length ∧ (sortIndices p u v).data.length = u.length := by
  unfold sortIndices
  simp only [if_pos h]
  have := forRange_view SortState.view
    (fun s => s.indices.length = u.length ∧ s.data.length = u.length) 0 (p.length - 1)
    (fun s i => forRange (p.getD i 0) (p.getD (i + 1) 0) s fun s jj =>
        sink (p.getD i 0) (s.indices.getD jj 0) (s.data.getD jj 0) jj s)
    (fun s i => forRange (p.getD i 0) (p.getD (i + 1) 0) s fun s jj =>
        gsink Prod.fst (0, 0) (p.getD i 0) (s.1.getD jj (0, 0)) jj s)
    (fun s i hP => forRange_view SortState.view
      (fun s => s.indices.length = u.length ∧ s.data.length = u.length) _ _ _ _
      (fun s jj hP => by
        obtain ⟨h1, h2, h3⟩ := sink_view (p.getD i 0) (s.indices.getD jj 0) (s.data.getD jj 0) jj s
          (by omega)
        have hg : s.view.1.getD jj (0, 0) = (s.indices.getD jj 0, s.data.getD jj 0) :=
          zip_getD _ _ (by omega) _
        exact ⟨by rw [h1, hg], by omega, by omega⟩) s hP)
    ⟨u, v, true⟩ ⟨rfl, h.symm⟩
  exact ⟨this.1, this.2⟩

theorem sinkIdx_eq (lo j kk : Nat) (s : List Nat × Bool) :
    sinkIdx lo j kk s = gsink id 0 lo j kk s := by
  induction kk using Nat.strongRecOn generalizing s with
  | _ kk ih =>
    rw [sinkIdx, gsink]
    by_cases hc : lo < kk ∧ j < s.1.getD (kk - 1) 0
    · rw [dif_pos hc, dif_pos (show lo < kk ∧ id j < id (s.1.getD (kk - 1) 0) from hc)]
      exact ih _ (by omega) _
    · rw [dif_neg hc, dif_neg (show ¬ (lo < kk ∧ id j < id (s.1.getD (kk - 1) 0)) from hc)]

/-! ### `isSorted` -/

theorem isSortedRow_iff (p : Nat) (l : List Nat) :
    isSortedRow p l = true ↔ (p :: l).Pairwise (· < ·) := by
  induction l generalizing p with
  | nil => simp [isSortedRow]
  | cons q t ih =>
    rw [isSortedRow]
    by_cases h : q ≤ p
    · rw [if_pos h]
      simp only [Bool.false_eq_true, false_iff]
      intro hh
      have := (List.pairwise_cons.1 hh).1 q (by simp)
      omega
    · rw [if_neg h, ih]
      constructor
      · intro hh
        refine List.pairwise_cons.2 ⟨fun a ha => ?_, hh⟩
        rcases List.mem_cons.1 ha with rfl | ha
        · omega
        · have := (List.pairwise_cons.1 hh).1 a ha; omega
      · exact fun hh => (List.pairwise_cons.1 hh).2

theorem isSorted_iff (p idx : List Nat) (n : Nat) (h : ValidIndptr p n idx.length) :
    isSorted p idx = true ↔ ∀ i, i < n → (csrRow p idx i).Pairwise (· < ·) := by
  have hn : p.length - 1 = n := by rw [h.length]; rfl
  have hnnz : p.getD n 0 = idx.length := by rw [List.getD_eq_getElem?_getD, h.last]; rfl
  unfold isSorted
  simp only [hn, hnnz]
  have : ∀ m, m ≤ n → (forRange 0 m true (fun ok i =>
      if !ok then false
      else if p.getD i 0 = idx.length then true
      else isSortedRow (idx.getD (p.getD i 0) 0)
        ((idx.drop (p.getD i 0 + 1)).take (p.getD (i + 1) 0 - (p.getD i 0 + 1)))) = true ↔
      ∀ i, i < m → (csrRow p idx i).Pairwise (· < ·)) := by
    intro m
    induction m with
    | zero => intro _; simp [forRange]
    | succ m ih =>
      intro hm
      rw [forRange_succ]
      have ih := ih (by omega)
      generalize forRange 0 m true (fun ok i =>
        if !ok then false
        else if p.getD i 0 = idx.length then true
        else isSortedRow (idx.getD (p.getD i 0) 0)
          ((idx.drop (p.getD i 0 + 1)).take (p.getD (i + 1) 0 - (p.getD i 0 + 1)))) = ok at ih ⊢
      have hstep : (∀ i, i < m + 1 → (csrRow p idx i).Pairwise (· < ·)) ↔
          (∀ i, i < m → (csrRow p idx i).Pairwise (· < ·)) ∧ (csrRow p idx m).Pairwise (· < ·) := by
        constructor
        · intro hh; exact ⟨fun i hi => hh i (by omega), hh m (by omega)⟩
        · rintro ⟨h1, h2⟩ i hi
          by_cases he : i = m
          · subst he; exact h2
          · exact h1 i (by omega)
      rw [hstep, ← ih]
      cases ok with
      | false => simp
      | true =>
        simp only [Bool.not_true, Bool.false_eq_true, if_false, true_and]
        have hle := ValidIndptr.le_nnz h (m + 1) (by omega)
        have hmo := h.mono m (by omega)
        by_cases hs : p.getD m 0 = idx.length
        · rw [if_pos hs]
          have : csrRow p idx m = [] := by
            unfold csrRow; rw [hs, List.drop_length]; simp
          rw [this]; simp
        · rw [if_neg hs, isSortedRow_iff]
          have hlt : p.getD m 0 < idx.length := by omega
          by_cases he : p.getD (m + 1) 0 = p.getD m 0
          · have e1 : csrRow p idx m = [] := by unfold csrRow; rw [he]; simp
            rw [e1, he, show p.getD m 0 - (p.getD m 0 + 1) = 0 by omega]
            simp
          · have : csrRow p idx m = idx.getD (p.getD m 0) 0 ::
                (idx.drop (p.getD m 0 + 1)).take (p.getD (m + 1) 0 - (p.getD m 0 + 1)) := by
              unfold csrRow
              rw [show p.getD (m + 1) 0 - p.getD m 0 = (p.getD (m + 1) 0 - (p.getD m 0 + 1)) + 1 by omega,
                List.drop_eq_getElem_cons hlt, List.take_succ_cons]
              congr 1
              rw [List.getD_eq_getElem?_getD (l := idx), List.getElem?_eq_getElem hlt, Option.getD_some]
            rw [this]
  exact this n (Nat.le_refl _)

/-- Columns of a row. -/
theorem row_fst (A : CSR K) (hA : A.Valid) (i : Nat) :
    (A.row i).map Prod.fst = csrRow A.indptr A.indices i := by
  unfold CSR.row csrRow
  rw [List.map_take, List.map_drop, List.map_fst_zip (by rw [hA.data])]

end PyNucleus.CSR
