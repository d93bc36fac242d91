import Verif.Model.Transpose
import Verif.Proof.CSR

/-! Helper lemmas for `transpose`. -/

namespace PyNucleus.CSR

open PyNucleus.Loops PyNucleus.Spec

variable {K : Type}

/-- All stored entries as `(column, (row, value))`, row by row. -/
def items (A : CSR K) : List (Nat × Nat × K) :=
  (List.range A.numRows).flatMap fun i => (A.row i).map fun e => (e.1, i, e.2)

theorem foldl_congr_mem {α σ : Type} (l : List α) (f g : σ → α → σ)
    (h : ∀ s, ∀ a ∈ l, f s a = g s a) : ∀ s, l.foldl f s = l.foldl g s := by
  induction l with
  | nil => intro s; rfl
  | cons a t ih =>
    intro s
    rw [List.foldl_cons, List.foldl_cons, h s a (by simp)]
    exact ih (fun s b hb => h s b (List.mem_cons_of_mem _ hb)) _

theorem forEntries_eq {σ : Type} [Zero K] (A : CSR K) (hA : A.Valid) (s : σ)
    (f : σ → Nat → Nat → K → σ) :
    forEntries A s f = (items A).foldl (fun s e => f s e.2.1 e.1 e.2.2) s := by
  unfold forEntries items
  rw [forRange_zero, List.foldl_flatMap]
  apply foldl_congr_mem
  intro s i hi
  rw [forRow_eq A hA i (List.mem_range.1 hi), List.foldl_map]

theorem items_cols (A : CSR K) (hA : A.Valid) : ∀ e ∈ items A, e.1 < A.numCols := by
  intro e he
  obtain ⟨i, _, h⟩ := List.mem_flatMap.1 he
  obtain ⟨x, hx, rfl⟩ := List.mem_map.1 h
  exact row_cols A hA i x hx

theorem items_rows (A : CSR K) : ∀ e ∈ items A, e.2.1 < A.numRows := by
  intro e he
  obtain ⟨i, hi, h⟩ := List.mem_flatMap.1 he
  obtain ⟨x, hx, rfl⟩ := List.mem_map.1 h
  exact List.mem_range.1 hi

/-- Rows of a valid layout, one after the other, are the whole array. -/
theorem flatMap_csrRow {α : Type} (p : List Nat) (xs : List α) (n : Nat)
    (h : ValidIndptr p n xs.length) : (List.range n).flatMap (csrRow p xs) = xs := by
  have : ∀ m, m ≤ n → (List.range m).flatMap (csrRow p xs) = xs.take (p.getD m 0) := by
    intro m
    induction m with
    | zero =>
      intro _
      rw [List.getD_eq_getElem?_getD, h.first]; simp
    | succ m ih =>
      intro hm
      rw [List.range_succ, List.flatMap_append, ih (by omega)]
      simp only [List.flatMap_cons, List.flatMap_nil, List.append_nil]
      unfold csrRow
      have := h.mono m (by omega)
      conv => rhs; rw [show p.getD (m + 1) 0 = p.getD m 0 + (p.getD (m + 1) 0 - p.getD m 0) by omega]
      rw [List.take_add]
  have := this n (Nat.le_refl _)
  rw [this, List.getD_eq_getElem?_getD, h.last]
  simp

theorem zip_length (A : CSR K) (hA : A.Valid) : (A.indices.zip A.data).length = A.indices.length := by
  rw [List.length_zip, hA.data]; omega

theorem items_length (A : CSR K) (hA : A.Valid) : (items A).length = A.indices.length := by
  have h := flatMap_csrRow A.indptr (A.indices.zip A.data) A.numRows
    (by rw [zip_length A hA]; exact hA.indptr)
  have h2 := congrArg List.length h
  rw [zip_length A hA, List.length_flatMap] at h2
  rw [items, List.length_flatMap, ← h2]
  simp [CSR.row]

/-- A fold with two output arrays is two fill loops. -/
theorem fill_pair {α β : Type} (l : List (Nat × α × β)) :
    ∀ (p : List Nat) (u : List α) (v : List β),
    l.foldl (fun s e => (s.1.modify e.1 (· + 1), s.2.1.set (s.1.getD e.1 0) e.2.1,
      s.2.2.set (s.1.getD e.1 0) e.2.2)) (p, u, v) =
    ((fill l (p, List.zip u v)).1,
     (fill (l.map fun e => (e.1, e.2.1)) (p, u)).2, (fill (l.map fun e => (e.1, e.2.2)) (p, v)).2) := by
  induction l with
  | nil => intro p u v; rfl
  | cons e t ih =>
    intro p u v
    rw [List.foldl_cons, ih]
    have hp : ∀ {γ : Type} (l : List (Nat × γ)) (p : List Nat) (a b : List γ),
        (fill l (p, a)).1 = (fill l (p, b)).1 := by
      intro γ l
      induction l with
      | nil => intros; rfl
      | cons x l ih => intro p a b; exact ih _ _ _
    refine Prod.ext ?_ rfl
    exact hp t _ _ _

theorem fill_fst {α : Type} (l : List (Nat × α)) : ∀ (p : List Nat) (u : List α),
    (fill l (p, u)).1 = (l.map Prod.fst).foldl (fun p c => p.modify c (· + 1)) p := by
  induction l with
  | nil => intros; rfl
  | cons x l ih => intro p u; exact ih _ _

/-- The two output arrays of the fill loop are the two halves of the pair array. -/
theorem fill_halves {α β : Type} (n : Nat) (l : List (Nat × α × β)) (hk : ∀ x ∈ l, x.1 < n)
    (u : List α) (v : List β) (hu : u.length = l.length) (hv : v.length = l.length)
    (shift : List Nat → List Nat)
    (hshift : ∀ p : List Nat, p.length = n + 1 → (shift p).length = n + 1 ∧ (shift p).getD 0 0 = 0 ∧
      ∀ i, i < n → (shift p).getD (i + 1) 0 = p.getD i 0) :
    let p := cumsum n (countKeys n (l.map Prod.fst))
    let s := l.foldl (fun s e => (s.1.modify e.1 (· + 1), s.2.1.set (s.1.getD e.1 0) e.2.1,
      s.2.2.set (s.1.getD e.1 0) e.2.2)) (p, u, v)
    ValidIndptr (shift s.1) n l.length ∧ s.2.1.length = l.length ∧ s.2.2.length = l.length ∧
      ∀ c, c < n → csrRow (shift s.1) (s.2.1.zip s.2.2) c =
        (l.filter fun it => it.1 = c).map Prod.snd := by
  intro p s
  have hs : s = _ := fill_pair l p u v
  have b1 := bucket n (l.map fun e => (e.1, e.2.1)) (by
    intro x hx; obtain ⟨y, hy, rfl⟩ := List.mem_map.1 hx; exact hk y hy) u (by simpa using hu)
    shift hshift
  have b2 := bucket n (l.map fun e => (e.1, e.2.2)) (by
    intro x hx; obtain ⟨y, hy, rfl⟩ := List.mem_map.1 hx; exact hk y hy) v (by simpa using hv)
    shift hshift
  have e1 : (l.map fun e => (e.1, e.2.1)).map Prod.fst = l.map Prod.fst := by
    rw [List.map_map]; rfl
  have e2 : (l.map fun e => (e.1, e.2.2)).map Prod.fst = l.map Prod.fst := by
    rw [List.map_map]; rfl
  simp only [e1, e2, List.length_map] at b1 b2
  have q1 : (fill (l.map fun e => (e.1, e.2.1)) (p, u)).1 = s.1 := by
    rw [hs]; rw [fill_fst, fill_fst, e1]
  have q2 : (fill (l.map fun e => (e.1, e.2.2)) (p, v)).1 = s.1 := by
    rw [hs]; rw [fill_fst, fill_fst, e2]
  have r1 : (fill (l.map fun e => (e.1, e.2.1)) (p, u)).2 = s.2.1 := by
    rw [hs]
  have r2 : (fill (l.map fun e => (e.1, e.2.2)) (p, v)).2 = s.2.2 := by
    rw [hs]
  change ValidIndptr (shift (fill _ (p, u)).1) n l.length ∧ _ at b1
  change ValidIndptr (shift (fill _ (p, v)).1) n l.length ∧ _ at b2
  obtain ⟨b11, b12, _, b14⟩ := b1
  obtain ⟨_, b22, _, b24⟩ := b2
  rw [q1] at b11
  rw [r1] at b12
  rw [r2] at b22
  refine ⟨b11, b12, b22, fun c hc => ?_⟩
  have c1 := b14 c hc
  have c2 := b24 c hc
  change csrRow (shift (fill _ (p, u)).1) (fill _ (p, u)).2 c = _ at c1
  change csrRow (shift (fill _ (p, v)).1) (fill _ (p, v)).2 c = _ at c2
  rw [q1, r1] at c1
  rw [q2, r2] at c2
  have z : csrRow (shift s.1) (s.2.1.zip s.2.2) c =
      (csrRow (shift s.1) s.2.1 c).zip (csrRow (shift s.1) s.2.2 c) := by
    unfold csrRow List.zip
    rw [List.drop_zipWith, List.take_zipWith]
  rw [z, c1, c2]
  generalize l = m
  induction m with
  | nil => rfl
  | cons a t ih =>
    by_cases h : a.1 = c
    · simp [h]
      simpa using ih
    · simp [h]
      simpa using ih

theorem countKeys_items (A : CSR K) [Zero K] (hA : A.Valid) :
    forEntries A (List.replicate (A.numCols + 1) 0) (fun p _ c _ => p.modify (c + 1) (· + 1)) =
      countKeys A.numCols ((items A).map Prod.fst) := by
  rw [forEntries_eq A hA, countKeys, List.foldl_map]

/-- The rows of the transposed matrix. -/
theorem transpose_spec [Zero K] (A : CSR K) (hA : A.Valid) (u : List Nat) (v : List K)
    (hu : u.length = A.indices.length) (hv : v.length = A.indices.length) :
    (transpose A u v).Valid ∧ ∀ c, c < A.numCols →
      (transpose A u v).row c = ((items A).filter fun it => it.1 = c).map Prod.snd := by
  have hlen := items_length A hA
  have h := fill_halves A.numCols (items A) (items_cols A hA) u v (by omega) (by omega)
    (rotate A.numCols) (rotate_getD A.numCols)
  have e := countKeys_items A hA
  have e2 := forEntries_eq A hA
    (cumsum A.numCols (countKeys A.numCols ((items A).map Prod.fst)), u, v)
    (fun s i c d => (s.1.modify c (· + 1), s.2.1.set (s.1.getD c 0) i, s.2.2.set (s.1.getD c 0) d))
  obtain ⟨h1, h2, h3, h4⟩ := h
  have hrow : ∀ c, c < A.numCols →
      (transpose A u v).row c = ((items A).filter fun it => it.1 = c).map Prod.snd := by
    intro c hc
    rw [← h4 c hc]
    unfold transpose CSR.row
    simp only [e, e2]
  refine ⟨⟨?_, ?_, ?_⟩, hrow⟩
  · unfold transpose
    simp only [e, e2, h2]
    exact h1
  · unfold transpose
    simp only [e, e2, h2, h3]
  · -- every stored column is a row number of `A`
    intro j hj
    have hvd : ValidIndptr (transpose A u v).indptr A.numCols (transpose A u v).indices.length := by
      unfold transpose
      simp only [e, e2, h2]
      exact h1
    have hl : (transpose A u v).indices.length = (transpose A u v).data.length := by
      unfold transpose
      simp only [e, e2, h2, h3]
    have hz : ((transpose A u v).indices.zip (transpose A u v).data).length =
        (transpose A u v).indices.length := by rw [List.length_zip, ← hl]; omega
    have hf := flatMap_csrRow (transpose A u v).indptr
      ((transpose A u v).indices.zip (transpose A u v).data) A.numCols (by rw [hz]; exact hvd)
    have hfst : ((transpose A u v).indices.zip (transpose A u v).data).map Prod.fst =
        (transpose A u v).indices := List.map_fst_zip (by omega)
    rw [← hfst, ← hf] at hj
    obtain ⟨e', he', rfl⟩ := List.mem_map.1 hj
    obtain ⟨c, hc, he''⟩ := List.mem_flatMap.1 he'
    have := hrow c (List.mem_range.1 hc)
    unfold CSR.row at this
    rw [this] at he''
    obtain ⟨it, hit, rfl⟩ := List.mem_map.1 he''
    exact items_rows A it (List.mem_filter.1 hit).1

/-- Row `c` of the transpose, listed by original row. -/
theorem items_filter (A : CSR K) (c : Nat) :
    ((items A).filter fun it => it.1 = c).map Prod.snd =
      (List.range A.numRows).flatMap fun i => ((A.row i).filter fun e => e.1 = c).map fun e => (i, e.2) := by
  unfold items
  rw [List.filter_flatMap, List.map_flatMap]
  congr 1
  funext i
  rw [List.filter_map, List.map_map]
  rfl

theorem filter_flatMap_key {β : Type} (g : Nat → List β) (n i : Nat) (hi : i < n) :
    (((List.range n).flatMap fun k => (g k).map fun b => (k, b)).filter fun e => e.1 = i).map Prod.snd
      = g i := by
  induction n with
  | zero => omega
  | succ n ih =>
    rw [List.range_succ, List.flatMap_append, List.filter_append, List.map_append]
    simp only [List.flatMap_cons, List.flatMap_nil, List.append_nil]
    by_cases h : i = n
    · subst h
      have e1 : ((List.range i).flatMap fun k => (g k).map fun b => (k, b)).filter
          (fun e => decide (e.1 = i)) = [] := by
        rw [List.filter_eq_nil_iff]
        intro e he
        obtain ⟨k, hk, he⟩ := List.mem_flatMap.1 he
        obtain ⟨b, _, rfl⟩ := List.mem_map.1 he
        have := List.mem_range.1 hk
        simp; omega
      rw [e1, List.filter_map, List.map_map]
      simp [Function.comp_def]
    · rw [ih (by omega)]
      have : ((g n).map fun b => (n, b)).filter (fun e => decide (e.1 = i)) = [] := by
        rw [List.filter_eq_nil_iff]
        intro e he
        obtain ⟨b, _, rfl⟩ := List.mem_map.1 he
        simp; omega
      rw [this]; simp

theorem pairwise_flatMap_key {β : Type} (g : Nat → List β) (n : Nat) :
    (((List.range n).flatMap fun k => (g k).map fun b => (k, b)).map Prod.fst).Pairwise (· ≤ ·) := by
  induction n with
  | zero => simp
  | succ n ih =>
    rw [List.range_succ, List.flatMap_append, List.map_append, List.pairwise_append]
    refine ⟨ih, ?_, ?_⟩
    · simp [Function.comp_def]
    · intro a ha b hb
      obtain ⟨e, he, rfl⟩ := List.mem_map.1 ha
      obtain ⟨k, hk, he⟩ := List.mem_flatMap.1 he
      obtain ⟨_, _, rfl⟩ := List.mem_map.1 he
      simp at hb
      have := List.mem_range.1 hk
      obtain ⟨_, rfl⟩ := hb
      simp only
      omega

/-! ### graphs -/

/-- A loop commutes with a map of its state. -/
theorem forRange_map {σ τ : Type} (g : σ → τ) (lo hi : Nat) (f : σ → Nat → σ) (f' : τ → Nat → τ)
    (h : ∀ s k, g (f s k) = f' (g s) k) (s : σ) :
    g (forRange lo hi s f) = forRange lo hi (g s) f' := by
  unfold forRange
  generalize List.range' lo (hi - lo) = l
  induction l generalizing s with
  | nil => rfl
  | cons a t ih => rw [List.foldl_cons, List.foldl_cons, ih, h]

/-- A graph as a matrix, all values zero (only the pattern matters). -/
def Graph.toCSR (G : Graph) : CSR Nat :=
  ⟨G.indptr, G.indices, List.replicate G.indices.length 0, G.numRows, G.numCols⟩

theorem Graph.transpose_eq (G : Graph) (u v : List Nat) :
    G.transpose u = ⟨(CSR.transpose G.toCSR u v).indptr, (CSR.transpose G.toCSR u v).indices,
      (CSR.transpose G.toCSR u v).numRows, (CSR.transpose G.toCSR u v).numCols⟩ := by
  have e1 : G.forEntries (List.replicate (G.numCols + 1) 0) (fun p _ c => p.modify (c + 1) (· + 1)) =
      CSR.forEntries G.toCSR (List.replicate (G.numCols + 1) 0)
        (fun p _ c _ => p.modify (c + 1) (· + 1)) := rfl
  have e2 : ∀ p : List Nat, G.forEntries (p, u) (fun s i c =>
        (s.1.modify c (· + 1), s.2.set (s.1.getD c 0) i)) =
      (fun s : List Nat × List Nat × List Nat => (s.1, s.2.1))
        (CSR.forEntries G.toCSR (p, u, v) fun s i c d =>
          (s.1.modify c (· + 1), s.2.1.set (s.1.getD c 0) i, s.2.2.set (s.1.getD c 0) d)) := by
    intro p
    unfold CSR.forEntries Graph.forEntries forRow
    symm
    refine forRange_map (fun s : List Nat × List Nat × List Nat => (s.1, s.2.1)) _ _ _ _ ?_ _
    intro s i
    exact forRange_map (fun s : List Nat × List Nat × List Nat => (s.1, s.2.1)) _ _ _ _
      (fun s k => rfl) _
  unfold Graph.transpose CSR.transpose
  simp only [e1, e2]
  rfl

end PyNucleus.CSR
