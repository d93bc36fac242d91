import Verif.Model.SSS
import Verif.Proof.Entries
import Mathlib.Algebra.BigOperators.Intervals

/-! Helper lemmas on symmetric storage. -/

namespace PyNucleus.SSS

open PyNucleus.Loops PyNucleus.Spec PyNucleus.CSR

variable {K : Type}

theorem lower_valid (S : SSS K) (hS : S.Valid) : S.lower.Valid := by
  refine ⟨hS.indptr, hS.data, fun j hj => ?_⟩
  have hz : (S.indices.zip S.data).length = S.indices.length := by
    rw [List.length_zip, hS.data]; omega
  have hf := flatMap_csrRow S.indptr (S.indices.zip S.data) S.n (by rw [hz]; exact hS.indptr)
  have hfst : (S.indices.zip S.data).map Prod.fst = S.indices :=
    List.map_fst_zip (by rw [hS.data])
  have hj' : j ∈ (S.indices.zip S.data).map Prod.fst := by rw [hfst]; exact hj
  rw [← hf] at hj'
  obtain ⟨e, he, rfl⟩ := List.mem_map.1 hj'
  obtain ⟨i, hi, he⟩ := List.mem_flatMap.1 he
  have hi' := List.mem_range.1 hi
  have := hS.lower i hi' e he
  show e.1 < S.n
  omega

theorem lower_entry_zero [AddCommMonoid K] (S : SSS K) (hS : S.Valid) (i j : Nat) (hi : i < S.n)
    (h : i ≤ j) : S.lower.entry i j = 0 := by
  unfold CSR.entry
  have : (S.lower.row i).filter (fun e => decide (e.1 = j)) = [] := by
    rw [List.filter_eq_nil_iff]
    intro e he
    have := hS.lower i hi e he
    simp; omega
  rw [this]; rfl

/-- An entry is the sum of the diagonal, lower and mirrored contributions. -/
theorem entry_split [AddCommMonoid K] (S : SSS K) (hS : S.Valid) (i j : Nat) (hi : i < S.n)
    (hj : j < S.n) :
    S.entry i j = (if i = j then S.diagonal.getD i 0 else 0) + S.lower.entry i j + S.lower.entry j i := by
  unfold Spec.SSS.entry
  by_cases h : i = j
  · subst h
    rw [if_pos rfl, if_pos rfl, lower_entry_zero S hS i i hi (Nat.le_refl _)]
    simp
  · rw [if_neg h, if_neg h]
    by_cases hlt : j < i
    · rw [if_pos hlt, lower_entry_zero S hS j i hj (by omega)]; simp
    · rw [if_neg hlt, lower_entry_zero S hS i j hi (by omega)]; simp

theorem entry_symm [AddCommMonoid K] (S : SSS K) (i j : Nat) : S.entry i j = S.entry j i := by
  unfold Spec.SSS.entry
  rcases Nat.lt_trichotomy i j with h | h | h
  · rw [if_neg (by omega), if_neg (by omega), if_neg (by omega), if_pos h]
  · rw [h]
  · rw [if_neg (by omega), if_pos h, if_neg (by omega), if_neg (by omega)]

/-! ### product -/

theorem foldl_pair [CommSemiring K] (l : List (Nat × K)) (x : List K) (xi : K) :
    ∀ (t : K) (y : List K),
    l.foldl (fun (s : K × List K) e =>
      (s.1 + e.2 * x.getD e.1 0, s.2.modify e.1 (· + e.2 * xi))) (t, y) =
    (t + (l.map fun e => e.2 * x.getD e.1 0).sum,
      l.foldl (fun y e => y.modify e.1 (· + e.2 * xi)) y) := by
  induction l with
  | nil => intro t y; simp
  | cons a l ih =>
    intro t y
    rw [List.foldl_cons, ih, List.foldl_cons, List.map_cons, List.sum_cons, add_assoc]

theorem matvecNoOverwrite_rows [CommSemiring K] (S : SSS K) (hS : S.Valid) (x y : List K) (m : Nat)
    (hm : m ≤ S.n) :
    let r := forRange 0 m y fun y i =>
      let s := forRange (S.indptr.getD i 0) (S.indptr.getD (i + 1) 0)
        (S.diagonal.getD i 0 * x.getD i 0, y) fun s j =>
          let k := S.indices.getD j 0
          (s.1 + S.data.getD j 0 * x.getD k 0, s.2.modify k (· + S.data.getD j 0 * x.getD i 0))
      s.2.modify i (· + s.1)
    r.length = y.length ∧ ∀ j, j < y.length → r.getD j 0 = y.getD j 0 +
      ∑ i ∈ Finset.range m, (S.lower.entry i j * x.getD i 0 +
        if i = j then S.diagonal.getD i 0 * x.getD i 0 + mulVec S.n S.lower.entry x i else 0) := by
  induction m with
  | zero => exact ⟨rfl, fun j _ => by simp [forRange]⟩
  | succ m ih =>
    obtain ⟨h1, h2⟩ := ih (by omega)
    simp only at h1 h2 ⊢
    rw [forRange_succ]
    generalize (forRange 0 m y fun y i => _) = r at h1 h2 ⊢
    have hrow := forRow_eq S.lower (lower_valid S hS) m (show m < S.n by omega)
      (S.diagonal.getD m 0 * x.getD m 0, r)
      (fun s k d => (s.1 + d * x.getD k 0, s.2.modify k (· + d * x.getD m 0)))
    have e : forRange (S.indptr.getD m 0) (S.indptr.getD (m + 1) 0)
        (S.diagonal.getD m 0 * x.getD m 0, r) (fun s j =>
          (s.1 + S.data.getD j 0 * x.getD (S.indices.getD j 0) 0,
            s.2.modify (S.indices.getD j 0) (· + S.data.getD j 0 * x.getD m 0))) = _ := hrow
    rw [e, foldl_pair]
    simp only
    have hsc := foldl_modify_add (S.lower.row m) (fun e => e.1) (fun e => e.2 * x.getD m 0) r
    refine ⟨by rw [List.length_modify, hsc.1, h1], fun j hj => ?_⟩
    rw [getD_modify, hsc.1, hsc.2 j (by omega), h2 j hj, Finset.sum_range_succ, sum_map_mul_right]
    have hsum : (List.map (fun e => e.2 * x.getD e.1 0) (S.lower.row m)).sum =
        mulVec S.n S.lower.entry x m :=
      sum_row_eq _ _ (row_cols S.lower (lower_valid S hS) m) fun j => x.getD j 0
    rw [hsum]
    have hent : ((S.lower.row m).filter (fun e => decide (e.1 = j)) |>.map Prod.snd).sum =
        S.lower.entry m j := rfl
    rw [hent]
    by_cases hmj : m = j
    · subst hmj
      rw [if_pos ⟨rfl, by omega⟩, if_pos rfl]
      simp only [add_assoc]
    · rw [if_neg (fun h => hmj h.1), if_neg hmj, add_zero, add_assoc]

/-! ### assembling a matrix from a list of items -/

theorem foldl_put (l : List (Nat × Nat × K)) : ∀ s : Fill K,
    l.foldl (fun s e => put s e.1 e.2.1 e.2.2) s =
    l.foldl (fun s e => (s.1.modify e.1 (· + 1), s.2.1.set (s.1.getD e.1 0) e.2.1,
      s.2.2.set (s.1.getD e.1 0) e.2.2)) s := fun _ => rfl

/-- Counting, summing, filling and shifting back give the matrix of the items. -/
theorem assemble (n m : Nat) (l : List (Nat × Nat × K)) (hk : ∀ e ∈ l, e.1 < n)
    (hc : ∀ e ∈ l, e.2.1 < m) (u : List Nat) (v : List K) (hu : u.length = l.length)
    (hv : v.length = l.length) :
    let s := l.foldl (fun s e => put s e.1 e.2.1 e.2.2) (cumsum n (countKeys n (l.map Prod.fst)), u, v)
    let B : CSR K := ⟨shiftBack n s.1, s.2.1, s.2.2, n, m⟩
    B.Valid ∧ B.indices.length = l.length ∧
      ∀ c, c < n → B.row c = (l.filter fun it => it.1 = c).map Prod.snd := by
  have h := fill_halves n l hk u v hu hv (shiftBack n) (shiftBack_getD n)
  simp only at h
  rw [← foldl_put] at h
  intro s B
  obtain ⟨h1, h2, h3, h4⟩ := h
  have hrow : ∀ c, c < n → B.row c = (l.filter fun it => it.1 = c).map Prod.snd := h4
  refine ⟨⟨by show ValidIndptr _ n s.2.1.length; rw [h2]; exact h1,
    by show s.2.2.length = s.2.1.length; rw [h2, h3], fun j hj => ?_⟩, h2, hrow⟩
  have hz : (s.2.1.zip s.2.2).length = l.length := by rw [List.length_zip, h2, h3]; omega
  have hf := flatMap_csrRow (shiftBack n s.1) (s.2.1.zip s.2.2) n (by rw [hz]; exact h1)
  have hfst : (s.2.1.zip s.2.2).map Prod.fst = s.2.1 := List.map_fst_zip (by rw [h2, h3])
  have hj' : j ∈ (s.2.1.zip s.2.2).map Prod.fst := by rw [hfst]; exact hj
  rw [← hf] at hj'
  obtain ⟨e, he, rfl⟩ := List.mem_map.1 hj'
  obtain ⟨c, hcc, he⟩ := List.mem_flatMap.1 he
  have hr := hrow c (List.mem_range.1 hcc)
  have he' : e ∈ B.row c := he
  rw [hr] at he'
  obtain ⟨it, hit, rfl⟩ := List.mem_map.1 he'
  exact hc it (List.mem_filter.1 hit).1

/-- Contribution of a list of items to the entry `(c, j)`. -/
def contrib [AddCommMonoid K] (l : List (Nat × Nat × K)) (c j : Nat) : K :=
  (l.map fun e => if e.1 = c ∧ e.2.1 = j then e.2.2 else 0).sum

theorem contrib_eq [AddCommMonoid K] (l : List (Nat × Nat × K)) (c j : Nat) :
    ((((l.filter fun it => it.1 = c).map Prod.snd).filter fun e => e.1 = j).map Prod.snd).sum =
      contrib l c j := by
  unfold contrib
  induction l with
  | nil => rfl
  | cons a t ih =>
    rw [List.map_cons, List.sum_cons, ← ih]
    by_cases h : a.1 = c
    · by_cases h2 : a.2.1 = j
      · simp [h, h2]
      · simp [h, h2]
    · simp [h]

theorem contrib_append [AddCommMonoid K] (l l' : List (Nat × Nat × K)) (c j : Nat) :
    contrib (l ++ l') c j = contrib l c j + contrib l' c j := by
  unfold contrib; rw [List.map_append, List.sum_append]

theorem contrib_cons [AddCommMonoid K] (a : Nat × Nat × K) (l : List (Nat × Nat × K)) (c j : Nat) :
    contrib (a :: l) c j = (if a.1 = c ∧ a.2.1 = j then a.2.2 else 0) + contrib l c j := by
  unfold contrib; rw [List.map_cons, List.sum_cons]

theorem contrib_flatMap [AddCommMonoid K] (n : Nat) (g : Nat → List (Nat × Nat × K)) (c j : Nat) :
    contrib ((List.range n).flatMap g) c j = ∑ i ∈ Finset.range n, contrib (g i) c j := by
  induction n with
  | zero => rfl
  | succ n ih =>
    rw [List.range_succ, List.flatMap_append, contrib_append, ih, Finset.sum_range_succ]
    simp

/-- Items of row `i` with row and column swapped give the mirrored entry. -/
theorem contrib_row [AddCommMonoid K] (l : List (Nat × K)) (i c j : Nat) :
    contrib (l.map fun e => (i, e.1, e.2)) c j =
      if i = c then ((l.filter fun e => e.1 = j).map Prod.snd).sum else 0 := by
  unfold contrib
  induction l with
  | nil => simp
  | cons a t ih =>
    rw [List.map_cons, List.map_cons, List.sum_cons, ih]
    by_cases h : i = c
    · by_cases h2 : a.1 = j
      · simp [h, h2]
      · simp [h, h2]
    · simp [h]

theorem contrib_col [AddCommMonoid K] (l : List (Nat × K)) (i c j : Nat) :
    contrib (l.map fun e => (e.1, i, e.2)) c j =
      if i = j then ((l.filter fun e => e.1 = c).map Prod.snd).sum else 0 := by
  unfold contrib
  induction l with
  | nil => simp
  | cons a t ih =>
    rw [List.map_cons, List.map_cons, List.sum_cons, ih]
    by_cases h : i = j
    · by_cases h2 : a.1 = c
      · simp [h, h2]
      · simp [h, h2]
    · simp [h]

theorem contrib_both [AddCommMonoid K] (l : List (Nat × K)) (i c j : Nat) :
    contrib (l.flatMap fun e => [(i, e.1, e.2), (e.1, i, e.2)]) c j =
      contrib (l.map fun e => (i, e.1, e.2)) c j + contrib (l.map fun e => (e.1, i, e.2)) c j := by
  induction l with
  | nil => simp [contrib]
  | cons a t ih =>
    rw [List.flatMap_cons, contrib_append, ih, List.map_cons, List.map_cons, contrib_cons, contrib_cons,
      contrib_cons, contrib_cons]
    simp only [contrib, List.map_nil, List.sum_nil, add_zero]
    rw [add_add_add_comm]

/-- Items written by `to_csr`. -/
def fullItems [Zero K] (S : SSS K) : List (Nat × Nat × K) :=
  (List.range S.n).flatMap fun i => (i, i, S.diagonal.getD i 0) ::
    (S.lower.row i).flatMap fun e => [(i, e.1, e.2), (e.1, i, e.2)]

/-- Items written by `to_lower_csc`. -/
def lowerItems [Zero K] (S : SSS K) : List (Nat × Nat × K) :=
  (List.range S.n).flatMap fun i => (i, i, S.diagonal.getD i 0) ::
    (S.lower.row i).map fun e => (e.1, i, e.2)

theorem toCSR_eq [Zero K] (S : SSS K) (hS : S.Valid) (u : List Nat) (v : List K) :
    toCSR S u v =
      (let s := (fullItems S).foldl (fun s e => put s e.1 e.2.1 e.2.2)
        (cumsum S.n (countKeys S.n ((fullItems S).map Prod.fst)), u, v)
       ⟨shiftBack S.n s.1, s.2.1, s.2.2, S.n, S.n⟩) := by
  have hL := lower_valid S hS
  have e1 : (forRange 0 S.n (List.replicate (S.n + 1) 0) fun p i =>
      forRange (S.indptr.getD i 0) (S.indptr.getD (i + 1) 0) (p.modify (i + 1) (· + 1)) fun p jj =>
        (p.modify (i + 1) (· + 1)).modify (S.indices.getD jj 0 + 1) (· + 1)) =
      countKeys S.n ((fullItems S).map Prod.fst) := by
    unfold countKeys fullItems
    rw [forRange_zero, List.foldl_map, List.foldl_flatMap]
    apply foldl_congr_mem
    intro p i hi
    have := forRow_eq S.lower hL i (List.mem_range.1 hi) (p.modify (i + 1) (· + 1))
      (fun p j _ => (p.modify (i + 1) (· + 1)).modify (j + 1) (· + 1))
    rw [List.foldl_cons, List.foldl_flatMap]
    exact this
  have e2 : ∀ p : List Nat, (forRange 0 S.n (p, u, v) fun s i =>
      forRange (S.indptr.getD i 0) (S.indptr.getD (i + 1) 0) (put s i i (S.diagonal.getD i 0)) fun s jj =>
        put (put s i (S.indices.getD jj 0) (S.data.getD jj 0)) (S.indices.getD jj 0) i (S.data.getD jj 0))
      = (fullItems S).foldl (fun s e => put s e.1 e.2.1 e.2.2) (p, u, v) := by
    intro p
    unfold fullItems
    rw [forRange_zero, List.foldl_flatMap]
    apply foldl_congr_mem
    intro s i hi
    have := forRow_eq S.lower hL i (List.mem_range.1 hi) (put s i i (S.diagonal.getD i 0))
      (fun s j d => put (put s i j d) j i d)
    rw [List.foldl_cons, List.foldl_flatMap]
    exact this
  unfold toCSR
  simp only [e1, e2]

theorem toLowerCSC_eq [Zero K] (S : SSS K) (hS : S.Valid) (u : List Nat) (v : List K) :
    toLowerCSC S u v =
      (let s := (lowerItems S).foldl (fun s e => put s e.1 e.2.1 e.2.2)
        (cumsum S.n (countKeys S.n ((lowerItems S).map Prod.fst)), u, v)
       ⟨shiftBack S.n s.1, s.2.1, s.2.2, S.n, S.n⟩) := by
  have hL := lower_valid S hS
  have e1 : (forRange 0 S.n (List.replicate (S.n + 1) 0) fun p i =>
      forRange (S.indptr.getD i 0) (S.indptr.getD (i + 1) 0) (p.modify (i + 1) (· + 1)) fun p jj =>
        p.modify (S.indices.getD jj 0 + 1) (· + 1)) =
      countKeys S.n ((lowerItems S).map Prod.fst) := by
    unfold countKeys lowerItems
    rw [forRange_zero, List.foldl_map, List.foldl_flatMap]
    apply foldl_congr_mem
    intro p i hi
    have := forRow_eq S.lower hL i (List.mem_range.1 hi) (p.modify (i + 1) (· + 1))
      (fun p j _ => p.modify (j + 1) (· + 1))
    rw [List.foldl_cons, List.foldl_map]
    exact this
  have e2 : ∀ p : List Nat, (forRange 0 S.n (p, u, v) fun s i =>
      forRange (S.indptr.getD i 0) (S.indptr.getD (i + 1) 0) (put s i i (S.diagonal.getD i 0)) fun s jj =>
        put s (S.indices.getD jj 0) i (S.data.getD jj 0))
      = (lowerItems S).foldl (fun s e => put s e.1 e.2.1 e.2.2) (p, u, v) := by
    intro p
    unfold lowerItems
    rw [forRange_zero, List.foldl_flatMap]
    apply foldl_congr_mem
    intro s i hi
    have := forRow_eq S.lower hL i (List.mem_range.1 hi) (put s i i (S.diagonal.getD i 0))
      (fun s j d => put s j i d)
    rw [List.foldl_cons, List.foldl_map]
    exact this
  unfold toLowerCSC
  simp only [e1, e2]

theorem fullItems_bound [Zero K] (S : SSS K) (hS : S.Valid) :
    ∀ e ∈ fullItems S, e.1 < S.n ∧ e.2.1 < S.n := by
  intro e he
  obtain ⟨i, hi, he⟩ := List.mem_flatMap.1 he
  have hi := List.mem_range.1 hi
  rcases List.mem_cons.1 he with rfl | he
  · exact ⟨hi, hi⟩
  · obtain ⟨x, hx, he⟩ := List.mem_flatMap.1 he
    have := hS.lower i hi x hx
    simp only [List.mem_cons, List.not_mem_nil, or_false] at he
    rcases he with rfl | rfl
    · simp only; omega
    · simp only; omega

theorem lowerItems_bound [Zero K] (S : SSS K) (hS : S.Valid) :
    ∀ e ∈ lowerItems S, e.1 < S.n ∧ e.2.1 < S.n := by
  intro e he
  obtain ⟨i, hi, he⟩ := List.mem_flatMap.1 he
  have hi := List.mem_range.1 hi
  rcases List.mem_cons.1 he with rfl | he
  · exact ⟨hi, hi⟩
  · obtain ⟨x, hx, rfl⟩ := List.mem_map.1 he
    have := hS.lower i hi x hx
    simp only; omega

theorem range_length_sum (S : SSS K) (hS : S.Valid) :
    ((List.range S.n).map fun i => (S.lower.row i).length).sum = S.indices.length := by
  have h := flatMap_csrRow S.indptr (S.indices.zip S.data) S.n
    (by rw [List.length_zip, hS.data, Nat.min_self]; exact hS.indptr)
  have h2 := congrArg List.length h
  rw [List.length_flatMap, List.length_zip, hS.data, Nat.min_self] at h2
  exact h2

theorem fullItems_length [Zero K] (S : SSS K) (hS : S.Valid) :
    (fullItems S).length = S.n + 2 * S.indices.length := by
  have h := range_length_sum S hS
  unfold fullItems
  rw [List.length_flatMap]
  have e : ∀ i, ((i, i, S.diagonal.getD i 0) ::
      (S.lower.row i).flatMap fun e => [(i, e.1, e.2), (e.1, i, e.2)]).length =
      1 + 2 * (S.lower.row i).length := by
    intro i
    rw [List.length_cons, List.length_flatMap]
    simp
    omega
  rw [List.map_congr_left (fun i _ => e i), ← h]
  clear e h
  generalize S.n = n
  induction n with
  | zero => rfl
  | succ n ih => rw [List.range_succ]; simp [ih]; omega

theorem lowerItems_length [Zero K] (S : SSS K) (hS : S.Valid) :
    (lowerItems S).length = S.n + S.indices.length := by
  have h := range_length_sum S hS
  unfold lowerItems
  rw [List.length_flatMap]
  have e : ∀ i, ((i, i, S.diagonal.getD i 0) ::
      (S.lower.row i).map fun e => (e.1, i, e.2)).length = 1 + (S.lower.row i).length := by
    intro i; simp; omega
  rw [List.map_congr_left (fun i _ => e i), ← h]
  clear e h
  generalize S.n = n
  induction n with
  | zero => rfl
  | succ n ih => rw [List.range_succ]; simp [ih]; omega

/-! ### conversion from CSR -/

/-- Items written by `to_sss` for the lower triangle. -/
def sssItems (A : CSR K) : List (Nat × Nat × K) :=
  (List.range A.numRows).flatMap fun i => ((A.row i).filter fun e => e.1 < i).map fun e => (i, e.1, e.2)

theorem foldl_split (i : Nat) (l : List (Nat × K)) : ∀ (s : Fill K) (dg : List K),
    l.foldl (fun (s : Fill K × List K) e =>
      if e.1 < i then (put s.1 i e.1 e.2, s.2) else if e.1 = i then (s.1, s.2.set i e.2) else s) (s, dg) =
    ((l.filter fun e => e.1 < i).foldl (fun s e => put s i e.1 e.2) s,
      (l.filter fun e => e.1 = i).foldl (fun dg e => dg.set i e.2) dg) := by
  induction l with
  | nil => intros; rfl
  | cons a t ih =>
    intro s dg
    rw [List.foldl_cons]
    by_cases h1 : a.1 < i
    · have h2 : ¬ a.1 = i := by omega
      rw [if_pos h1, ih]
      simp [h1, h2]
    · by_cases h2 : a.1 = i
      · rw [if_neg h1, if_pos h2, ih]
        simp [h2]
      · rw [if_neg h1, if_neg h2, ih]
        simp [h1, h2]

/-- Loops over a pair of independent states. -/
theorem forRange_prod {σ τ : Type} (n : Nat) (s : σ) (t : τ) (f : σ → Nat → σ) (g : τ → Nat → τ) :
    forRange 0 n (s, t) (fun p i => (f p.1 i, g p.2 i)) = (forRange 0 n s f, forRange 0 n t g) := by
  induction n with
  | zero => rfl
  | succ n ih => rw [forRange_succ, forRange_succ, forRange_succ, ih]

theorem ofCSR_eq [Zero K] (A : CSR K) (hA : A.Valid) (u : List Nat) (v dg : List K) :
    ofCSR A u v dg =
      (let s := (sssItems A).foldl (fun s e => put s e.1 e.2.1 e.2.2)
        (cumsum A.numRows (countKeys A.numRows ((sssItems A).map Prod.fst)), u, v)
       ⟨shiftBack A.numRows s.1, s.2.1, s.2.2,
        forRange 0 A.numRows dg fun dg i =>
          ((A.row i).filter fun e => e.1 = i).foldl (fun dg e => dg.set i e.2) dg, A.numRows⟩) := by
  have e1 : (forRange 0 A.numRows (List.replicate (A.numRows + 1) 0) fun p i =>
      forRow A i p fun p j _ => if j < i then p.modify (i + 1) (· + 1) else p) =
      countKeys A.numRows ((sssItems A).map Prod.fst) := by
    unfold countKeys sssItems
    rw [forRange_zero, List.foldl_map, List.foldl_flatMap]
    apply foldl_congr_mem
    intro p i hi
    rw [forRow_eq A hA i (List.mem_range.1 hi), List.foldl_map]
    generalize A.row i = l
    induction l generalizing p with
    | nil => rfl
    | cons a t ih =>
      by_cases h : a.1 < i
      · simp only [List.foldl_cons, h, if_true, decide_true, List.filter_cons_of_pos]
        exact ih _
      · simp only [List.foldl_cons, h, if_false]
        rw [List.filter_cons_of_neg (by simpa using h)]
        exact ih _
  have e2 : ∀ p : List Nat, (forRange 0 A.numRows ((p, u, v), dg) fun s i =>
      forRow A i s fun s j d =>
        if j < i then (put s.1 i j d, s.2)
        else if j = i then (s.1, s.2.set i d)
        else s) =
      ((sssItems A).foldl (fun s e => put s e.1 e.2.1 e.2.2) (p, u, v),
        forRange 0 A.numRows dg fun dg i =>
          ((A.row i).filter fun e => e.1 = i).foldl (fun dg e => dg.set i e.2) dg) := by
    intro p
    have h1 : (forRange 0 A.numRows (p, u, v) fun s i =>
        ((A.row i).filter fun e => e.1 < i).foldl (fun s e => put s i e.1 e.2) s) =
        (sssItems A).foldl (fun s e => put s e.1 e.2.1 e.2.2) (p, u, v) := by
      unfold sssItems
      rw [forRange_zero, List.foldl_flatMap]
      apply foldl_congr_mem
      intro s i _
      rw [List.foldl_map]
    rw [← h1, ← forRange_prod]
    apply forRange_congr
    intro s k _ hk
    rw [forRow_eq A hA k hk]
    exact foldl_split k (A.row k) s.1 s.2
  unfold ofCSR
  simp only [e1, e2]

theorem diag_fold [AddCommMonoid K] (A : CSR K) (i : Nat) (dg : List K)
    (h : ((A.row i).filter fun e => e.1 = i).length = 1) :
    ((A.row i).filter fun e => e.1 = i).foldl (fun dg e => dg.set i e.2) dg = dg.set i (A.entry i i) := by
  unfold CSR.entry
  generalize ((A.row i).filter fun e => decide (e.1 = i)) = l at h
  match l, h with
  | [a], _ => simp

theorem sssItems_bound (A : CSR K) (hA : A.Valid) (hsq : A.numCols = A.numRows) :
    ∀ e ∈ sssItems A, e.1 < A.numRows ∧ e.2.1 < A.numRows := by
  intro e he
  obtain ⟨i, hi, he⟩ := List.mem_flatMap.1 he
  have hi := List.mem_range.1 hi
  obtain ⟨x, hx, rfl⟩ := List.mem_map.1 he
  have := row_cols A hA i x (List.mem_filter.1 hx).1
  exact ⟨hi, by simp only; omega⟩

theorem sssItems_filter (A : CSR K) (c : Nat) (hc : c < A.numRows) :
    ((sssItems A).filter fun it => it.1 = c).map Prod.snd = (A.row c).filter fun e => e.1 < c := by
  have := filter_flatMap_key (fun i => (A.row i).filter fun e => e.1 < i) A.numRows c hc
  exact this

end PyNucleus.SSS
