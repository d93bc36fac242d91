import Verif.Model.Partition
import Verif.Proof.Loops
import Verif.Proof.Transpose
import Mathlib.Data.Nat.Prime.Basic
import Mathlib.Algebra.Order.BigOperators.Group.List
import Mathlib.Algebra.BigOperators.Intervals
import Mathlib.Algebra.Order.Floor.Ring
import Mathlib.Tactic.Linarith
import Mathlib.Tactic.FieldSimp
import Mathlib.Tactic.Ring
import Mathlib.Tactic.Positivity
import Mathlib.Data.List.Perm.Subperm
import Mathlib.Data.Finset.Card
import Mathlib.Data.List.GetD

namespace PyNucleus.Partition

open PyNucleus.Loops PyNucleus.Spec

/-! ## Inverse table -/

theorem inverse_eq (part : List Nat) (n : Nat) (indices : List Nat) :
    partition2sparseGraph part n indices =
      (let items := (List.range part.length).map fun i => (part.getD i 0, i)
       let s := fill items (cumsum n (countKeys n (items.map Prod.fst)), indices)
       ⟨shiftBack n s.1, s.2, n, part.length⟩) := by
  unfold partition2sparseGraph fill countKeys
  dsimp only
  rw [forRange_zero, forRange_zero]
  simp only [List.foldl_map]

theorem inverse_rows (part : List Nat) (n : Nat) (hp : ∀ p ∈ part, p < n) (indices : List Nat) (hi : indices.length = part.length) :
    let G := partition2sparseGraph part n indices
    ValidIndptr G.indptr n part.length ∧ G.indices.length = part.length ∧
      ∀ p, p < n → csrRow G.indptr G.indices p = (List.range part.length).filter fun i => decide (part.getD i 0 = p) := by
  rw [inverse_eq]
  have hb := bucket n ((List.range part.length).map fun i => (part.getD i 0, i)) (by
    intro x hx
    obtain ⟨i, h1, rfl⟩ := List.mem_map.1 hx
    have h1 := List.mem_range.1 h1
    dsimp only
    rw [List.getD_eq_getElem _ _ h1]
    exact hp _ (List.getElem_mem h1)) indices (by simpa using hi) (shiftBack n) (shiftBack_getD n)
  dsimp only at hb ⊢
  obtain ⟨h1, h2, _, h4⟩ := hb
  rw [List.length_map, List.length_range] at h1 h2
  refine ⟨h1, h2, fun p hp => ?_⟩
  rw [h4 p hp, List.filter_map, List.map_map]
  conv => rhs; rw [← List.map_id (List.filter _ _)]
  rfl

/-! ## Prime factors -/

theorem primesFrom_spec (d n : Nat) (acc : List Nat) : 1 ≤ n → (∀ q, q.Prime → q ∣ n → d + 2 ≤ q) → (∀ p ∈ acc, p.Prime) →
    (primesFrom d n acc).prod = acc.prod * n ∧ ∀ p ∈ primesFrom d n acc, p.Prime := by
  induction d, n, acc using primesFrom.induct with
  | case1 d n acc h hd ih =>
    intro hn hq ha
    have hdvd : d + 2 ∣ n := Nat.dvd_of_mod_eq_zero hd
    have hprime : (d + 2).Prime := by
      have h1 := Nat.minFac_prime (show d + 2 ≠ 1 by omega)
      have h2 := hq _ h1 ((Nat.minFac_dvd _).trans hdvd)
      have h3 := Nat.minFac_le (show 0 < d + 2 by omega)
      have : (d + 2).minFac = d + 2 := by omega
      rw [this] at h1; exact h1
    unfold primesFrom
    rw [dif_pos h, if_pos hd]
    have hpos : 1 ≤ n / (d + 2) := Nat.div_pos (Nat.le_of_dvd hn hdvd) (by omega)
    obtain ⟨i1, i2⟩ := ih hpos (fun q h1 h2 => hq q h1 (h2.trans (Nat.div_dvd_of_dvd hdvd))) (by
      intro p hp
      rcases List.mem_append.1 hp with hp | hp
      · exact ha p hp
      · rw [List.mem_singleton.1 hp]; exact hprime)
    refine ⟨?_, i2⟩
    rw [i1, List.prod_append, List.prod_singleton, Nat.mul_assoc, Nat.mul_div_cancel' hdvd]
  | case2 d n acc h hd ih =>
    intro hn hq ha
    unfold primesFrom
    rw [dif_pos h, if_neg hd]
    refine ih hn (fun q h1 h2 => ?_) ha
    have := hq q h1 h2
    rcases Nat.lt_or_eq_of_le this with h3 | h3
    · omega
    · exact absurd (Nat.mod_eq_zero_of_dvd (h3 ▸ h2)) hd
  | case3 d n acc h h1 =>
    intro hn hq ha
    unfold primesFrom
    rw [dif_neg h, if_pos h1]
    refine ⟨by rw [List.prod_append, List.prod_singleton], fun p hp => ?_⟩
    rcases List.mem_append.1 hp with hp | hp
    · exact ha p hp
    · rw [List.mem_singleton.1 hp]
      by_contra hnp
      have h2 := Nat.minFac_sq_le_self (show 0 < n by omega) hnp
      have h3 := hq _ (Nat.minFac_prime (show n ≠ 1 by omega)) (Nat.minFac_dvd n)
      have := Nat.mul_le_mul h3 h3
      rw [pow_two] at h2
      omega
  | case4 d n acc h h1 =>
    intro hn hq ha
    unfold primesFrom
    rw [dif_neg h, if_neg h1]
    have : n = 1 := by omega
    exact ⟨by rw [this, Nat.mul_one], ha⟩

theorem prod_modify (l : List Nat) (i p : Nat) (hi : i < l.length) : (l.modify i (· * p)).prod = l.prod * p := by
  induction l generalizing i with
  | nil => simp at hi
  | cons a l ih =>
    cases i with
    | zero => simp [Nat.mul_right_comm]
    | succ i =>
      rw [List.modify_succ_cons, List.prod_cons, List.prod_cons, ih i (by simpa using hi), Nat.mul_assoc]

section
variable {K : Type} [Field K] [LinearOrder K]

theorem argminFrom_lt (l : List (WithTop K)) : ∀ (best : WithTop K) (pos i N : Nat), pos < N → i + l.length ≤ N → argminFrom best pos i l < N := by
  induction l with
  | nil => intro best pos i N h _; exact h
  | cons a l ih =>
    intro best pos i N h1 h2
    rw [List.length_cons] at h2
    unfold argminFrom
    split
    · exact ih _ _ _ _ (by omega) (by omega)
    · exact ih _ _ _ _ h1 (by omega)

theorem argmin_lt (l : List (WithTop K)) (h : 0 < l.length) : argmin l < l.length := by
  cases l with
  | nil => simp at h
  | cons a l => exact argminFrom_lt l a 0 1 _ (by simp) (by simp; omega)

theorem balance_spec (extend : List K) (pd N : Nat) (hd : 0 < extend.length) (hpd : 0 < pd) (hN : 1 ≤ N) :
    (balancePartitions extend pd N).length = extend.length ∧ (balancePartitions extend pd N).prod = N ∧
      ∀ j, pd ≤ j → j < extend.length → (balancePartitions extend pd N).getD j 0 = 1 := by
  have hloop : ∀ (l num : List Nat), num.length = extend.length → (∀ j, pd ≤ j → j < extend.length → num.getD j 0 = 1) →
      let r := l.foldl (fun num p => num.modify (argmin ((List.zipWith ratio num extend).take pd)) (· * p)) num
      r.length = extend.length ∧ r.prod = num.prod * l.prod ∧ ∀ j, pd ≤ j → j < extend.length → r.getD j 0 = 1 := by
    intro l
    induction l with
    | nil => intro num h1 h2; exact ⟨h1, by simp, h2⟩
    | cons p l ih =>
      intro num h1 h2
      have hlen : ((List.zipWith ratio num extend).take pd).length = min pd extend.length := by
        rw [List.length_take, List.length_zipWith, h1, Nat.min_self]
      have hlt := argmin_lt ((List.zipWith ratio num extend).take pd) (by rw [hlen]; omega)
      rw [hlen] at hlt
      obtain ⟨r1, r2, r3⟩ := ih (num.modify (argmin ((List.zipWith ratio num extend).take pd)) (· * p)) (by rw [List.length_modify]; exact h1) (by
        intro j hj hj2
        rw [getD_modify, if_neg (by omega)]
        exact h2 j hj hj2)
      refine ⟨r1, ?_, r3⟩
      rw [List.foldl_cons, r2, prod_modify _ _ _ (by omega), List.prod_cons, Nat.mul_assoc]
  obtain ⟨p1, _⟩ := primesFrom_spec 0 N [] hN (fun q hq _ => hq.two_le) (by simp)
  obtain ⟨r1, r2, r3⟩ := hloop ((primes N).insertionSort fun a b => b ≤ a) (List.replicate extend.length 1) (by simp) (by
    intro j _ hj
    rw [List.getD_eq_getElem _ _ (by simpa using hj), List.getElem_replicate])
  refine ⟨r1, ?_, r3⟩
  unfold balancePartitions
  rw [r2, List.prod_replicate, one_pow, one_mul, (List.perm_insertionSort _ _).prod_eq]
  unfold primes
  rw [p1]; simp

theorem foldl_min_le (l : List K) : ∀ a : K, l.foldl min a ≤ a ∧ ∀ x ∈ l, l.foldl min a ≤ x := by
  induction l with
  | nil => intro a; exact ⟨le_refl _, by simp⟩
  | cons b l ih =>
    intro a
    obtain ⟨h1, h2⟩ := ih (min a b)
    rw [List.foldl_cons]
    refine ⟨h1.trans (min_le_left _ _), fun x hx => ?_⟩
    rcases List.mem_cons.1 hx with rfl | hx
    · exact h1.trans (min_le_right _ _)
    · exact h2 x hx

theorem foldl_max_ge (l : List K) : ∀ a : K, a ≤ l.foldl max a ∧ ∀ x ∈ l, x ≤ l.foldl max a := by
  induction l with
  | nil => intro a; exact ⟨le_refl _, by simp⟩
  | cons b l ih =>
    intro a
    obtain ⟨h1, h2⟩ := ih (max a b)
    rw [List.foldl_cons]
    refine ⟨(le_max_left _ _).trans h1, fun x hx => ?_⟩
    rcases List.mem_cons.1 hx with rfl | hx
    · exact (le_max_right _ _).trans h1
    · exact h2 x hx

end

/-! ## Mixed radix numbers -/

/-- `z_0 + z_1 n_0 + z_2 n_0 n_1 + …`. -/
def radix (n : Nat → Nat) (z : Nat → Int) : Nat → Int
  | 0 => 0
  | m + 1 => radix n z m + z m * ((∏ k ∈ Finset.range m, n k : Nat) : Int)

theorem radix_bound (n : Nat → Nat) (z : Nat → Int) (m : Nat) (h : ∀ j, j < m → 0 ≤ z j ∧ z j < n j) :
    0 ≤ radix n z m ∧ radix n z m < ((∏ k ∈ Finset.range m, n k : Nat) : Int) := by
  induction m with
  | zero => simp [radix]
  | succ m ih =>
    obtain ⟨h1, h2⟩ := ih fun j hj => h j (by omega)
    obtain ⟨h3, h4⟩ := h m (by omega)
    unfold radix
    rw [Finset.prod_range_succ, Nat.cast_mul]
    generalize ((∏ k ∈ Finset.range m, n k : Nat) : Int) = p at *
    have hp : 0 ≤ p := by omega
    refine ⟨by positivity, ?_⟩
    have : z m + 1 ≤ n m := h4
    nlinarith

theorem radix_inj (n : Nat → Nat) (z z' : Nat → Int) (m : Nat) (h : ∀ j, j < m → 0 ≤ z j ∧ z j < n j) (h' : ∀ j, j < m → 0 ≤ z' j ∧ z' j < n j) :
    radix n z m = radix n z' m ↔ ∀ j, j < m → z j = z' j := by
  induction m with
  | zero => simp [radix]
  | succ m ih =>
    have ih := ih (fun j hj => h j (by omega)) (fun j hj => h' j (by omega))
    obtain ⟨h1, h2⟩ := radix_bound n z m fun j hj => h j (by omega)
    obtain ⟨h3, h4⟩ := radix_bound n z' m fun j hj => h' j (by omega)
    constructor
    · intro e
      unfold radix at e
      generalize ((∏ k ∈ Finset.range m, n k : Nat) : Int) = p at *
      have hz : z m = z' m := by
        rcases lt_trichotomy (z m) (z' m) with q | q | q
        · have : (z m + 1) * p ≤ z' m * p := mul_le_mul_of_nonneg_right q (by omega)
          linarith
        · exact q
        · have : (z' m + 1) * p ≤ z m * p := mul_le_mul_of_nonneg_right q (by omega)
          linarith
      rw [hz] at e
      have e2 := ih.1 (by linarith)
      intro j hj
      rcases Nat.lt_succ_iff_lt_or_eq.1 hj with q | q
      · exact e2 j q
      · rw [q]; exact hz
    · intro e
      unfold radix
      rw [ih.2 fun j hj => e j (by omega), e m (by omega)]

theorem radix_congr (n n' : Nat → Nat) (z z' : Nat → Int) (m : Nat) (hn : ∀ j, j < m → n j = n' j) (h : ∀ j, j < m → z j = z' j) :
    radix n z m = radix n' z' m := by
  induction m with
  | zero => rfl
  | succ m ih =>
    unfold radix
    rw [ih (fun j hj => hn j (by omega)) fun j hj => h j (by omega), h m (by omega), Finset.prod_congr rfl fun k hk => hn k (by have := Finset.mem_range.1 hk; omega)]

theorem prod_getD (n : List Nat) : ∏ k ∈ Finset.range n.length, n.getD k 0 = n.prod := by
  induction n with
  | nil => rfl
  | cons a n ih =>
    rw [List.length_cons, Finset.prod_range_succ', List.prod_cons, ← ih, mul_comm]
    rfl

section
variable {K : Type} [Field K] [LinearOrder K] [FloorRing K]

/-- The box of a vertex in one dimension. -/
def box (n : List Nat) (lo hi x : Nat → K) (j : Nat) : Int := ⌊(x j - lo j) / (hi j - lo j) * (n.getD j 0 : K)⌋

theorem cellNo_eq (n : List Nat) (lo hi x : Nat → K) (j : Nat) : cellNo n lo hi x j = box n lo hi x j * ((∏ k ∈ Finset.range j, n.getD k 0 : Nat) : Int) := by
  unfold cellNo
  change forRange 0 j (box n lo hi x j) _ = _
  generalize box n lo hi x j = z
  induction j with
  | zero => simp [forRange]
  | succ j ih =>
    rw [forRange_succ, ih, Finset.prod_range_succ, Nat.cast_mul]
    ring

theorem partNo_eq (dim : Nat) (n : List Nat) (lo hi x : Nat → K) : partNo dim n lo hi x = radix (fun k => n.getD k 0) (box n lo hi x) dim := by
  unfold partNo
  induction dim with
  | zero => rfl
  | succ m ih =>
    rw [forRange_succ, ih, cellNo_eq]
    rfl

variable [IsStrictOrderedRing K]

theorem box_le (n : List Nat) (lo hi x : Nat → K) (j : Nat) (hj : 0 < n.getD j 0) (hlt : lo j < hi j) (b : Int) :
    b ≤ box n lo hi x j ↔ lo j + (b : K) * ((hi j - lo j) / (n.getD j 0 : K)) ≤ x j := by
  have h1 : (0 : K) < hi j - lo j := sub_pos.2 hlt
  have h2 : (0 : K) < (n.getD j 0 : K) := Nat.cast_pos.2 hj
  unfold box
  rw [Int.le_floor]
  rw [show (x j - lo j) / (hi j - lo j) * (n.getD j 0 : K) = (x j - lo j) / ((hi j - lo j) / (n.getD j 0 : K)) by field_simp,
    le_div_iff₀ (div_pos h1 h2)]
  constructor <;> intro h <;> linarith

theorem box_bound (n : List Nat) (lo hi x : Nat → K) (j : Nat) (hj : 0 < n.getD j 0) (h1 : lo j ≤ x j) (h2 : x j < hi j) :
    0 ≤ box n lo hi x j ∧ box n lo hi x j < n.getD j 0 := by
  have hlt : lo j < hi j := lt_of_le_of_lt h1 h2
  have hpos : (0 : K) < (n.getD j 0 : K) := Nat.cast_pos.2 hj
  constructor
  · rw [box_le n lo hi x j hj hlt]
    simpa using h1
  · rw [← not_le, box_le n lo hi x j hj hlt]
    rw [Int.cast_natCast, mul_div_cancel₀ _ (ne_of_gt hpos)]
    intro h; linarith

end

/-! ## Irregular partitions -/

section
variable {K : Type} [LinearOrder K] [Zero K]

theorem slot_lt (b : List K) (n : Nat) (x : K) (hn : 1 ≤ n) : slot b n x < n := by
  unfold slot
  cases e : (List.range (n - 1)).find? fun j => decide (x < b.getD j 0) with
  | none => simp; omega
  | some j =>
    have := List.mem_range.1 (List.mem_of_find?_eq_some e)
    simp; omega

theorem foldl_set (g : Nat → Nat) (idx : List Nat) : ∀ part : List Nat,
    (idx.foldl (fun part k => part.set k (g k)) part).length = part.length ∧
      (∀ k ∈ idx, k < part.length → (idx.foldl (fun part k => part.set k (g k)) part).getD k 0 = g k) ∧
      ∀ k, k ∉ idx → (idx.foldl (fun part k => part.set k (g k)) part).getD k 0 = part.getD k 0 := by
  induction idx with
  | nil => intro part; exact ⟨rfl, by simp, fun _ _ => rfl⟩
  | cons a idx ih =>
    intro part
    obtain ⟨h1, h2, h3⟩ := ih (part.set a (g a))
    rw [List.foldl_cons]
    rw [List.length_set] at h1 h2
    refine ⟨h1, fun k hk hlt => ?_, fun k hk => ?_⟩
    · by_cases q : k ∈ idx
      · exact h2 k q hlt
      · have : k = a := (List.mem_cons.1 hk).resolve_right q
        subst this
        rw [h3 k q, getD_set, if_pos ⟨rfl, hlt⟩]
    · rw [List.mem_cons, not_or] at hk
      rw [h3 k hk.2, getD_set, if_neg fun q => hk.1 q.1.symm]

theorem partitionDim_spec (quantile : List K → Nat → List K) (coord : Nat → Nat → K) (n : List Nat) : n ≠ [] → (∀ m ∈ n, 1 ≤ m) →
    ∀ (d : Nat) (idx : List Nat) (offset : Nat) (part : List Nat),
    let r := partitionDim quantile coord n d idx offset part
    r.2 = n.prod ∧ r.1.length = part.length ∧ (∀ k ∈ idx, k < part.length → offset ≤ r.1.getD k 0 ∧ r.1.getD k 0 < offset + n.prod) ∧
      ∀ k, k ∉ idx → r.1.getD k 0 = part.getD k 0 := by
  induction n with
  | nil => intro h; exact absurd rfl h
  | cons n rest ih =>
    intro _ hpos d idx offset part
    have hn := hpos n List.mem_cons_self
    cases rest with
    | nil =>
      unfold partitionDim
      dsimp only
      obtain ⟨h1, h2, h3⟩ := foldl_set (fun k => offset + slot (quantile (idx.map fun k => coord k d) n) n (coord k d)) idx part
      refine ⟨by simp, h1, fun k hk hlt => ?_, h3⟩
      rw [h2 k hk hlt]
      have := slot_lt (quantile (idx.map fun k => coord k d) n) n (coord k d) hn
      simp
      omega
    | cons n2 rest =>
      have ih := ih (by simp) fun m hm => hpos m (List.mem_cons_of_mem _ hm)
      unfold partitionDim
      dsimp only
      generalize hB : quantile (idx.map fun k => coord k d) n = B
      generalize hQ : (n2 :: rest).prod = Q at *
      rw [List.prod_cons, hQ]
      have hloop : ∀ m, m ≤ n →
          let s := (List.range m).foldl (fun s j =>
            let r := partitionDim quantile coord (n2 :: rest) (d + 1) (idx.filter fun k => decide (slot B n (coord k d) = j)) s.2.1 s.1
            (r.1, s.2.1 + r.2, s.2.2 + r.2)) (part, offset, 0)
          s.2.1 = offset + m * Q ∧ s.2.2 = m * Q ∧ s.1.length = part.length ∧
            (∀ k ∈ idx, k < part.length → slot B n (coord k d) < m → offset ≤ s.1.getD k 0 ∧ s.1.getD k 0 < offset + m * Q) ∧
            ∀ k, (k ∉ idx ∨ m ≤ slot B n (coord k d)) → s.1.getD k 0 = part.getD k 0 := by
        intro m
        induction m with
        | zero => intro _; exact ⟨by simp, by simp, rfl, fun k _ _ h => absurd h (by omega), fun _ _ => rfl⟩
        | succ m ihm =>
          intro hm
          obtain ⟨s1, s2, s3, s4, s5⟩ := ihm (by omega)
          dsimp only at s1 s2 s3 s4 s5 ⊢
          rw [List.range_succ, List.foldl_append]
          generalize ((List.range m).foldl (fun s j =>
            let r := partitionDim quantile coord (n2 :: rest) (d + 1) (idx.filter fun k => decide (slot B n (coord k d) = j)) s.2.1 s.1
            (r.1, s.2.1 + r.2, s.2.2 + r.2)) (part, offset, 0)) = s at *
          rw [List.foldl_cons, List.foldl_nil]
          dsimp only
          obtain ⟨r1, r2, r3, r4⟩ := ih (d + 1) (idx.filter fun k => decide (slot B n (coord k d) = m)) s.2.1 s.1
          generalize partitionDim quantile coord (n2 :: rest) (d + 1) (idx.filter fun k => decide (slot B n (coord k d) = m)) s.2.1 s.1 = r at *
          have hmul : (m + 1) * Q = m * Q + Q := Nat.succ_mul m Q
          refine ⟨by omega, by omega, by omega, fun k hk hlt hs => ?_, fun k hk => ?_⟩
          · by_cases e : slot B n (coord k d) = m
            · have := r3 k (List.mem_filter.2 ⟨hk, decide_eq_true e⟩) (by omega)
              omega
            · rw [r4 k fun q => e (of_decide_eq_true (List.mem_filter.1 q).2)]
              have := s4 k hk hlt (by omega)
              omega
          · rw [r4 k, s5 k]
            · rcases hk with hk | hk
              · exact Or.inl hk
              · exact Or.inr (by omega)
            · intro q
              obtain ⟨q1, q2⟩ := List.mem_filter.1 q
              have q2 := of_decide_eq_true q2
              rcases hk with hk | hk
              · exact hk q1
              · omega
      obtain ⟨_, s2, s3, s4, s5⟩ := hloop n (Nat.le_refl n)
      refine ⟨s2, s3, fun k hk hlt => s4 k hk hlt (slot_lt _ _ _ hn), fun k hk => s5 k (Or.inl hk)⟩

end

end PyNucleus.Partition
