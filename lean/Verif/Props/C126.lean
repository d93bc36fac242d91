import Verif.Model.RepartitionWeights
import Verif.Proof.Overlap3
import Mathlib.Algebra.BigOperators.Ring.Finset
import Mathlib.Algebra.Order.Ring.Rat
import Mathlib.Tactic.FieldSimp
import Mathlib.Tactic.Ring
import Mathlib.Tactic.Linarith
import Mathlib.Tactic.NormNum

/-!
# C126: vectors between two partitions

Code modelled: see Verif/Model/RepartitionWeights.lean.
-/

namespace PyNucleus.Props.C126

open PyNucleus.Overlap PyNucleus.RepartitionWeights

/-- The two sides have equally many shared dofs, and all are dofs. -/
def Fits (n : Nat) (l : Link) : Prop := l.mine.length = l.other.length ∧ (∀ i ∈ l.mine, i < n) ∧ ∀ i ∈ l.other, i < l.n

/-- How often a dof is received. -/
def copies (links : List Link) (i : Nat) : Nat := (links.map fun l => l.mine.count i).sum

/-- The values of a sender are those of the function `G` on the dofs of the receiver. -/
def Agrees {K : Type} [Zero K] (G : Nat → K) (m : Link × List K) : Prop :=
  ∀ j (h : j < m.1.mine.length), m.2.getD (m.1.other.getD j 0) 0 = G m.1.mine[j]

private theorem le_sum (l : List Nat) (a : Nat) (h : a ∈ l) : a ≤ l.sum := by
  induction l with
  | nil => cases h
  | cons b l ih =>
    rw [List.sum_cons]
    rcases List.mem_cons.mp h with rfl | h
    · omega
    · have := ih h; omega

section
variable {K : Type} [Field K]

private theorem one_message (G : Nat → K) (m : Link × List K) (hl : m.1.mine.length = m.1.other.length) (hg : Agrees G m) (i : Nat) :
    (∑ j ∈ Finset.range m.1.mine.length, if m.1.mine.getD j 0 = i then (gather m.2 m.1.other).getD j 0 else 0) = (m.1.mine.count i : K) * G i := by
  have h1 : ∀ j ∈ Finset.range m.1.mine.length, (if m.1.mine.getD j 0 = i then (gather m.2 m.1.other).getD j 0 else 0)
      = (if m.1.mine.getD j 0 = i then (1 : K) else 0) * G i := by
    intro j hj
    have hj := Finset.mem_range.mp hj
    split
    · rename_i e
      have h2 := hg j hj
      rw [List.getD_eq_getElem _ _ hj] at e
      rw [e] at h2
      have h3 : j < m.1.other.length := by omega
      rw [one_mul, ← h2]
      simp [gather, h3]
    · rw [zero_mul]
  rw [Finset.sum_congr rfl h1, ← Finset.sum_mul]
  congr 1
  generalize m.1.mine = l
  clear * -
  induction l with
  | nil => simp
  | cons a l ih =>
    rw [List.length_cons, Finset.sum_range_succ', List.count_cons, Nat.cast_add, ← ih]
    simp

private theorem fold_length (msgs : List (Link × List K)) (v : List K) :
    (msgs.foldl (fun v m => accumulateProcess m.1.mine (gather m.2 m.1.other) v) v).length = v.length := by
  induction msgs generalizing v with
  | nil => rfl
  | cons m msgs ih => rw [List.foldl_cons, ih, accumulateProcess_length]

private theorem fold_getD (G : Nat → K) (msgs : List (Link × List K)) (v : List K) (hl : ∀ m ∈ msgs, m.1.mine.length = m.1.other.length)
    (hg : ∀ m ∈ msgs, Agrees G m) (i : Nat) (hi : i < v.length) :
    (msgs.foldl (fun v m => accumulateProcess m.1.mine (gather m.2 m.1.other) v) v).getD i 0
      = v.getD i 0 + (copies (msgs.map Prod.fst) i : K) * G i := by
  induction msgs generalizing v with
  | nil => simp [copies]
  | cons m msgs ih =>
    rw [List.foldl_cons, ih _ (fun m' h => hl m' (by simp [h])) (fun m' h => hg m' (by simp [h])) (by rwa [accumulateProcess_length]),
      accumulateProcess_getD _ _ _ _ hi, one_message G m (hl m (by simp)) (hg m (by simp))]
    simp only [copies, List.map_cons, List.sum_cons, Nat.cast_add]
    ring

/-- What is received is the value times the number of copies, for any order of the messages. -/
theorem received (n : Nat) (G : Nat → K) (msgs : List (Link × List K)) (hl : ∀ m ∈ msgs, Fits n m.1) (hg : ∀ m ∈ msgs, Agrees G m) (i : Nat)
    (hi : i < n) : (receive n msgs).getD i 0 = (copies (msgs.map Prod.fst) i : K) * G i := by
  unfold receive
  rw [fold_getD G msgs _ (fun m h => (hl m h).1) hg i (by simpa using hi)]
  simp [hi]

end

variable {K : Type} [Field K] [LinearOrder K] [IsStrictOrderedRing K]

omit [LinearOrder K] [IsStrictOrderedRing K] in
private theorem ones (n : Nat) (links : List Link) (hl : ∀ l ∈ links, Fits n l) (i : Nat) (hi : i < n) :
    (receive n (links.map fun l => (l, List.replicate l.n (1 : K)))).getD i 0 = (copies links i : K) := by
  rw [received n (fun _ => 1) _ (fun m h => ?_) (fun m h => ?_) i hi, mul_one, List.map_map]
  · congr 2; exact List.map_id _
  · obtain ⟨l, h1, rfl⟩ := List.mem_map.mp h; exact hl l h1
  · obtain ⟨l, h1, rfl⟩ := List.mem_map.mp h
    intro j hj
    have hj' : j < l.other.length := by have := (hl l h1).1; simp only at hj; omega
    have h2 := (hl l h1).2.2 _ (List.getElem_mem hj')
    dsimp only
    rw [List.getD_eq_getElem _ _ hj']
    simp [h2]

/-- The assertion holds exactly if every dof is received from some sender. -/
theorem prepared (n : Nat) (links : List Link) (hl : ∀ l ∈ links, Fits n l) :
    (prepare (K := K) n links).isSome ↔ ∀ i < n, ∃ l ∈ links, i ∈ l.mine := by
  have h : (prepare (K := K) n links).isSome ↔ ∀ i < n, (1 : K) ≤ copies links i := by
    unfold prepare
    dsimp only
    split
    · rename_i hc
      simp only [Option.isSome_some, true_iff]
      intro i hi
      rw [List.all_eq_true] at hc
      have := of_decide_eq_true (hc i (by simpa using hi))
      rwa [ones n links hl i hi] at this
    · rename_i hc
      simp only [Option.isSome_none, Bool.false_eq_true, false_iff]
      intro h
      apply hc
      rw [List.all_eq_true]
      intro i hi
      have hi : i < n := by simpa using hi
      rw [ones n links hl i hi]
      exact decide_eq_true (h i hi)
  rw [h]
  refine forall_congr' fun i => forall_congr' fun hi => ?_
  rw [Nat.one_le_cast]
  unfold copies
  constructor
  · intro h1
    by_contra h2
    push Not at h2
    have : (links.map fun l => l.mine.count i).sum = 0 := by
      rw [List.sum_eq_zero]
      intro x hx
      obtain ⟨l, hl', rfl⟩ := List.mem_map.mp hx
      exact List.count_eq_zero.mpr (h2 l hl')
    omega
  · rintro ⟨l, hl', hm⟩
    exact le_trans (List.one_le_count_iff.mpr hm) (le_sum _ _ (List.mem_map.mpr ⟨l, hl', rfl⟩))

/-- If the assertion holds, then a vector that all senders have in common arrives unchanged, in any order of the messages. -/
theorem transferred (n : Nat) (links : List Link) (hl : ∀ l ∈ links, Fits n l) (D : List (Nat × K)) (hD : prepare n links = some D)
    (msgs : List (Link × List K)) (hm : (msgs.map Prod.fst).Perm links) (G : Nat → K) (hg : ∀ m ∈ msgs, Agrees G m) :
    (transfer n D msgs).length = n ∧ ∀ i < n, (transfer n D msgs).getD i 0 = G i := by
  have hcop : ∀ i, copies (msgs.map Prod.fst) i = copies links i := fun i => (hm.map _).sum_eq
  have hfit : ∀ m ∈ msgs, Fits n m.1 := fun m h => hl _ (hm.mem_iff.mp (List.mem_map_of_mem h))
  have hlen : (receive n msgs).length = n := by unfold receive; rw [fold_length]; simp
  have hrec := received n G msgs hfit hg
  have hpos : ∀ i < n, 1 ≤ copies links i := by
    intro i hi
    have h1 : (prepare (K := K) n links).isSome := by rw [hD]; rfl
    obtain ⟨l, hl', hm'⟩ := (prepared n links hl).mp h1 i hi
    exact le_trans (List.one_le_count_iff.mpr hm') (le_sum _ _ (List.mem_map.mpr ⟨l, hl', rfl⟩))
  unfold prepare at hD
  dsimp only at hD
  split at hD
  case isFalse => cases hD
  case isTrue =>
    injection hD with hD
    have hfst : D.map Prod.fst = (List.range n).filter fun i => decide (1 / 100000000 <
        max ((receive n (links.map fun l => (l, List.replicate l.n (1 : K)))).getD i 0 - 1)
          (-((receive n (links.map fun l => (l, List.replicate l.n (1 : K)))).getD i 0 - 1))) := by
      rw [← hD, List.map_map]; exact List.map_id _
    obtain ⟨d1, d2, d3⟩ := distribute_getD D (receive n msgs) (by rw [hfst]; exact List.nodup_range.filter _) fun e he => by
      have h1 : e.1 ∈ D.map Prod.fst := List.mem_map_of_mem he
      rw [hfst, List.mem_filter] at h1
      rw [hlen]; simpa using h1.1
    refine ⟨by unfold transfer; rw [d1, hlen], fun i hi => ?_⟩
    have hc := hpos i hi
    by_cases h1 : copies links i = 1
    · have hn : i ∉ D.map Prod.fst := by
        rw [hfst, List.mem_filter, ones n links hl i hi, h1]
        norm_num
      unfold transfer
      rw [d3 i hn, hrec i hi, hcop, h1]; simp
    · have h2 : (2 : K) ≤ copies links i := by exact_mod_cast (show 2 ≤ copies links i by omega)
      have hmem : (i, 1 / (copies links i : K)) ∈ D := by
        rw [← hD, List.mem_map]
        refine ⟨i, ?_, by rw [ones n links hl i hi]⟩
        rw [List.mem_filter, ones n links hl i hi]
        refine ⟨by simpa using hi, decide_eq_true (lt_max_of_lt_left ?_)⟩
        have : (1 / 100000000 : K) < 1 := by norm_num
        linarith
      unfold transfer
      have := d2 _ hmem
      dsimp only at this
      rw [this, hrec i hi, hcop]
      have h3 : (copies links i : K) ≠ 0 := by intro h0; rw [h0] at h2; linarith
      field_simp

/-- So a vector that is sent to the other partition and back is unchanged: `back` says what is sent back by the ranks of the other partition,
which hold the vectors `there`. -/
theorem there_and_back (n : Nat) (linksBack : List Link) (hlb : ∀ l ∈ linksBack, Fits n l) (D : List (Nat × K)) (hD : prepare n linksBack = some D)
    (R : Nat) (nOther : Nat → Nat) (links : Nat → List Link) (hl : ∀ r < R, ∀ l ∈ links r, Fits (nOther r) l) (DO : Nat → List (Nat × K))
    (hDO : ∀ r < R, prepare (nOther r) (links r) = some (DO r)) (msgs : Nat → List (Link × List K))
    (hm : ∀ r < R, ((msgs r).map Prod.fst).Perm (links r)) (G : Nat → Nat → K) (hg : ∀ r < R, ∀ m ∈ msgs r, Agrees (G r) m)
    (x : List K) (hx : x.length = n) (back : List (Link × Nat)) (hb : (back.map Prod.fst).Perm linksBack)
    (hback : ∀ b ∈ back, b.2 < R ∧ b.1.n = nOther b.2 ∧
      ∀ j (h1 : j < b.1.mine.length) (h2 : j < b.1.other.length), G b.2 b.1.other[j] = x.getD b.1.mine[j] 0) :
    transfer n D (back.map fun b => (b.1, transfer (nOther b.2) (DO b.2) (msgs b.2))) = x := by
  have h := transferred n linksBack hlb D hD (back.map fun b => (b.1, transfer (nOther b.2) (DO b.2) (msgs b.2)))
    (by rw [List.map_map]; exact hb) (fun i => x.getD i 0) (by
      intro m hm'
      obtain ⟨b, hb', rfl⟩ := List.mem_map.mp hm'
      obtain ⟨h1, h2, h3⟩ := hback b hb'
      have hf := hlb b.1 (hb.mem_iff.mp (List.mem_map_of_mem hb'))
      intro j hj
      dsimp only at hj ⊢
      have hj' : j < b.1.other.length := by have := hf.1; omega
      have h4 := hf.2.2 _ (List.getElem_mem hj')
      rw [List.getD_eq_getElem _ _ hj', (transferred _ _ (hl _ h1) _ (hDO _ h1) _ (hm _ h1) _ (hg _ h1)).2 _ (by omega), h3 j hj hj'])
  refine ext_getD' 0 _ _ (by rw [h.1, hx]) fun i hi => ?_
  rw [h.1] at hi
  exact h.2 i hi

/-- A case: three dofs, received from two ranks that share one of them; the second rank has its dofs in another order. -/
theorem sample_case :
    let links : List Link := [⟨[0, 1], [0, 1], 2⟩, ⟨[1, 2], [1, 0], 2⟩]
    prepare (K := ℚ) 3 links = some [(1, 1 / 2)] ∧
      transfer (K := ℚ) 3 [(1, 1 / 2)] [(⟨[1, 2], [1, 0], 2⟩, [7, 6]), (⟨[0, 1], [0, 1], 2⟩, [5, 6])] = [5, 6, 7] ∧
      prepare (K := ℚ) 4 links = none := by decide +kernel

end PyNucleus.Props.C126
