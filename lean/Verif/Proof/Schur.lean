import Verif.Model.Schur
import Verif.Props.C08
import Verif.Props.C09
import Verif.Proof.Blas
import Mathlib.Tactic.Ring
import Mathlib.Data.List.GetD
import Mathlib.Data.List.Perm.Lattice
import Mathlib.Data.List.NodupEquivFin

namespace PyNucleus.Schur

open PyNucleus.Loops PyNucleus.Spec PyNucleus.CSR PyNucleus.Blas PyNucleus.Props

variable {K : Type} [CommRing K]

theorem others_mem (n : Nat) (indices : List Nat) (d : Nat) : d ∈ others n indices ↔ d < n ∧ d ∉ indices := by
  have key : ∀ (l : List Nat) (t : List Bool), (l.foldl (fun t dof => t.set dof false) t).getD d false = (t.getD d false && !decide (d ∈ l)) := by
    intro l
    induction l with
    | nil => intro t; simp
    | cons a l ih =>
      intro t
      rw [List.foldl_cons, ih, List.getD_eq_getElem?_getD, List.getElem?_set]
      by_cases e : a = d
      · subst e
        rw [if_pos rfl]
        split <;> simp
      · rw [if_neg e, ← List.getD_eq_getElem?_getD]
        congr 2
        simp [List.mem_cons, Ne.symm e]
  unfold others
  dsimp only
  rw [List.mem_filter, List.mem_range, key]
  constructor
  · rintro ⟨h1, h2⟩
    simp [List.getD_eq_getElem?_getD, h1] at h2
    exact ⟨h1, h2⟩
  · rintro ⟨h1, h2⟩
    refine ⟨h1, ?_⟩
    simp [List.getD_eq_getElem?_getD, h1, h2]

theorem others_nodup (n : Nat) (indices : List Nat) : (others n indices).Nodup := List.Nodup.filter _ List.nodup_range

theorem perm {n : Nat} {indices : List Nat} (hn : indices.Nodup) (hlt : ∀ i ∈ indices, i < n) : (indices ++ others n indices).Perm (List.range n) := by
  refine (List.perm_ext_iff_of_nodup ?_ List.nodup_range).2 fun d => ?_
  · refine List.Nodup.append hn (others_nodup n indices) fun d h1 h2 => ((others_mem n indices d).1 h2).2 h1
  · rw [List.mem_append, others_mem, List.mem_range]
    constructor
    · rintro (h | h)
      · exact hlt d h
      · exact h.1
    · intro h
      by_cases q : d ∈ indices
      · exact Or.inl q
      · exact Or.inr ⟨h, q⟩

theorem sum_getD {M : Type} [AddCommMonoid M] (l : List Nat) (f : Nat → M) : (l.map f).sum = ∑ j ∈ Finset.range l.length, f (l.getD j 0) := by
  induction l with
  | nil => rfl
  | cons a l ih =>
    rw [List.map_cons, List.sum_cons, ih, List.length_cons, Finset.sum_range_succ', add_comm]
    rfl

/-- A sum over all dofs in two parts. -/
theorem sum_split {n : Nat} {indices : List Nat} (hn : indices.Nodup) (hlt : ∀ i ∈ indices, i < n) (f : Nat → K) :
    ∑ d ∈ Finset.range n, f d = (∑ j ∈ Finset.range indices.length, f (indices.getD j 0)) + ∑ j ∈ Finset.range (others n indices).length, f ((others n indices).getD j 0) := by
  rw [← sum_getD, ← sum_getD, ← List.sum_append, ← List.map_append, ((perm hn hlt).map f).sum_eq]
  have h := sum_getD (List.range n) f
  rw [List.length_range] at h
  rw [h]
  refine Finset.sum_congr rfl fun d hd => ?_
  have hd := Finset.mem_range.1 hd
  rw [List.getD_eq_getElem?_getD, List.getElem?_range hd]; rfl

theorem selection_row (n : Nat) (indices : List Nat) {i : Nat} (hi : i < indices.length) : (selection (K := K) n indices).row i = [(indices.getD i 0, 1)] := by
  unfold CSR.row csrRow selection
  dsimp only
  have e : ∀ k, k < indices.length + 1 → (List.range (indices.length + 1)).getD k 0 = k := fun k hk => by
    rw [List.getD_eq_getElem?_getD, List.getElem?_range hk]; rfl
  rw [e i (by omega), e (i + 1) (by omega), show i + 1 - i = 1 by omega]
  apply List.ext_getElem
  · rw [List.length_take, List.length_drop, List.length_zip, List.length_replicate, List.length_singleton]; omega
  · intro k h1 h2
    have : k = 0 := by simpa using h2
    subst this
    rw [List.getElem_take, List.getElem_drop, List.getElem_zip, List.getElem_replicate, List.getElem_singleton, List.getD_eq_getElem _ _ hi]
    rfl

theorem selection_valid (n : Nat) (indices : List Nat) (hlt : ∀ i ∈ indices, i < n) : (selection (K := K) n indices).Valid where
  indptr := by
    unfold selection
    dsimp only
    refine ⟨by rw [List.length_range], by rw [List.getElem?_range (by omega)], by rw [List.getElem?_range (by omega)], fun i hi => ?_⟩
    rw [List.getD_eq_getElem?_getD, List.getD_eq_getElem?_getD, List.getElem?_range (by omega), List.getElem?_range (by omega)]
    exact Nat.le_succ i
  data := List.length_replicate
  cols := hlt

theorem selection_entry (n : Nat) (indices : List Nat) {i : Nat} (hi : i < indices.length) (j : Nat) :
    (selection (K := K) n indices).entry i j = if indices.getD i 0 = j then 1 else 0 := by
  unfold CSR.entry
  rw [selection_row n indices hi]
  by_cases e : indices.getD i 0 = j
  · rw [if_pos e, List.filter_cons_of_pos (by simpa using e)]; simp
  · rw [if_neg e, List.filter_cons_of_neg (by simpa using e)]; simp

/-- The operator applies the matrix `a`. -/
def Applies (n : Nat) (A : List K → List K → List K) (a : Nat → Nat → K) : Prop :=
  ∀ x y, y.length = n → (A x y).length = n ∧ ∀ i < n, (A x y).getD i 0 = mulVec n a x i

theorem getD_lt {n : Nat} {l : List Nat} (hlt : ∀ i ∈ l, i < n) {j : Nat} (hj : j < l.length) : l.getD j 0 < n := by
  rw [List.getD_eq_getElem _ _ hj]; exact hlt _ (List.getElem_mem hj)

/-- Products with blocks. -/
theorem inner_eq {S : Data K} {a : Nat → Nat → K} (hA : Applies S.n S.A a) (ht1 : S.temp1.length = S.n) (ht2 : S.temp2.length = S.n) {J : List Nat} (hJ : ∀ i ∈ J, i < S.n)
    (u : List Nat) (v : List K) (hu : u.length = J.length) (hv : v.length = J.length) (x : List K) :
    ∀ c < S.n, (S.A (matvec false (transpose (selection S.n J) u v) x S.temp1) S.temp2).getD c 0 = ∑ j ∈ Finset.range J.length, a c (J.getD j 0) * x.getD j 0 := by
  intro c hc
  obtain ⟨t1, t2, t3, _, t5⟩ := C09.transpose_correct (selection (K := K) S.n J) (selection_valid S.n J hJ) u v hu hv
  obtain ⟨_, e⟩ := C08.matvec_correct false (transpose (selection (K := K) S.n J) u v) t3 x S.temp1 (by rw [t1]; exact ht1)
  rw [(hA _ _ ht2).2 c hc]
  unfold mulVec at *
  have hd : ∀ d ∈ Finset.range S.n, a c d * (matvec false (transpose (selection (K := K) S.n J) u v) x S.temp1).getD d 0 =
      ∑ j ∈ Finset.range J.length, a c d * ((if J.getD j 0 = d then 1 else 0) * x.getD j 0) := by
    intro d hd
    have hd := Finset.mem_range.1 hd
    rw [e d (by rw [t1]; exact hd), t2, Finset.mul_sum]
    refine Finset.sum_congr rfl fun j hj => ?_
    rw [t5 j d (Finset.mem_range.1 hj) hd, selection_entry S.n J (Finset.mem_range.1 hj)]
  rw [Finset.sum_congr rfl hd, Finset.sum_comm]
  refine Finset.sum_congr rfl fun j hj => ?_
  rw [Finset.sum_eq_single_of_mem (J.getD j 0) (Finset.mem_range.2 (getD_lt hJ (Finset.mem_range.1 hj)))]
  · rw [if_pos rfl, one_mul]
  · intro d _ hne
    rw [if_neg (Ne.symm hne), zero_mul, mul_zero]

theorem select_mulVec {n : Nat} {I : List Nat} (hI : ∀ i ∈ I, i < n) (w : List K) {i : Nat} (hi : i < I.length) :
    mulVec n (selection (K := K) n I).entry w i = w.getD (I.getD i 0) 0 := by
  unfold mulVec
  rw [Finset.sum_eq_single_of_mem (I.getD i 0) (Finset.mem_range.2 (getD_lt hI hi))]
  · rw [selection_entry n I hi, if_pos rfl, one_mul]
  · intro d _ hne
    rw [selection_entry n I hi, if_neg (Ne.symm hne), zero_mul]

theorem block_eq {S : Data K} {a : Nat → Nat → K} (hA : Applies S.n S.A a) (ht1 : S.temp1.length = S.n) (ht2 : S.temp2.length = S.n) {I J : List Nat} (hI : ∀ i ∈ I, i < S.n)
    (hJ : ∀ i ∈ J, i < S.n) (u : List Nat) (v : List K) (hu : u.length = J.length) (hv : v.length = J.length) (x y : List K) (hy : y.length = I.length) :
    (block S (selection S.n I) (transpose (selection S.n J) u v) x y).length = I.length ∧
    (∀ i < I.length, (block S (selection S.n I) (transpose (selection S.n J) u v) x y).getD i 0 = ∑ j ∈ Finset.range J.length, a (I.getD i 0) (J.getD j 0) * x.getD j 0) ∧
    (blockNoOverwrite S (selection S.n I) (transpose (selection S.n J) u v) x y).length = I.length ∧
    ∀ i < I.length, (blockNoOverwrite S (selection S.n I) (transpose (selection S.n J) u v) x y).getD i 0 = y.getD i 0 + ∑ j ∈ Finset.range J.length, a (I.getD i 0) (J.getD j 0) * x.getD j 0 := by
  obtain ⟨l1, e1⟩ := C08.matvec_correct false (selection (K := K) S.n I) (selection_valid S.n I hI) (S.A (matvec false (transpose (selection S.n J) u v) x S.temp1) S.temp2) y hy
  obtain ⟨l2, e2⟩ := C08.matvec_no_overwrite_correct false (selection (K := K) S.n I) (selection_valid S.n I hI) (S.A (matvec false (transpose (selection S.n J) u v) x S.temp1) S.temp2) y hy
  have hin := inner_eq hA ht1 ht2 hJ u v hu hv x
  refine ⟨l1, fun i hi => ?_, l2, fun i hi => ?_⟩
  · unfold block
    rw [e1 i hi]
    exact (select_mulVec hI _ hi).trans (hin _ (getD_lt hI hi))
  · unfold blockNoOverwrite
    rw [e2 i hi]
    congr 1
    exact (select_mulVec hI _ hi).trans (hin _ (getD_lt hI hi))

/-- The vector with entries `x` at `I` and `w` at the other dofs. -/
def extend (n : Nat) (I : List Nat) (x w : List K) : List K :=
  (List.range n).map fun d => if d ∈ I then x.getD (I.idxOf d) 0 else w.getD ((others n I).idxOf d) 0

theorem extend_getD {n : Nat} {I : List Nat} (hn : I.Nodup) (hlt : ∀ i ∈ I, i < n) (x w : List K) :
    (∀ i < I.length, (extend n I x w).getD (I.getD i 0) 0 = x.getD i 0) ∧ ∀ j < (others n I).length, (extend n I x w).getD ((others n I).getD j 0) 0 = w.getD j 0 := by
  have e : ∀ d < n, (extend n I x w).getD d 0 = if d ∈ I then x.getD (I.idxOf d) 0 else w.getD ((others n I).idxOf d) 0 := fun d hd => by
    unfold extend
    rw [List.getD_eq_getElem?_getD, List.getElem?_map, List.getElem?_range hd]; rfl
  constructor
  · intro i hi
    rw [e _ (getD_lt hlt hi), List.getD_eq_getElem _ _ hi, if_pos (List.getElem_mem hi), List.Nodup.idxOf_getElem hn]
  · intro j hj
    have hm := (others_mem n I ((others n I).getD j 0)).1 (by rw [List.getD_eq_getElem _ _ hj]; exact List.getElem_mem hj)
    rw [e _ hm.1, if_neg hm.2, List.getD_eq_getElem _ _ hj, List.Nodup.idxOf_getElem (others_nodup n I)]

end PyNucleus.Schur
