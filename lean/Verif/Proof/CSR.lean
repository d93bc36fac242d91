import Verif.Model.CSR
import Verif.Proof.Loops
import Mathlib.Algebra.BigOperators.Group.List.Basic
import Mathlib.Tactic.Ring

/-! Helper lemmas on the CSR kernels. -/

namespace PyNucleus.CSR

open PyNucleus.Loops PyNucleus.Spec

variable {K : Type}

theorem ValidIndptr.le_nnz {p : List Nat} {n nnz : Nat} (h : ValidIndptr p n nnz) :
    ∀ i, i ≤ n → p.getD i 0 ≤ nnz := by
  have : ∀ k, k ≤ n → p.getD (n - k) 0 ≤ nnz := by
    intro k
    induction k with
    | zero =>
      intro _
      rw [Nat.sub_zero, List.getD_eq_getElem?_getD, h.last]
      exact Nat.le_refl _
    | succ k ih =>
      intro hk
      have h1 := h.mono (n - (k + 1)) (by omega)
      rw [show n - (k + 1) + 1 = n - k by omega] at h1
      have := ih (by omega)
      omega
  intro i hi
  have := this (n - i) (by omega)
  rwa [show n - (n - i) = i by omega] at this

/-- The row loop is a fold over the stored entries of the row. -/
theorem forRow_eq {σ : Type} [Zero K] (A : CSR K) (hA : A.Valid) (i : Nat) (hi : i < A.numRows)
    (s : σ) (f : σ → Nat → K → σ) :
    forRow A i s f = (A.row i).foldl (fun s e => f s e.1 e.2) s := by
  have hz : (A.indices.zip A.data).length = A.indices.length := by
    rw [List.length_zip, hA.data]; omega
  have hle := ValidIndptr.le_nnz hA.indptr (i + 1) (by omega)
  unfold forRow CSR.row csrRow
  rw [← forRange_slice (A.indices.zip A.data) (0, 0) _ _ (by omega)]
  apply forRange_congr
  intro s k _ hk
  have hk1 : k < A.indices.length := by omega
  have hk2 : k < A.data.length := by rw [hA.data]; omega
  have : (A.indices.zip A.data).getD k (0, 0) = (A.indices.getD k 0, A.data.getD k 0) := by
    simp only [List.getD_eq_getElem?_getD]
    rw [List.getElem?_eq_getElem (by omega), List.getElem?_eq_getElem hk1,
      List.getElem?_eq_getElem hk2]
    simp
  rw [this]

theorem row_cols (A : CSR K) (hA : A.Valid) (i : Nat) : ∀ e ∈ A.row i, e.1 < A.numCols := by
  intro e he
  have h1 : e ∈ A.indices.zip A.data := List.mem_of_mem_drop (List.mem_of_mem_take he)
  obtain ⟨a, b⟩ := e
  exact hA.cols a (List.of_mem_zip h1).1

/-- A fold that adds is the start plus the list sum. -/
theorem foldl_add {α : Type} [AddCommMonoid K] (l : List α) (f : α → K) : ∀ s : K,
    l.foldl (fun s e => s + f e) s = s + (l.map f).sum := by
  induction l with
  | nil => intro s; simp
  | cons a t ih => intro s; rw [List.foldl_cons, ih, List.map_cons, List.sum_cons, add_assoc]

/-- Summing row entries against `x` groups by column. -/
theorem sum_row_eq [CommSemiring K] (l : List (Nat × K)) (n : Nat) (hl : ∀ e ∈ l, e.1 < n)
    (g : Nat → K) :
    (l.map fun e => e.2 * g e.1).sum =
      ∑ j ∈ Finset.range n, ((l.filter fun e => e.1 = j).map Prod.snd).sum * g j := by
  induction l with
  | nil => simp
  | cons a t ih =>
    have hterm : ∀ j, (((a :: t).filter fun e => e.1 = j).map Prod.snd).sum * g j =
        (if j = a.1 then a.2 * g a.1 else 0) + ((t.filter fun e => e.1 = j).map Prod.snd).sum * g j := by
      intro j
      rw [List.filter_cons]
      by_cases h : a.1 = j
      · subst h
        simp [add_mul]
      · have h' : ¬ j = a.1 := fun e => h e.symm
        simp [h, h']
    rw [List.map_cons, List.sum_cons, ih (fun e he => hl e (List.mem_cons_of_mem _ he)),
      Finset.sum_congr rfl (fun j _ => hterm j), Finset.sum_add_distrib]
    rw [Finset.sum_ite_eq' (Finset.range n) a.1, if_pos (Finset.mem_range.2 (hl a (by simp)))]

theorem rowSum_eq [CommSemiring K] (A : CSR K) (hA : A.Valid) (x : List K) (i : Nat)
    (hi : i < A.numRows) : rowSum A x i = mulVec A.numCols A.entry x i := by
  unfold rowSum mulVec CSR.entry
  rw [forRow_eq A hA i hi, foldl_add, zero_add]
  exact sum_row_eq _ _ (row_cols A hA i) fun j => x.getD j 0

/-- A loop that writes entry `i` once, from a value that depends on the old entry only. -/
theorem forRange_set [Zero K] (y : List K) (n : Nat) (hn : n ≤ y.length) (g : Nat → K → K) :
    (forRange 0 n y fun y i => y.set i (g i (y.getD i 0))).length = y.length ∧
    ∀ i, (forRange 0 n y fun y i => y.set i (g i (y.getD i 0))).getD i 0 =
      if i < n then g i (y.getD i 0) else y.getD i 0 := by
  induction n with
  | zero => exact ⟨rfl, fun i => by simp [forRange]⟩
  | succ n ih =>
    obtain ⟨h1, h2⟩ := ih (by omega)
    rw [forRange_succ]
    refine ⟨by rw [List.length_set, h1], fun i => ?_⟩
    rw [getD_set, h1, h2 n, if_neg (Nat.lt_irrefl n), h2 i]
    by_cases hin : n = i
    · subst hin
      rw [if_pos (show n = n ∧ n < y.length from ⟨rfl, by omega⟩), if_pos (show n < n + 1 by omega)]
    · rw [if_neg (show ¬ (n = i ∧ i < y.length) from fun h => hin h.1)]
      by_cases hlt : i < n
      · rw [if_pos hlt, if_pos (show i < n + 1 by omega)]
      · rw [if_neg hlt, if_neg (show ¬ i < n + 1 by omega)]

theorem spmvRows_eq [CommSemiring K] (A : CSR K) (hA : A.Valid) (x y : List K)
    (hy : A.numRows ≤ y.length) (ow : Bool) :
    (spmvRows A x y ow).length = y.length ∧ ∀ i, (spmvRows A x y ow).getD i 0 =
      if i < A.numRows then (if ow then 0 else y.getD i 0) + mulVec A.numCols A.entry x i
      else y.getD i 0 := by
  have hl : A.indptr.length - 1 = A.numRows := by rw [hA.indptr.length]; rfl
  have h := forRange_set y A.numRows hy fun i o => (if ow then 0 else o) + mulVec A.numCols A.entry x i
  have e : spmvRows A x y ow =
      forRange 0 A.numRows y fun y i =>
        y.set i ((if ow then 0 else y.getD i 0) + mulVec A.numCols A.entry x i) := by
    unfold spmvRows
    rw [hl]
    apply forRange_congr
    intro s k _ hk
    rw [rowSum_eq A hA x k hk]
    cases ow <;> simp
  rw [e]
  exact h

/-- Scatter-add over a list of pairs. -/
theorem foldl_modify_add {α : Type} [AddCommMonoid K] (l : List α) (k : α → Nat) (v : α → K) :
    ∀ y : List K, (l.foldl (fun y e => y.modify (k e) (· + v e)) y).length = y.length ∧
      ∀ j, j < y.length → (l.foldl (fun y e => y.modify (k e) (· + v e)) y).getD j 0 =
        y.getD j 0 + ((l.filter fun e => k e = j).map v).sum := by
  induction l with
  | nil => intro y; exact ⟨rfl, fun j _ => by simp⟩
  | cons a t ih =>
    intro y
    obtain ⟨h1, h2⟩ := ih (y.modify (k a) (· + v a))
    refine ⟨by rw [List.foldl_cons, h1, List.length_modify], fun j hj => ?_⟩
    rw [List.foldl_cons, h2 j (by rw [List.length_modify]; exact hj), getD_modify, List.filter_cons]
    by_cases h : k a = j
    · rw [if_pos ⟨h, hj⟩]; simp [h, add_assoc]
    · rw [if_neg (fun hh => h hh.1)]; simp [h]

theorem sum_map_mul_right [CommSemiring K] (l : List (Nat × K)) (c : K) :
    (l.map fun e => e.2 * c).sum = (l.map Prod.snd).sum * c := by
  induction l with
  | nil => simp
  | cons a t ih => simp [ih, add_mul]

theorem spmvTrans_rows [CommSemiring K] (A : CSR K) (hA : A.Valid) (x y : List K) (n : Nat)
    (hn : n ≤ A.numRows) :
    let r := forRange 0 n y fun y i =>
      let temp := x.getD i 0
      forRow A i y fun y j d => y.modify j (· + d * temp)
    r.length = y.length ∧ ∀ j, j < y.length →
      r.getD j 0 = y.getD j 0 + ∑ i ∈ Finset.range n, A.entry i j * x.getD i 0 := by
  induction n with
  | zero => exact ⟨rfl, fun j _ => by simp [forRange]⟩
  | succ n ih =>
    obtain ⟨h1, h2⟩ := ih (by omega)
    simp only at h1 h2 ⊢
    rw [forRange_succ, forRow_eq A hA n (by omega)]
    have h := foldl_modify_add (A.row n) (fun e => e.1) (fun e => e.2 * x.getD n 0)
      (forRange 0 n y fun y i => forRow A i y fun y j d => y.modify j (· + d * x.getD i 0))
    refine ⟨by rw [h.1, h1], fun j hj => ?_⟩
    rw [h.2 j (by rw [h1]; exact hj), h2 j hj, sum_map_mul_right, Finset.sum_range_succ, add_assoc]
    rfl

theorem zeroOut [Zero K] (y : List K) :
    (forRange 0 y.length y fun y i => y.set i 0).length = y.length ∧
    ∀ i, (forRange 0 y.length y fun y i => y.set i (0 : K)).getD i 0 = 0 := by
  have h := forRange_set y y.length (Nat.le_refl _) fun _ _ => 0
  refine ⟨h.1, fun i => ?_⟩
  rw [h.2 i]
  by_cases hi : i < y.length
  · rw [if_pos hi]
  · rw [if_neg hi, List.getD_eq_getElem?_getD, List.getElem?_eq_none_iff.2 (by omega)]; rfl

theorem spmvTrans_eq [CommSemiring K] (A : CSR K) (hA : A.Valid) (x y : List K) (ow : Bool) :
    (spmvTrans A x y ow).length = y.length ∧ ∀ j, j < y.length →
      (spmvTrans A x y ow).getD j 0 = (if ow then 0 else y.getD j 0) +
        mulVec A.numRows (fun j i => A.entry i j) x j := by
  have hl : A.indptr.length - 1 = A.numRows := by rw [hA.indptr.length]; rfl
  unfold spmvTrans
  rw [hl]
  cases ow with
  | false =>
    have h := spmvTrans_rows A hA x y A.numRows (Nat.le_refl _)
    exact ⟨h.1, fun j hj => h.2 j hj⟩
  | true =>
    have hz := zeroOut y
    have h := spmvTrans_rows A hA x (forRange 0 y.length y fun y i => y.set i 0) A.numRows
      (Nat.le_refl _)
    refine ⟨by simpa [hz.1] using h.1, fun j hj => ?_⟩
    have := h.2 j (by rw [hz.1]; exact hj)
    rw [hz.2 j] at this
    exact this

theorem foldl_sub {α : Type} [CommRing K] (l : List α) (f : α → K) : ∀ s : K,
    l.foldl (fun s e => s - f e) s = s - (l.map f).sum := by
  induction l with
  | nil => intro s; simp
  | cons a t ih => intro s; rw [List.foldl_cons, ih, List.map_cons, List.sum_cons, sub_sub]

end PyNucleus.CSR
