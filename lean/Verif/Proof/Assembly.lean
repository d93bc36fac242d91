import Verif.Model.Assembly
import Verif.Spec.SimplexPolynomial
import Verif.Proof.Galerkin2
import Mathlib.Algebra.BigOperators.Intervals

/-! Loops over the upper triangle of local matrices. -/

namespace PyNucleus.Assembly

open PyNucleus.Loops PyNucleus.Spec PyNucleus.Galerkin PyNucleus.SSS
open PyNucleus.Simplex (upper)

variable {K σ : Type}

theorem range'_eq_map (a m : Nat) : List.range' a m = (List.range m).map fun k => a + k := by
  rw [List.range_eq_range', List.map_add_range']
  simp

/-- Nested loops over `j` and `k ≥ j`. -/
theorem forRange_upper (n : Nat) (g : σ → Nat → Nat → σ) (r : σ) :
    (forRange 0 n r fun r j => forRange j n r fun r k => g r j k) = (upper n).foldl (fun r q => g r q.1 q.2) r := by
  unfold upper
  rw [foldl_flatMap', ← forRange_zero]
  refine forRange_congr _ _ _ _ _ fun s j _ _ => ?_
  unfold forRange
  rw [range'_eq_map, List.foldl_map, List.foldl_map]

/-- Rectangular loops. -/
theorem forRange_rect (n m : Nat) (g : σ → Nat → Nat → σ) (r : σ) :
    (forRange 0 n r fun r j => forRange 0 m r fun r k => g r j k) =
      ((List.range n).flatMap fun j => (List.range m).map fun k => (j, k)).foldl (fun r q => g r q.1 q.2) r := by
  rw [foldl_flatMap', ← forRange_zero]
  refine forRange_congr _ _ _ _ _ fun s j _ _ => ?_
  rw [List.foldl_map, ← forRange_zero]

/-- The counter enumerates the local array. -/
theorem counter {α : Type} [Zero K] (f : σ → α → K → σ) (M : α → K) : ∀ (l : List α) (pre : List K) (A : σ),
    l.foldl (fun (r : Nat × σ) q => (r.1 + 1, f r.2 q ((pre ++ l.map M).getD r.1 0))) (pre.length, A) =
      (pre.length + l.length, l.foldl (fun A q => f A q (M q)) A) := by
  intro l
  induction l with
  | nil => intro pre A; rfl
  | cons q t ih =>
    intro pre A
    have h := ih (pre ++ [M q]) (f A q (M q))
    rw [List.length_append, List.length_singleton, List.append_assoc, List.singleton_append] at h
    rw [List.foldl_cons, List.map_cons]
    dsimp only
    rw [show (pre ++ M q :: t.map M).getD pre.length 0 = M q by simp [List.getD_eq_getElem?_getD]]
    rw [h, List.length_cons, List.foldl_cons]
    congr 1
    omega

/-- A loop over all pairs with the local array. -/
theorem upper_loop [Zero K] (n : Nat) (M : Nat → Nat → K) (f : σ → Nat → Nat → K → σ) (A : σ) :
    (forRange 0 n (0, A) fun r j => forRange j n r fun r k => (r.1 + 1, f r.2 j k (((upper n).map fun q => M q.1 q.2).getD r.1 0))).2 =
      (upper n).foldl (fun A q => f A q.1 q.2 (M q.1 q.2)) A := by
  rw [forRange_upper n (fun r j k => (r.1 + 1, f r.2 j k (((upper n).map fun q => M q.1 q.2).getD r.1 0)))]
  have h := counter (fun A q v => f A q.1 q.2 v) (fun q : Nat × Nat => M q.1 q.2) (upper n) [] A
  rw [List.nil_append] at h
  exact congrArg Prod.snd h

theorem rect_loop [Zero K] (n m : Nat) (M : Nat → Nat → K) (f : σ → Nat → Nat → K → σ) (A : σ) :
    (forRange 0 n (0, A) fun r j => forRange 0 m r fun r k =>
      (r.1 + 1, f r.2 j k (((List.range n).flatMap fun j => (List.range m).map fun k => M j k).getD r.1 0))).2 =
      ((List.range n).flatMap fun j => (List.range m).map fun k => (j, k)).foldl (fun A q => f A q.1 q.2 (M q.1 q.2)) A := by
  have e : ((List.range n).flatMap fun j => (List.range m).map fun k => M j k) =
      ((List.range n).flatMap fun j => (List.range m).map fun k => (j, k)).map fun q => M q.1 q.2 := by
    rw [List.map_flatMap]
    simp only [List.map_map]
    rfl
  rw [e, forRange_rect n m (fun r j k => (r.1 + 1, f r.2 j k ((((List.range n).flatMap fun j => (List.range m).map fun k => (j, k)).map fun q => M q.1 q.2).getD r.1 0)))]
  have h := counter (fun A q v => f A q.1 q.2 v) (fun q : Nat × Nat => M q.1 q.2) ((List.range n).flatMap fun j => (List.range m).map fun k => (j, k)) [] A
  rw [List.nil_append] at h
  exact congrArg Prod.snd h

/-- Skipping a row. -/
theorem skip (lo hi : Nat) (r : Nat × σ) : forRange lo hi r (fun r _ => (r.1 + 1, r.2)) = (r.1 + (hi - lo), r.2) := by
  unfold forRange
  generalize hi - lo = m
  induction m generalizing lo r with
  | zero => rfl
  | succ m ih => rw [List.range'_succ, List.foldl_cons, ih]; congr 1; dsimp only; omega

/-- Calls for a pair of local dofs. -/
def symPairs (I J : Int) : List (Nat × Nat) :=
  if I < 0 ∨ J < 0 then [] else if I = J then [(I.toNat, I.toNat)] else [(I.toNat, J.toNat), (J.toNat, I.toNat)]

/-- The same in symmetric storage. -/
def sssPairs (I J : Int) : List (Nat × Nat) :=
  if I < 0 ∨ J < 0 then [] else if I < J then [(J.toNat, I.toNat)] else [(I.toNat, J.toNat)]

/-- All calls of a cell. -/
def cellItems (pairs : Int → Int → List (Nat × Nat)) (n : Nat) (dofs : List Int) (M : Nat → Nat → K) : List (Nat × Nat × K) :=
  (upper n).flatMap fun q => (pairs (dofs.getD q.1 0) (dofs.getD q.2 0)).map fun e => (e.1, e.2, M q.1 q.2)

theorem symCell_eq (add : σ → Nat → Nat → K → σ) [Zero K] (n : Nat) (dofs : List Int) (M : Nat → Nat → K) (A : σ) :
    symCell add n dofs ((upper n).map fun q => M q.1 q.2) A = (cellItems symPairs n dofs M).foldl (fun A e => add A e.1 e.2.1 e.2.2) A := by
  unfold cellItems
  rw [foldl_flatMap']
  have h := upper_loop n M (fun A j k v => ((symPairs (dofs.getD j 0) (dofs.getD k 0)).map fun e => (e.1, e.2, v)).foldl (fun A e => add A e.1 e.2.1 e.2.2) A) A
  rw [← h]
  unfold symCell
  dsimp only
  congr 1
  refine forRange_congr _ _ _ _ _ fun r j _ _ => ?_
  unfold symPairs
  by_cases hI : dofs.getD j 0 < 0
  · rw [if_pos hI, ← skip]
    refine forRange_congr _ _ _ _ _ fun r k _ _ => ?_
    rw [if_pos (Or.inl hI)]
    rfl
  · rw [if_neg hI]
    refine forRange_congr _ _ _ _ _ fun r k _ _ => ?_
    by_cases hJ : dofs.getD k 0 < 0
    · rw [if_pos hJ, if_pos (Or.inr hJ)]; rfl
    · rw [if_neg hJ, if_neg (show ¬ (dofs.getD j 0 < 0 ∨ dofs.getD k 0 < 0) by tauto)]
      split <;> rfl

theorem sssCell_eq (add : σ → Nat → Nat → K → σ) [Zero K] (n : Nat) (dofs : List Int) (M : Nat → Nat → K) (A : σ) :
    sssCell add n dofs ((upper n).map fun q => M q.1 q.2) A = (cellItems sssPairs n dofs M).foldl (fun A e => add A e.1 e.2.1 e.2.2) A := by
  unfold cellItems
  rw [foldl_flatMap']
  have h := upper_loop n M (fun A j k v => ((sssPairs (dofs.getD j 0) (dofs.getD k 0)).map fun e => (e.1, e.2, v)).foldl (fun A e => add A e.1 e.2.1 e.2.2) A) A
  rw [← h]
  unfold sssCell
  dsimp only
  congr 1
  refine forRange_congr _ _ _ _ _ fun r j _ hj => ?_
  unfold sssPairs
  by_cases hI : dofs.getD j 0 < 0
  · rw [if_pos hI, ← skip]
    refine forRange_congr _ _ _ _ _ fun r k _ _ => ?_
    rw [if_pos (Or.inl hI)]
    rfl
  · rw [if_neg hI]
    conv => rhs; unfold forRange
    rw [show n - j = (n - (j + 1)) + 1 by omega, List.range'_succ, List.foldl_cons]
    rw [if_neg (show ¬ (dofs.getD j 0 < 0 ∨ dofs.getD j 0 < 0) by tauto), if_neg (lt_irrefl _)]
    show forRange (j + 1) n _ _ = forRange (j + 1) n _ _
    refine forRange_congr _ _ _ _ _ fun r k _ _ => ?_
    by_cases hJ : dofs.getD k 0 < 0
    · rw [if_pos hJ, if_pos (Or.inr hJ)]; rfl
    · rw [if_neg hJ, if_neg (show ¬ (dofs.getD j 0 < 0 ∨ dofs.getD k 0 < 0) by tauto)]
      split <;> rfl

/-- Subtractions from the right hand side. -/
def rhsPairs [Ring K] (bdata : List K) (I J : Int) : List (Nat × K) :=
  if 0 ≤ I then if 0 ≤ J then [] else [(I.toNat, bdata.getD (-J - 1).toNat 0)]
  else if 0 ≤ J then [(J.toNat, bdata.getD (-I - 1).toNat 0)] else []

def rhsItems [Ring K] (bdata : List K) (n : Nat) (dofs : List Int) (M : Nat → Nat → K) : List (Nat × K) :=
  (upper n).flatMap fun q => (rhsPairs bdata (dofs.getD q.1 0) (dofs.getD q.2 0)).map fun e => (e.1, M q.1 q.2 * e.2)

theorem foldl_prod {α τ : Type} (l : List α) (f : σ → α → σ) (g : τ → α → τ) (s : σ) (t : τ) :
    l.foldl (fun r a => (f r.1 a, g r.2 a)) (s, t) = (l.foldl f s, l.foldl g t) := by
  induction l generalizing s t with
  | nil => rfl
  | cons a l ih => rw [List.foldl_cons, ih]; rfl

theorem boundary_eq (add : σ → Nat → Nat → K → σ) [Ring K] (n : Nat) (bdata : List K) (dofs : List Int) (M : Nat → Nat → K) (A : σ × List K) :
    symCellBoundary add n bdata dofs ((upper n).map fun q => M q.1 q.2) A =
      ((cellItems symPairs n dofs M).foldl (fun A e => add A e.1 e.2.1 e.2.2) A.1,
        (rhsItems bdata n dofs M).foldl (fun b e => b.modify e.1 (· - e.2)) A.2) ∧
    sssCellBoundary add n bdata dofs ((upper n).map fun q => M q.1 q.2) A =
      ((cellItems sssPairs n dofs M).foldl (fun A e => add A e.1 e.2.1 e.2.2) A.1,
        (rhsItems bdata n dofs M).foldl (fun b e => b.modify e.1 (· - e.2)) A.2) := by
  unfold cellItems rhsItems
  rw [foldl_flatMap', foldl_flatMap', foldl_flatMap', ← foldl_prod, ← foldl_prod]
  constructor
  · have h := upper_loop n M (fun A j k v => (((symPairs (dofs.getD j 0) (dofs.getD k 0)).map fun e => (e.1, e.2, v)).foldl (fun A e => add A e.1 e.2.1 e.2.2) A.1,
      ((rhsPairs bdata (dofs.getD j 0) (dofs.getD k 0)).map fun e => (e.1, v * e.2)).foldl (fun b e => b.modify e.1 (· - e.2)) A.2)) A
    rw [← h]
    unfold symCellBoundary
    dsimp only
    congr 1
    refine forRange_congr _ _ _ _ _ fun r j _ _ => forRange_congr _ _ _ _ _ fun r k _ _ => ?_
    congr 1
    unfold symPairs rhsPairs
    by_cases hI : 0 ≤ dofs.getD j 0 <;> by_cases hJ : 0 ≤ dofs.getD k 0
    · rw [if_pos hI, if_pos hJ, if_neg (show ¬ (dofs.getD j 0 < 0 ∨ dofs.getD k 0 < 0) by omega), if_pos hI, if_pos hJ]
      split <;> rfl
    · rw [if_pos hI, if_neg hJ, if_pos (show dofs.getD j 0 < 0 ∨ dofs.getD k 0 < 0 by omega), if_pos hI, if_neg hJ]; rfl
    · rw [if_neg hI, if_pos hJ, if_pos (show dofs.getD j 0 < 0 ∨ dofs.getD k 0 < 0 by omega), if_neg hI, if_pos hJ]; rfl
    · rw [if_neg hI, if_neg hJ, if_pos (show dofs.getD j 0 < 0 ∨ dofs.getD k 0 < 0 by omega), if_neg hI, if_neg hJ]; rfl
  · have h := upper_loop n M (fun A j k v => (((sssPairs (dofs.getD j 0) (dofs.getD k 0)).map fun e => (e.1, e.2, v)).foldl (fun A e => add A e.1 e.2.1 e.2.2) A.1,
      ((rhsPairs bdata (dofs.getD j 0) (dofs.getD k 0)).map fun e => (e.1, v * e.2)).foldl (fun b e => b.modify e.1 (· - e.2)) A.2)) A
    rw [← h]
    unfold sssCellBoundary
    dsimp only
    congr 1
    refine forRange_congr _ _ _ _ _ fun r j _ _ => forRange_congr _ _ _ _ _ fun r k _ _ => ?_
    congr 1
    unfold sssPairs rhsPairs
    by_cases hI : 0 ≤ dofs.getD j 0 <;> by_cases hJ : 0 ≤ dofs.getD k 0
    · rw [if_pos hI, if_pos hJ, if_neg (show ¬ (dofs.getD j 0 < 0 ∨ dofs.getD k 0 < 0) by omega), if_pos hI, if_pos hJ]
      by_cases he : dofs.getD j 0 = dofs.getD k 0
      · rw [if_pos he, if_neg (by omega), he]; rfl
      · rw [if_neg he]
        split <;> rfl
    · rw [if_pos hI, if_neg hJ, if_pos (show dofs.getD j 0 < 0 ∨ dofs.getD k 0 < 0 by omega), if_pos hI, if_neg hJ]; rfl
    · rw [if_neg hI, if_pos hJ, if_pos (show dofs.getD j 0 < 0 ∨ dofs.getD k 0 < 0 by omega), if_neg hI, if_pos hJ]; rfl
    · rw [if_neg hI, if_neg hJ, if_pos (show dofs.getD j 0 < 0 ∨ dofs.getD k 0 < 0 by omega), if_neg hI, if_neg hJ]; rfl

/-- Nonsymmetric calls. -/
def rectItems (n1 n2 : Nat) (dofs1 dofs2 : List Int) (M : Nat → Nat → K) : List (Nat × Nat × K) :=
  ((List.range n1).flatMap fun j => (List.range n2).map fun k => (j, k)).flatMap fun q =>
    if dofs1.getD q.1 0 < 0 ∨ dofs2.getD q.2 0 < 0 then [] else [((dofs1.getD q.1 0).toNat, (dofs2.getD q.2 0).toNat, M q.1 q.2)]

theorem nonsymCell_eq (put : σ → Nat → Nat → K → σ) [Zero K] (n1 n2 : Nat) (dofs1 dofs2 : List Int) (M : Nat → Nat → K) (A : σ) :
    nonsymCell put n1 n2 dofs1 dofs2 ((List.range n1).flatMap fun j => (List.range n2).map fun k => M j k) A =
      (rectItems n1 n2 dofs1 dofs2 M).foldl (fun A e => put A e.1 e.2.1 e.2.2) A := by
  unfold rectItems
  rw [foldl_flatMap']
  have h := rect_loop n1 n2 M (fun A j k v => (if dofs1.getD j 0 < 0 ∨ dofs2.getD k 0 < 0 then [] else
    [((dofs1.getD j 0).toNat, (dofs2.getD k 0).toNat, v)]).foldl (fun A e => put A e.1 e.2.1 e.2.2) A) A
  rw [← h]
  unfold nonsymCell
  dsimp only
  congr 1
  refine forRange_congr _ _ _ _ _ fun r j _ _ => ?_
  by_cases hI : dofs1.getD j 0 < 0
  · rw [if_pos hI, show n2 = n2 - 0 from rfl, ← skip]
    refine forRange_congr _ _ _ _ _ fun r k _ _ => ?_
    rw [if_pos (Or.inl hI)]
    rfl
  · rw [if_neg hI]
    refine forRange_congr _ _ _ _ _ fun r k _ _ => ?_
    by_cases hJ : dofs2.getD k 0 < 0
    · rw [if_pos hJ, if_pos (Or.inr hJ)]; rfl
    · rw [if_neg hJ, if_neg (by tauto)]; rfl

/-- Sums over the upper triangle. -/
theorem upper_sum [AddCommMonoid K] (n : Nat) (F : Nat × Nat → K) :
    ((upper n).map F).sum = ∑ j ∈ Finset.range n, ∑ k ∈ Finset.range n, if j ≤ k then F (j, k) else 0 := by
  unfold upper
  have h1 : ∀ (l : List Nat) (g : Nat → List (Nat × Nat)), ((l.flatMap g).map F).sum = (l.map fun j => ((g j).map F).sum).sum := by
    intro l g
    induction l with
    | nil => rfl
    | cons a t ih => rw [List.flatMap_cons, List.map_append, List.sum_append, ih, List.map_cons, List.sum_cons]
  have h2 : ∀ (m : Nat) (g : Nat → K), ((List.range m).map g).sum = ∑ j ∈ Finset.range m, g j := by
    intro m g
    induction m with
    | zero => rfl
    | succ m ih => rw [List.range_succ, List.map_append, List.sum_append, ih, Finset.sum_range_succ]; simp
  rw [h1, h2]
  refine Finset.sum_congr rfl fun j hj => ?_
  rw [List.map_map, h2, ← Finset.sum_filter]
  have : (Finset.range n).filter (fun k => j ≤ k) = Finset.Ico j n := by
    ext k; simp [Finset.mem_Ico]; omega
  rw [this, Finset.sum_Ico_eq_sum_range]
  rfl

/-- Symmetrised sums. -/
theorem upper_sum_sym [AddCommMonoid K] (n : Nat) (F : Nat × Nat → K) (G : Nat → Nat → K)
    (h : ∀ j k, j ≤ k → k < n → F (j, k) = if j = k then G j k else G j k + G k j) :
    ((upper n).map F).sum = ∑ j ∈ Finset.range n, ∑ k ∈ Finset.range n, G j k := by
  rw [upper_sum]
  have e : ∑ j ∈ Finset.range n, ∑ k ∈ Finset.range n, (if j ≤ k then F (j, k) else 0) =
      ∑ j ∈ Finset.range n, ∑ k ∈ Finset.range n, ((if j ≤ k then G j k else 0) + if j < k then G k j else 0) := by
    refine Finset.sum_congr rfl fun j hj => Finset.sum_congr rfl fun k hk => ?_
    rw [Finset.mem_range] at hj hk
    by_cases h1 : j ≤ k
    · rw [if_pos h1, if_pos h1, h j k h1 hk]
      by_cases h2 : j = k
      · rw [if_pos h2, if_neg (by omega), add_zero]
      · rw [if_neg h2, if_pos (by omega)]
    · rw [if_neg h1, if_neg h1, if_neg (by omega), add_zero]
  rw [e]
  simp only [Finset.sum_add_distrib]
  rw [Finset.sum_comm (f := fun j k => if j < k then G k j else 0), ← Finset.sum_add_distrib]
  refine Finset.sum_congr rfl fun j _ => ?_
  rw [← Finset.sum_add_distrib]
  refine Finset.sum_congr rfl fun k _ => ?_
  by_cases h1 : j ≤ k
  · rw [if_pos h1, if_neg (by omega), add_zero]
  · rw [if_neg h1, if_pos (by omega), zero_add]

/-- A cell: as many dofs as local shape functions, and the interior ones are distinct. -/
structure GoodRow (n numDofs : Nat) (dofs : List Int) : Prop where
  length : dofs.length = n
  lt : ∀ d ∈ dofs, d < numDofs
  distinct : ∀ j k, j < n → k < n → 0 ≤ dofs.getD j 0 → dofs.getD j 0 = dofs.getD k 0 → j = k

theorem contrib_sym [AddCommMonoid K] (n N : Nat) (dofs : List Int) (hd : GoodRow n N dofs) (M : Nat → Nat → K) (hs : ∀ j k, M j k = M k j) (I J : Nat) :
    contrib (cellItems symPairs n dofs M) I J = ∑ j ∈ Finset.range n, ∑ k ∈ Finset.range n, if dofs.getD j 0 = I ∧ dofs.getD k 0 = J then M j k else 0 := by
  unfold cellItems
  rw [contrib_flatMap']
  refine upper_sum_sym n _ _ fun j k hjk hk => ?_
  dsimp only
  unfold symPairs contrib
  by_cases h : dofs.getD j 0 < 0 ∨ dofs.getD k 0 < 0
  · rw [if_pos h]
    have : ¬ (dofs.getD j 0 = (I : Int) ∧ dofs.getD k 0 = (J : Int)) := by omega
    have h2 : ¬ (dofs.getD k 0 = (I : Int) ∧ dofs.getD j 0 = (J : Int)) := by omega
    rw [if_neg this, if_neg h2]
    simp
  · rw [if_neg h]
    by_cases he : j = k
    · subst he
      rw [if_pos rfl, if_pos rfl]
      simp only [List.map_cons, List.map_nil, List.sum_cons, List.sum_nil, add_zero]
      have : ((dofs.getD j 0).toNat = I ∧ (dofs.getD j 0).toNat = J) ↔ (dofs.getD j 0 = (I : Int) ∧ dofs.getD j 0 = (J : Int)) := by omega
      simp only [this]
    · have hne : dofs.getD j 0 ≠ dofs.getD k 0 := fun e => he (hd.distinct j k (by omega) hk (by omega) e)
      rw [if_neg hne, if_neg he]
      simp only [List.map_cons, List.map_nil, List.sum_cons, List.sum_nil, add_zero]
      have e1 : ((dofs.getD j 0).toNat = I ∧ (dofs.getD k 0).toNat = J) ↔ (dofs.getD j 0 = (I : Int) ∧ dofs.getD k 0 = (J : Int)) := by omega
      have e2 : ((dofs.getD k 0).toNat = I ∧ (dofs.getD j 0).toNat = J) ↔ (dofs.getD k 0 = (I : Int) ∧ dofs.getD j 0 = (J : Int)) := by omega
      simp only [e1, e2, hs k j]

theorem contrib_sss [AddCommMonoid K] (n N : Nat) (dofs : List Int) (hd : GoodRow n N dofs) (M : Nat → Nat → K) (hs : ∀ j k, M j k = M k j) (I J : Nat) (hJ : J ≤ I) :
    contrib (cellItems sssPairs n dofs M) I J = ∑ j ∈ Finset.range n, ∑ k ∈ Finset.range n, if dofs.getD j 0 = I ∧ dofs.getD k 0 = J then M j k else 0 := by
  rw [← contrib_sym n N dofs hd M hs I J]
  unfold cellItems
  rw [contrib_flatMap', contrib_flatMap']
  refine congrArg List.sum (List.map_congr_left fun q hq => ?_)
  unfold symPairs sssPairs contrib
  by_cases h : dofs.getD q.1 0 < 0 ∨ dofs.getD q.2 0 < 0
  · rw [if_pos h, if_pos h]
  · rw [if_neg h, if_neg h]
    by_cases he : dofs.getD q.1 0 = dofs.getD q.2 0
    · rw [if_pos he, if_neg (by omega), he]
    · rw [if_neg he]
      split
      · simp only [List.map_cons, List.map_nil, List.sum_cons, List.sum_nil, add_zero]
        rw [if_neg (show ¬ ((dofs.getD q.1 0).toNat = I ∧ (dofs.getD q.2 0).toNat = J) by omega), zero_add]
      · simp only [List.map_cons, List.map_nil, List.sum_cons, List.sum_nil, add_zero]
        rw [if_neg (show ¬ ((dofs.getD q.2 0).toNat = I ∧ (dofs.getD q.1 0).toNat = J) by omega), add_zero]

theorem contrib_rect [AddCommMonoid K] (n1 n2 : Nat) (dofs1 dofs2 : List Int) (M : Nat → Nat → K) (I J : Nat) :
    contrib (rectItems n1 n2 dofs1 dofs2 M) I J = ∑ j ∈ Finset.range n1, ∑ k ∈ Finset.range n2, if dofs1.getD j 0 = I ∧ dofs2.getD k 0 = J then M j k else 0 := by
  unfold rectItems
  rw [List.flatMap_assoc, contrib_flatMap]
  refine Finset.sum_congr rfl fun j _ => ?_
  rw [List.flatMap_map, contrib_flatMap]
  refine Finset.sum_congr rfl fun k _ => ?_
  unfold contrib
  by_cases h : dofs1.getD j 0 < 0 ∨ dofs2.getD k 0 < 0
  · rw [if_pos h, if_neg (by omega)]; rfl
  · rw [if_neg h]
    simp only [List.map_cons, List.map_nil, List.sum_cons, List.sum_nil, add_zero]
    have e1 : ((dofs1.getD j 0).toNat = I ∧ (dofs2.getD k 0).toNat = J) ↔ (dofs1.getD j 0 = (I : Int) ∧ dofs2.getD k 0 = (J : Int)) := by omega
    simp only [e1]

/-- Repeated subtraction. -/
theorem sub_fold [Ring K] (l : List (Nat × K)) (b : List K) (I : Nat) (hI : I < b.length) :
    (l.foldl (fun b e => b.modify e.1 (· - e.2)) b).length = b.length ∧
    (l.foldl (fun b e => b.modify e.1 (· - e.2)) b).getD I 0 = b.getD I 0 - (l.map fun e => if e.1 = I then e.2 else 0).sum := by
  induction l generalizing b with
  | nil => simp
  | cons e t ih =>
    rw [List.foldl_cons]
    obtain ⟨h1, h2⟩ := ih (b.modify e.1 (· - e.2)) (by rw [List.length_modify]; exact hI)
    refine ⟨by rw [h1, List.length_modify], ?_⟩
    rw [h2, getD_modify, List.map_cons, List.sum_cons]
    by_cases he : e.1 = I
    · rw [if_pos ⟨he, hI⟩, if_pos he, sub_sub]
    · rw [if_neg (fun h => he h.1), if_neg he, zero_add]

theorem rhs_sum [Ring K] (bdata : List K) (n : Nat) (dofs : List Int) (M : Nat → Nat → K) (hs : ∀ j k, M j k = M k j) (I : Nat) :
    ((rhsItems bdata n dofs M).map fun e => if e.1 = I then e.2 else 0).sum =
      ∑ j ∈ Finset.range n, ∑ k ∈ Finset.range n, if dofs.getD j 0 = I ∧ dofs.getD k 0 < 0 then M j k * bdata.getD (-dofs.getD k 0 - 1).toNat 0 else 0 := by
  unfold rhsItems
  have h1 : ∀ (l : List (Nat × Nat)) (g : Nat × Nat → List (Nat × K)) (F : Nat × K → K), ((l.flatMap g).map F).sum = (l.map fun j => ((g j).map F).sum).sum := by
    intro l g F
    induction l with
    | nil => rfl
    | cons a t ih => rw [List.flatMap_cons, List.map_append, List.sum_append, ih, List.map_cons, List.sum_cons]
  rw [h1]
  refine upper_sum_sym n _ _ fun j k hjk hk => ?_
  dsimp only
  unfold rhsPairs
  by_cases hI : 0 ≤ dofs.getD j 0 <;> by_cases hJ : 0 ≤ dofs.getD k 0
  · rw [if_pos hI, if_pos hJ, if_neg (show ¬ (dofs.getD j 0 = (I : Int) ∧ dofs.getD k 0 < 0) by omega), if_neg (show ¬ (dofs.getD k 0 = (I : Int) ∧ dofs.getD j 0 < 0) by omega)]
    simp
  · rw [if_pos hI, if_neg hJ, if_neg (show j ≠ k by rintro rfl; omega), if_neg (show ¬ (dofs.getD k 0 = (I : Int) ∧ dofs.getD j 0 < 0) by omega)]
    simp only [List.map_cons, List.map_nil, List.sum_cons, List.sum_nil, add_zero]
    have : (dofs.getD j 0).toNat = I ↔ (dofs.getD j 0 = (I : Int) ∧ dofs.getD k 0 < 0) := by omega
    simp only [this]
  · rw [if_neg hI, if_pos hJ, if_neg (show j ≠ k by rintro rfl; omega), if_neg (show ¬ (dofs.getD j 0 = (I : Int) ∧ dofs.getD k 0 < 0) by omega)]
    simp only [List.map_cons, List.map_nil, List.sum_cons, List.sum_nil, add_zero, zero_add]
    have : (dofs.getD k 0).toNat = I ↔ (dofs.getD k 0 = (I : Int) ∧ dofs.getD j 0 < 0) := by omega
    simp only [this, hs k j]
  · rw [if_neg hI, if_neg hJ, if_neg (show ¬ (dofs.getD j 0 = (I : Int) ∧ dofs.getD k 0 < 0) by omega), if_neg (show ¬ (dofs.getD k 0 = (I : Int) ∧ dofs.getD j 0 < 0) by omega)]
    simp

end PyNucleus.Assembly
