import Verif.Proof.NonlocalEntry
import Verif.Model.SSS

/-! # Sparse matrices with the assembled pattern -/

namespace PyNucleus.NonlocalAssembly

open PyNucleus.Loops PyNucleus.Assembly PyNucleus.Galerkin PyNucleus.SSS PyNucleus.Spec
open PyNucleus.Simplex (upper)

variable {K σ : Type}

theorem sparsitySym_eq [Mul K] (add : σ → Nat → Nat → σ) (n : Nat) (dofs : List Int) (M : Nat → Nat → K) (fac : K) (A : σ) :
    sparsitySym add n dofs A = (symItems n dofs M fac).foldl (fun A e => add A e.1 e.2.1) A := by
  unfold symItems
  rw [foldl_flatMap', ← forRange_upper n (fun A p q => (if dofs.getD p 0 < 0 ∨ dofs.getD q 0 < 0 then []
    else if p = q then [((dofs.getD p 0).toNat, (dofs.getD p 0).toNat, fac * M p q)]
    else [((dofs.getD p 0).toNat, (dofs.getD q 0).toNat, fac * M p q), ((dofs.getD q 0).toNat, (dofs.getD p 0).toNat, fac * M p q)]).foldl (fun A e => add A e.1 e.2.1) A)]
  unfold sparsitySym
  refine forRange_congr _ _ _ _ _ fun A p _ hp => ?_
  dsimp only
  by_cases hI : 0 ≤ dofs.getD p 0
  · rw [if_pos hI, forRange_first p n hp, if_neg (show ¬ (dofs.getD p 0 < 0 ∨ dofs.getD p 0 < 0) by omega), if_pos rfl]
    refine forRange_congr _ _ _ _ _ fun r q hq _ => ?_
    by_cases hJ : 0 ≤ dofs.getD q 0
    · rw [if_pos hJ, if_neg (by omega), if_neg (by omega)]; rfl
    · rw [if_neg hJ, if_pos (by omega)]; rfl
  · rw [if_neg hI]
    rw [forRange_congr _ _ _ _ (fun A _ => A) fun A q _ _ => by rw [if_pos (by omega)]; rfl]
    unfold forRange
    induction List.range' p (n - p) with
    | nil => rfl
    | cons a t ih => exact ih

theorem sparsityGen_eq (add : σ → Nat → Nat → σ) (n : Nat) (dofs : List Int) (M : Nat → Nat → K) (A : σ) :
    sparsityGen add n dofs A = (rectItems n n dofs dofs M).foldl (fun A e => add A e.1 e.2.1) A := by
  unfold rectItems
  rw [foldl_flatMap', ← forRange_rect n n (fun A p q => (if dofs.getD p 0 < 0 ∨ dofs.getD q 0 < 0 then []
    else [((dofs.getD p 0).toNat, (dofs.getD q 0).toNat, M p q)]).foldl (fun A e => add A e.1 e.2.1) A)]
  unfold sparsityGen
  refine forRange_congr _ _ _ _ _ fun A p _ hp => ?_
  dsimp only
  by_cases hI : 0 ≤ dofs.getD p 0
  · rw [if_pos hI]
    refine forRange_congr _ _ _ _ _ fun r q hq _ => ?_
    by_cases hJ : 0 ≤ dofs.getD q 0
    · rw [if_pos hJ, if_neg (by omega)]; rfl
    · rw [if_neg hJ, if_pos (by omega)]; rfl
  · rw [if_neg hI]
    rw [forRange_congr _ _ _ _ (fun A _ => A) fun A q _ _ => by rw [if_pos (by omega)]; rfl]
    unfold forRange
    induction List.range' 0 (n - 0) with
    | nil => rfl
    | cons a t ih => exact ih

/-- The calls for the pattern are the calls for the matrix. -/
theorem sparsity_eq [Semiring K] (add : σ → Nat → Nat → σ) (symCells symLocal : Bool) (n : Nat) (cell2dof : Nat → List Int) (nc start stop : Nat) (ignored : Nat × Nat → Bool)
    (value : Nat × Nat → Nat → Nat → K) (A : σ) :
    sweep symCells cell2dof nc start stop ignored (sparsityPair add symLocal n cell2dof) A =
      ((visits symCells cell2dof nc start stop ignored).flatMap (pairItems symLocal n cell2dof value)).foldl (fun A e => add A e.1 e.2.1) A := by
  rw [sweep_eq, foldl_flatMap']
  refine foldl_congr_mem _ _ _ (fun A v _ => ?_) A
  unfold sparsityPair pairItems
  cases symLocal
  · rw [if_neg (by simp), if_neg (by simp)]; exact sparsityGen_eq add _ _ _ A
  · rw [if_pos rfl, if_pos rfl]; exact sparsitySym_eq add _ _ _ _ A

theorem contrib_zero [AddCommMonoid K] (l : List (Nat × Nat × K)) (i j : Nat) (h : ∀ e ∈ l, ¬ (e.1 = i ∧ e.2.1 = j)) : contrib l i j = 0 := by
  unfold contrib
  induction l with
  | nil => rfl
  | cons a t ih => rw [List.map_cons, List.sum_cons, if_neg (h a (by simp)), zero_add, ih fun e he => h e (by simp [he])]

theorem contrib_lower [AddCommMonoid K] (l : List (Nat × Nat × K)) (i j : Nat) : contrib (l.filter fun e => decide (e.2.1 < e.1)) i j = if j < i then contrib l i j else 0 := by
  induction l with
  | nil => simp [contrib]
  | cons a t ih =>
    rw [List.filter_cons]
    by_cases h : a.2.1 < a.1
    · rw [if_pos (by simpa using h), contrib_cons, contrib_cons, ih]
      by_cases hij : j < i
      · rw [if_pos hij, if_pos hij]
      · rw [if_neg hij, if_neg hij, if_neg (by omega), add_zero]
    · rw [if_neg (by simpa using h), ih, contrib_cons]
      by_cases hij : j < i
      · rw [if_pos hij, if_pos hij, if_neg (by omega), zero_add]
      · rw [if_neg hij, if_neg hij]

/-- Additions to a symmetric matrix whose pattern may contain any entries. -/
theorem sss_lower_foldl [AddCommMonoid K] (l : List (Nat × Nat × K)) : ∀ (S : SSS K),
    (l.foldl (fun S e => SSS.addToEntry S e.1 e.2.1 e.2.2) S).lower = (l.filter fun e => decide (e.2.1 < e.1)).foldl (fun A e => CSR.addToEntry A e.1 e.2.1 e.2.2) S.lower ∧
    (l.foldl (fun S e => SSS.addToEntry S e.1 e.2.1 e.2.2) S).diagonal.length = S.diagonal.length ∧
    ∀ i, i < S.diagonal.length → (l.foldl (fun S e => SSS.addToEntry S e.1 e.2.1 e.2.2) S).diagonal.getD i 0 = S.diagonal.getD i 0 + contrib l i i := by
  induction l with
  | nil => intro S; exact ⟨rfl, rfl, fun i _ => by simp [contrib]⟩
  | cons a t ih =>
    intro S
    obtain ⟨h1, h2, h3⟩ := ih (SSS.addToEntry S a.1 a.2.1 a.2.2)
    rw [List.foldl_cons]
    have low : (SSS.addToEntry S a.1 a.2.1 a.2.2).lower = if a.2.1 < a.1 then CSR.addToEntry S.lower a.1 a.2.1 a.2.2 else S.lower := by
      unfold SSS.addToEntry
      by_cases he : a.1 = a.2.1
      · rw [if_pos he, if_neg (by omega)]; rfl
      · rw [if_neg he]
        by_cases hl : a.2.1 < a.1
        · rw [if_pos hl, if_pos hl, CSR.addToEntry_eq]
          split <;> rfl
        · rw [if_neg hl, if_neg hl]
    have dl : (SSS.addToEntry S a.1 a.2.1 a.2.2).diagonal = if a.1 = a.2.1 then S.diagonal.modify a.1 (· + a.2.2) else S.diagonal := by
      unfold SSS.addToEntry
      split
      · rfl
      · split <;> rfl
    have len : (SSS.addToEntry S a.1 a.2.1 a.2.2).diagonal.length = S.diagonal.length := by rw [dl]; split <;> simp
    refine ⟨?_, h2.trans len, fun i hi => ?_⟩
    · rw [h1, low, List.filter_cons]
      by_cases hl : a.2.1 < a.1
      · rw [if_pos hl, if_pos (by simpa using hl), List.foldl_cons]
      · rw [if_neg hl, if_neg (by simpa using hl)]
    · rw [h3 i (by omega), contrib_cons, dl, ← add_assoc]
      congr 1
      by_cases he : a.1 = a.2.1
      · rw [if_pos he, List.getD_eq_getElem _ _ (by simpa using hi), List.getElem_modify, List.getD_eq_getElem _ _ hi]
        by_cases hai : a.1 = i
        · rw [if_pos hai, if_pos (by omega)]
        · rw [if_neg hai, if_neg (by omega), add_zero]
      · rw [if_neg he, if_neg (by omega), add_zero]

end PyNucleus.NonlocalAssembly
