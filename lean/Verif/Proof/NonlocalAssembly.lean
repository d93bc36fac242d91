import Verif.Model.NonlocalAssembly
import Verif.Proof.Assembly
import Verif.Proof.LocalMatrices2
import Mathlib.Data.List.GetD
import Mathlib.Algebra.BigOperators.Ring.Finset
import Mathlib.Algebra.Ring.Defs

/-! # Loops of the assembly of nonlocal operators -/

namespace PyNucleus.NonlocalAssembly

open PyNucleus.Loops PyNucleus.Assembly PyNucleus.Galerkin PyNucleus.SSS
open PyNucleus.Simplex (upper)

variable {K σ : Type}

theorem forRange_first (lo hi : Nat) (h : lo < hi) (r : σ) (g : σ → Nat → σ) : forRange lo hi r g = forRange (lo + 1) hi (g r lo) g := by
  unfold forRange
  rw [show hi - lo = (hi - (lo + 1)) + 1 by omega, List.range'_succ, List.foldl_cons]

/-- Calls of `addSym`. -/
def symItems [Mul K] (n : Nat) (dofs : List Int) (M : Nat → Nat → K) (fac : K) : List (Nat × Nat × K) :=
  (upper n).flatMap fun q =>
    if dofs.getD q.1 0 < 0 ∨ dofs.getD q.2 0 < 0 then []
    else if q.1 = q.2 then [((dofs.getD q.1 0).toNat, (dofs.getD q.1 0).toNat, fac * M q.1 q.2)]
    else [((dofs.getD q.1 0).toNat, (dofs.getD q.2 0).toNat, fac * M q.1 q.2), ((dofs.getD q.2 0).toNat, (dofs.getD q.1 0).toNat, fac * M q.1 q.2)]

theorem addSym_eq [MulZeroClass K] (add : σ → Nat → Nat → K → σ) (n : Nat) (dofs : List Int) (M : Nat → Nat → K) (fac : K) (A : σ) :
    addSym add n dofs ((upper n).map fun q => M q.1 q.2) fac A = (symItems n dofs M fac).foldl (fun A e => add A e.1 e.2.1 e.2.2) A := by
  unfold symItems
  rw [foldl_flatMap']
  have h := upper_loop n M (fun A j k v => (if dofs.getD j 0 < 0 ∨ dofs.getD k 0 < 0 then []
    else if j = k then [((dofs.getD j 0).toNat, (dofs.getD j 0).toNat, fac * v)]
    else [((dofs.getD j 0).toNat, (dofs.getD k 0).toNat, fac * v), ((dofs.getD k 0).toNat, (dofs.getD j 0).toNat, fac * v)]).foldl (fun A e => add A e.1 e.2.1 e.2.2) A) A
  rw [← h]
  unfold addSym
  dsimp only
  congr 1
  refine forRange_congr _ _ _ _ _ fun r p _ hp => ?_
  by_cases hI : 0 ≤ dofs.getD p 0
  · rw [if_pos hI, forRange_first p n hp, if_neg (show ¬ (dofs.getD p 0 < 0 ∨ dofs.getD p 0 < 0) by omega), if_pos rfl]
    refine forRange_congr _ _ _ _ _ fun r q hq _ => ?_
    by_cases hJ : 0 ≤ dofs.getD q 0
    · rw [if_pos hJ, if_neg (by omega), if_neg (by omega)]; rfl
    · rw [if_neg hJ, if_pos (by omega)]; rfl
  · rw [if_neg hI, ← skip]
    refine forRange_congr _ _ _ _ _ fun r q _ _ => ?_
    rw [if_pos (by omega)]; rfl

theorem addGen_eq [MulZeroClass K] (add : σ → Nat → Nat → K → σ) (n : Nat) (dofs : List Int) (M : Nat → Nat → K) (fac : K) (A : σ) :
    addGen add n dofs ((List.range n).flatMap fun p => (List.range n).map fun q => M p q) fac A =
      (rectItems n n dofs dofs fun p q => fac * M p q).foldl (fun A e => add A e.1 e.2.1 e.2.2) A := by
  unfold rectItems
  rw [foldl_flatMap']
  have h := rect_loop n n M (fun A j k v => (if dofs.getD j 0 < 0 ∨ dofs.getD k 0 < 0 then [] else
    [((dofs.getD j 0).toNat, (dofs.getD k 0).toNat, fac * v)]).foldl (fun A e => add A e.1 e.2.1 e.2.2) A) A
  rw [← h]
  unfold addGen
  dsimp only
  congr 1
  refine forRange_congr _ _ _ _ _ fun r p _ _ => ?_
  by_cases hI : 0 ≤ dofs.getD p 0
  · rw [if_pos hI]
    refine forRange_congr _ _ _ _ _ fun r q _ _ => ?_
    by_cases hJ : 0 ≤ dofs.getD q 0
    · rw [if_pos hJ, if_neg (by omega)]; rfl
    · rw [if_neg hJ, if_pos (by omega)]; rfl
  · rw [if_neg hI]
    conv => lhs; rw [show r.1 + n = r.1 + (n - 0) from rfl]
    rw [← skip]
    refine forRange_congr _ _ _ _ _ fun r q _ _ => ?_
    rw [if_pos (by omega)]; rfl

theorem contrib_symItems [NonUnitalNonAssocSemiring K] (n : Nat) (dofs : List Int) (M : Nat → Nat → K) (hs : ∀ p q, p < n → q < n → M p q = M q p) (fac : K) (I J : Nat) :
    contrib (symItems n dofs M fac) I J = fac * ∑ p ∈ Finset.range n, ∑ q ∈ Finset.range n, if dofs.getD p 0 = I ∧ dofs.getD q 0 = J then M p q else 0 := by
  unfold symItems
  rw [contrib_flatMap', Finset.mul_sum]
  simp only [Finset.mul_sum]
  refine upper_sum_sym n _ _ fun p q hpq hq => ?_
  dsimp only
  unfold contrib
  simp only [mul_ite, mul_zero]
  rw [hs q p (by omega) (by omega)]
  by_cases h : dofs.getD p 0 < 0 ∨ dofs.getD q 0 < 0
  · rw [if_pos h]
    have h1 : ¬ (dofs.getD p 0 = (I : Int) ∧ dofs.getD q 0 = (J : Int)) := by omega
    have h2 : ¬ (dofs.getD q 0 = (I : Int) ∧ dofs.getD p 0 = (J : Int)) := by omega
    rw [if_neg h1, if_neg h2]
    simp
  · rw [if_neg h]
    have e : ∀ (a b : Int), ¬ a < 0 → ¬ b < 0 → ((a.toNat = I ∧ b.toNat = J) ↔ (a = (I : Int) ∧ b = (J : Int))) := fun a b _ _ => by omega
    by_cases hp : p = q
    · subst hp
      rw [if_pos rfl, if_pos rfl]
      simp only [List.map_cons, List.map_nil, List.sum_cons, List.sum_nil, add_zero, e _ _ (show ¬ dofs.getD p 0 < 0 by omega) (show ¬ dofs.getD p 0 < 0 by omega)]
    · rw [if_neg hp, if_neg hp]
      simp only [List.map_cons, List.map_nil, List.sum_cons, List.sum_nil, add_zero]
      simp only [e _ _ (show ¬ dofs.getD p 0 < 0 by omega) (show ¬ dofs.getD q 0 < 0 by omega), e _ _ (show ¬ dofs.getD q 0 < 0 by omega) (show ¬ dofs.getD p 0 < 0 by omega)]

theorem contrib_genItems [NonUnitalNonAssocSemiring K] (n : Nat) (dofs : List Int) (M : Nat → Nat → K) (fac : K) (I J : Nat) :
    contrib (rectItems n n dofs dofs fun p q => fac * M p q) I J =
      fac * ∑ p ∈ Finset.range n, ∑ q ∈ Finset.range n, if dofs.getD p 0 = I ∧ dofs.getD q 0 = J then M p q else 0 := by
  rw [contrib_rect, Finset.mul_sum]
  simp only [Finset.mul_sum, mul_ite, mul_zero]

theorem denseAdd_foldl [AddCommMonoid K] (l : List (Nat × Nat × K)) : ∀ (A : Nat → Nat → K) (i j : Nat),
    l.foldl (fun A e => denseAdd A e.1 e.2.1 e.2.2) A i j = A i j + contrib l i j := by
  induction l with
  | nil => intro A i j; simp [contrib]
  | cons e t ih =>
    intro A i j
    rw [List.foldl_cons, ih, contrib_cons]
    unfold denseAdd
    by_cases h : e.1 = i ∧ e.2.1 = j
    · rw [if_pos (by omega), if_pos h, add_assoc]
    · rw [if_neg (by omega), if_neg h, zero_add]

theorem foldl_all (l : List Int) (b : Bool) : l.foldl (fun s dof => s && decide (dof < 0)) b = (b && l.all fun dof => decide (dof < 0)) := by
  induction l generalizing b with
  | nil => simp
  | cons a t ih => rw [List.foldl_cons, ih, List.all_cons, Bool.and_assoc]

theorem canSkip_eq (cell2dof : Nat → List Int) (c : Nat × Nat) : canSkip cell2dof c = (pairDofs cell2dof c).all fun dof => decide (dof < 0) := by
  unfold canSkip pairDofs
  rw [foldl_all, foldl_all, List.all_append, Bool.true_and]

theorem canSkip_swap (cell2dof : Nat → List Int) (a b : Nat) : canSkip cell2dof (a, b) = canSkip cell2dof (b, a) := by
  rw [canSkip_eq, canSkip_eq]
  unfold pairDofs
  rw [List.all_append, List.all_append, Bool.and_comm]

/-- The visits for a pair of cells of the loop. -/
def visitsAt (symCells : Bool) (cell2dof : Nat → List Int) (ignored : Nat × Nat → Bool) (c1 c2 : Nat) : List ((Nat × Nat) × Bool) :=
  if canSkip cell2dof (c1, c2) then []
  else if c1 = c2 then if ignored (c1, c2) then [] else [((c1, c2), false)]
  else if symCells then if ignored (c1, c2) then [] else [((c1, c2), true)]
  else (if ignored (c1, c2) then [] else [((c1, c2), false)]) ++ if ignored (c2, c1) then [] else [((c2, c1), false)]

/-- All visits. -/
def visits (symCells : Bool) (cell2dof : Nat → List Int) (nc start stop : Nat) (ignored : Nat × Nat → Bool) : List ((Nat × Nat) × Bool) :=
  (List.range' start (stop - start)).flatMap fun c1 => (List.range' c1 (nc - c1)).flatMap fun c2 => visitsAt symCells cell2dof ignored c1 c2

theorem sweep_eq (symCells : Bool) (cell2dof : Nat → List Int) (nc start stop : Nat) (ignored : Nat × Nat → Bool) (visit : σ → Nat × Nat → Nat × Nat → Bool → σ) (A : σ) :
    sweep symCells cell2dof nc start stop ignored visit A = (visits symCells cell2dof nc start stop ignored).foldl (fun A v => visit A v.1 v.1 v.2) A := by
  unfold sweep visits forRange
  generalize List.range' start (stop - start) = rows
  generalize ((0, 0) : Nat × Nat) = l0
  rw [foldl_flatMap']
  induction rows generalizing A l0 with
  | nil => rfl
  | cons c1 rows ih =>
    rw [List.foldl_cons, List.foldl_cons, ih]
    congr 1
    dsimp only
    rw [foldl_flatMap']
    generalize List.range' c1 (nc - c1) = cols
    generalize l0.2 = x
    clear ih
    induction cols generalizing A x with
    | nil => rfl
    | cons c2 cols ih =>
      rw [List.foldl_cons, List.foldl_cons]
      have key : ∃ y, (if canSkip cell2dof (c1, c2) then (A, (c1, c2))
          else if c1 = c2 then if ignored (c1, c2) then (A, (c1, c2)) else (visit A (c1, c2) (c1, c2) false, (c1, c2))
          else if symCells then if ignored (c1, c2) then (A, (c1, c2)) else (visit A (c1, c2) (c1, c2) true, (c1, c2))
          else if ignored (c2, c1) then (if ignored (c1, c2) then A else visit A (c1, c2) (c1, c2) false, (c1, c2))
          else if canSkip cell2dof (c2, c1) then (if ignored (c1, c2) then A else visit A (c1, c2) (c1, c2) false, (c2, c1))
          else (visit (if ignored (c1, c2) then A else visit A (c1, c2) (c1, c2) false) (c2, c1) (c2, c1) false, (c1, c2)))
          = ((visitsAt symCells cell2dof ignored c1 c2).foldl (fun A v => visit A v.1 v.1 v.2) A, (c1, y)) := by
        refine ⟨c2, ?_⟩
        unfold visitsAt
        rw [← canSkip_swap cell2dof c1 c2]
        cases canSkip cell2dof (c1, c2) <;> cases symCells <;> cases ignored (c1, c2) <;> cases ignored (c2, c1) <;> by_cases hc : c1 = c2 <;> simp [hc]
      obtain ⟨y, hy⟩ := key
      dsimp only at hy ⊢
      rw [hy]
      exact ih _ y

/-- Calls for a visit. -/
def pairItems [Zero K] [One K] [Add K] [Mul K] (symLocal : Bool) (n : Nat) (cell2dof : Nat → List Int) (value : Nat × Nat → Nat → Nat → K) (v : (Nat × Nat) × Bool) : List (Nat × Nat × K) :=
  if symLocal then symItems (2 * n) (pairDofs cell2dof v.1) (value v.1) (if v.2 then 1 + 1 else 1)
  else rectItems (2 * n) (2 * n) (pairDofs cell2dof v.1) (pairDofs cell2dof v.1) fun p q => (if v.2 then 1 + 1 else 1) * value v.1 p q

/-- The array that `eval` writes for a local matrix. -/
def flat (symLocal : Bool) (n : Nat) (M : Nat → Nat → K) : List K :=
  if symLocal then (upper n).map fun q => M q.1 q.2 else (List.range n).flatMap fun p => (List.range n).map fun q => M p q

theorem addPair_eq [Semiring K] (add : σ → Nat → Nat → K → σ) (symLocal : Bool) (n : Nat) (cell2dof : Nat → List Int) (eval : Nat × Nat → List K)
    (value : Nat × Nat → Nat → Nat → K) (v : (Nat × Nat) × Bool) (h : eval v.1 = flat symLocal (2 * n) (value v.1)) (A : σ) :
    addPair add symLocal n cell2dof eval A v.1 v.1 v.2 = (pairItems symLocal n cell2dof value v).foldl (fun A e => add A e.1 e.2.1 e.2.2) A := by
  unfold addPair pairItems flat at *
  rw [h]
  cases symLocal
  · exact addGen_eq add (2 * n) _ _ _ A
  · exact addSym_eq add (2 * n) _ _ _ A

theorem foldl_congr_mem {α : Type} (l : List α) (f g : σ → α → σ) (h : ∀ s, ∀ a ∈ l, f s a = g s a) (s : σ) : l.foldl f s = l.foldl g s := by
  induction l generalizing s with
  | nil => rfl
  | cons a t ih => rw [List.foldl_cons, List.foldl_cons, h s a (by simp)]; exact ih (fun s b hb => h s b (by simp [hb])) _

/-- Calls for the exterior. -/
def extItems [Zero K] [One K] [Mul K] (n : Nat) (cell2dof : Nat → List Int) (ns start stop : Nat) (valueExt : Nat × Nat → Nat → Nat → K) : List (Nat × Nat × K) :=
  (List.range' start (stop - start)).flatMap fun c1 => (List.range ns).flatMap fun c2 => symItems n (cell2dof c1) (valueExt (c1, c2)) 1

theorem exterior_eq [Semiring K] (add : σ → Nat → Nat → K → σ) (n : Nat) (cell2dof : Nat → List Int) (ns start stop : Nat) (evalExt : Nat × Nat → List K) (valueExt : Nat × Nat → Nat → Nat → K)
    (h : ∀ c, c.1 < stop → c.2 < ns → evalExt c = (upper n).map fun q => valueExt c q.1 q.2) (A : σ) :
    exterior add n cell2dof ns start stop evalExt A = (extItems n cell2dof ns start stop valueExt).foldl (fun A e => add A e.1 e.2.1 e.2.2) A := by
  unfold exterior extItems
  rw [foldl_flatMap']
  unfold forRange
  refine foldl_congr_mem _ _ _ (fun A c1 hc1 => ?_) A
  rw [foldl_flatMap', ← List.range_eq_range', Nat.sub_zero]
  refine foldl_congr_mem _ _ _ (fun A c2 hc2 => ?_) A
  rw [List.mem_range'_1] at hc1
  rw [h (c1, c2) (by dsimp only; omega) (List.mem_range.1 hc2), addSym_eq]

/-- All calls. -/
def allItems [Zero K] [One K] [Add K] [Mul K] (symCells symLocal zeroExterior : Bool) (n : Nat) (cell2dof : Nat → List Int) (nc ns start stop : Nat) (ignored : Nat × Nat → Bool)
    (value valueExt : Nat × Nat → Nat → Nat → K) : List (Nat × Nat × K) :=
  (visits symCells cell2dof nc start stop ignored).flatMap (pairItems symLocal n cell2dof value) ++
    if zeroExterior then extItems n cell2dof ns start stop valueExt else []

theorem mem_visits {symCells : Bool} {cell2dof : Nat → List Int} {nc start stop : Nat} {ignored : Nat × Nat → Bool} {v : (Nat × Nat) × Bool} (hstop : stop ≤ nc)
    (h : v ∈ visits symCells cell2dof nc start stop ignored) : ignored v.1 = false ∧ v.1.1 < nc ∧ v.1.2 < nc ∧ (symCells = true → v.1.1 ≤ v.1.2) := by
  unfold visits at h
  obtain ⟨c1, h1, h⟩ := List.mem_flatMap.1 h
  obtain ⟨c2, h2, h⟩ := List.mem_flatMap.1 h
  rw [List.mem_range'_1] at h1 h2
  unfold visitsAt at h
  have a1 : c1 < nc := by omega
  have a2 : c2 < nc := by omega
  split at h
  · cases h
  · split at h
    · split at h
      · cases h
      · rename_i hi; rw [List.mem_singleton] at h; subst h; dsimp only; exact ⟨by simpa using hi, a1, a2, fun _ => by omega⟩
    · split at h
      · split at h
        · cases h
        · rename_i hi; rw [List.mem_singleton] at h; subst h; dsimp only; exact ⟨by simpa using hi, a1, a2, fun _ => by omega⟩
      · rename_i hs
        rw [List.mem_append] at h
        rcases h with h | h <;> split at h <;> first | cases h; done | skip
        · rename_i hi; rw [List.mem_singleton] at h; subst h; dsimp only; exact ⟨by simpa using hi, a1, a2, fun h => absurd h hs⟩
        · rename_i hi; rw [List.mem_singleton] at h; subst h; dsimp only; exact ⟨by simpa using hi, a2, a1, fun h => absurd h hs⟩

theorem assemble_eq [Semiring K] (add : σ → Nat → Nat → K → σ) (symCells symLocal zeroExterior : Bool) (n : Nat) (cell2dof : Nat → List Int) (nc ns start stop : Nat) (hstop : stop ≤ nc)
    (ignored : Nat × Nat → Bool) (eval evalExt : Nat × Nat → List K) (value valueExt : Nat × Nat → Nat → Nat → K)
    (h : ∀ c, c.1 < nc → c.2 < nc → (symCells = true → c.1 ≤ c.2) → ignored c = false → eval c = flat symLocal (2 * n) (value c))
    (hx : zeroExterior = true → ∀ c, c.1 < nc → c.2 < ns → evalExt c = (upper n).map fun q => valueExt c q.1 q.2) (A : σ) :
    assemble add symCells symLocal zeroExterior n cell2dof nc ns start stop ignored eval evalExt A =
      (allItems symCells symLocal zeroExterior n cell2dof nc ns start stop ignored value valueExt).foldl (fun A e => add A e.1 e.2.1 e.2.2) A := by
  unfold assemble allItems
  rw [sweep_eq, List.foldl_append, foldl_flatMap']
  have e : ∀ A, (visits symCells cell2dof nc start stop ignored).foldl (fun A v => addPair add symLocal n cell2dof eval A v.1 v.1 v.2) A =
      (visits symCells cell2dof nc start stop ignored).foldl (fun s a => (pairItems symLocal n cell2dof value a).foldl (fun A e => add A e.1 e.2.1 e.2.2) s) A := by
    refine foldl_congr_mem _ _ _ fun A v hv => ?_
    obtain ⟨h1, h2, h3, h4⟩ := mem_visits hstop hv
    exact addPair_eq add symLocal n cell2dof eval value v (h v.1 h2 h3 h4 h1) A
  rw [e]
  cases zeroExterior
  · rfl
  · exact exterior_eq add n cell2dof ns start stop evalExt valueExt (fun c h1 h2 => hx rfl c (by omega) h2) _

end PyNucleus.NonlocalAssembly
