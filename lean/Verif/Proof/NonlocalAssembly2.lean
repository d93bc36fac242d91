import Verif.Proof.NonlocalAssembly
import Mathlib.Algebra.BigOperators.Intervals
import Mathlib.Data.Nat.Bitwise
import Mathlib.Tactic.Ring

/-! # Sums over pairs of cells, masks -/

namespace PyNucleus.NonlocalAssembly

open PyNucleus.Loops PyNucleus.Assembly PyNucleus.Galerkin PyNucleus.SSS
open PyNucleus.Simplex (upper)

variable {K σ : Type}

/-- Entry `(i, j)` of the contribution of a pair of cells. -/
def pairSum [AddCommMonoid K] (n : Nat) (cell2dof : Nat → List Int) (value : Nat × Nat → Nat → Nat → K) (c : Nat × Nat) (i j : Nat) : K :=
  ∑ p ∈ Finset.range (2 * n), ∑ q ∈ Finset.range (2 * n), if (pairDofs cell2dof c).getD p 0 = i ∧ (pairDofs cell2dof c).getD q 0 = j then value c p q else 0

/-- Entry `(i, j)` of the contribution of a cell and a cell of the surface. -/
def extSum [AddCommMonoid K] (n : Nat) (cell2dof : Nat → List Int) (valueExt : Nat × Nat → Nat → Nat → K) (c : Nat × Nat) (i j : Nat) : K :=
  ∑ p ∈ Finset.range n, ∑ q ∈ Finset.range n, if (cell2dof c.1).getD p 0 = i ∧ (cell2dof c.1).getD q 0 = j then valueExt c p q else 0

/-- Exchange of the two halves of the local dofs. -/
def half (n p : Nat) : Nat := if p < n then n + p else p - n

theorem contrib_pair [Semiring K] (symLocal : Bool) (n : Nat) (cell2dof : Nat → List Int) (value : Nat × Nat → Nat → Nat → K) (v : (Nat × Nat) × Bool)
    (hs : symLocal = true → ∀ p q, p < 2 * n → q < 2 * n → value v.1 p q = value v.1 q p) (i j : Nat) :
    contrib (pairItems symLocal n cell2dof value v) i j = (if v.2 then 1 + 1 else 1) * pairSum n cell2dof value v.1 i j := by
  unfold pairItems pairSum
  cases symLocal
  · exact contrib_genItems _ _ _ _ _ _
  · exact contrib_symItems _ _ _ (hs rfl) _ _ _

theorem range'_sum [AddCommMonoid K] (a m : Nat) (f : Nat → K) : ((List.range' a m).map f).sum = ∑ x ∈ Finset.Ico a (a + m), f x := by
  rw [range'_eq_map, List.map_map, Finset.sum_Ico_eq_sum_range, Nat.add_sub_cancel_left]
  rfl

theorem pairSum_skip [AddCommMonoid K] (n : Nat) (cell2dof : Nat → List Int) (value : Nat × Nat → Nat → Nat → K) (c : Nat × Nat) (i j : Nat)
    (hl : (pairDofs cell2dof c).length = 2 * n) (h : canSkip cell2dof c = true) : pairSum n cell2dof value c i j = 0 := by
  rw [canSkip_eq, List.all_eq_true] at h
  unfold pairSum
  refine Finset.sum_eq_zero fun p hp => Finset.sum_eq_zero fun q _ => if_neg fun hd => ?_
  rw [Finset.mem_range] at hp
  have := h ((pairDofs cell2dof c).getD p 0) (by rw [List.getD_eq_getElem _ _ (by omega)]; exact List.getElem_mem _)
  rw [decide_eq_true_eq] at this
  omega

theorem half_lt {n p : Nat} (h : p < 2 * n) : half n p < 2 * n := by unfold half; split <;> omega

theorem half_half {n p : Nat} (h : p < 2 * n) : half n (half n p) = p := by unfold half; split <;> split <;> omega

theorem pairDofs_half (n : Nat) (cell2dof : Nat → List Int) (c1 c2 p : Nat) (h1 : (cell2dof c1).length = n) (h2 : (cell2dof c2).length = n) (hp : p < 2 * n) :
    (pairDofs cell2dof (c2, c1)).getD (half n p) 0 = (pairDofs cell2dof (c1, c2)).getD p 0 := by
  unfold pairDofs half
  dsimp only
  split
  · rw [List.getD_append_right _ _ _ _ (by omega), List.getD_append _ _ _ _ (by omega)]
    congr 1
    omega
  · rw [List.getD_append _ _ _ _ (by omega), List.getD_append_right _ _ _ _ (by omega), h1]

theorem sum_half [AddCommMonoid K] (n : Nat) (f : Nat → K) : ∑ p ∈ Finset.range (2 * n), f (half n p) = ∑ p ∈ Finset.range (2 * n), f p :=
  Finset.sum_nbij' (half n) (half n) (fun p hp => Finset.mem_range.2 (half_lt (Finset.mem_range.1 hp))) (fun p hp => Finset.mem_range.2 (half_lt (Finset.mem_range.1 hp)))
    (fun p hp => half_half (Finset.mem_range.1 hp)) (fun p hp => half_half (Finset.mem_range.1 hp)) fun _ _ => rfl

/-- Mirrored local matrices have the same contribution. -/
theorem pairSum_mirror [AddCommMonoid K] (n : Nat) (cell2dof : Nat → List Int) (value : Nat × Nat → Nat → Nat → K) (c1 c2 : Nat) (h1 : (cell2dof c1).length = n) (h2 : (cell2dof c2).length = n)
    (hm : ∀ p q, p < 2 * n → q < 2 * n → value (c2, c1) (half n p) (half n q) = value (c1, c2) p q) (i j : Nat) :
    pairSum n cell2dof value (c2, c1) i j = pairSum n cell2dof value (c1, c2) i j := by
  unfold pairSum
  rw [← sum_half]
  refine Finset.sum_congr rfl fun p hp => ?_
  rw [← sum_half]
  refine Finset.sum_congr rfl fun q hq => ?_
  rw [Finset.mem_range] at hp hq
  rw [pairDofs_half n cell2dof c1 c2 p h1 h2 hp, pairDofs_half n cell2dof c1 c2 q h1 h2 hq, hm p q hp hq]

/-- Contribution of the visits at a pair of the loop. -/
theorem contrib_visitsAt [Semiring K] (symCells symLocal : Bool) (n : Nat) (cell2dof : Nat → List Int) (ignored : Nat × Nat → Bool) (value : Nat × Nat → Nat → Nat → K) (c1 c2 : Nat)
    (hs : symLocal = true → ∀ c p q, p < 2 * n → q < 2 * n → value c p q = value c q p) (h1 : (cell2dof c1).length = n) (h2 : (cell2dof c2).length = n)
    (hm : symCells = true → ∀ p q, p < 2 * n → q < 2 * n → value (c2, c1) (half n p) (half n q) = value (c1, c2) p q)
    (hi1 : ignored (c1, c2) = true → ∀ p q, p < 2 * n → q < 2 * n → value (c1, c2) p q = 0)
    (hi2 : symCells = false → ignored (c2, c1) = true → ∀ p q, p < 2 * n → q < 2 * n → value (c2, c1) p q = 0) (i j : Nat) :
    contrib ((visitsAt symCells cell2dof ignored c1 c2).flatMap (pairItems symLocal n cell2dof value)) i j =
      if c1 = c2 then pairSum n cell2dof value (c1, c2) i j else pairSum n cell2dof value (c1, c2) i j + pairSum n cell2dof value (c2, c1) i j := by
  have hl : ∀ a b, (cell2dof a).length = n → (cell2dof b).length = n → (pairDofs cell2dof (a, b)).length = 2 * n := fun a b ha hb => by
    unfold pairDofs; rw [List.length_append, ha, hb]; omega
  have z : ∀ a b, (∀ p q, p < 2 * n → q < 2 * n → value (a, b) p q = 0) → pairSum n cell2dof value (a, b) i j = 0 := fun a b h => by
    unfold pairSum
    refine Finset.sum_eq_zero fun p hp => Finset.sum_eq_zero fun q hq => ?_
    rw [h p q (Finset.mem_range.1 hp) (Finset.mem_range.1 hq), ite_self]
  rw [contrib_flatMap']
  unfold visitsAt
  by_cases hk : canSkip cell2dof (c1, c2) = true
  · rw [if_pos hk, pairSum_skip n cell2dof value (c1, c2) i j (hl _ _ h1 h2) hk, pairSum_skip n cell2dof value (c2, c1) i j (hl _ _ h2 h1) (by rw [← canSkip_swap]; exact hk)]
    simp
  rw [if_neg hk]
  have one : ∀ c, (([(c, false)] : List ((Nat × Nat) × Bool)).map fun v => contrib (pairItems symLocal n cell2dof value v) i j).sum = pairSum n cell2dof value c i j := fun c => by
    rw [List.map_singleton, List.sum_singleton, contrib_pair symLocal n cell2dof value _ (fun h => hs h _)]
    simp
  by_cases hc : c1 = c2
  · rw [if_pos hc, if_pos hc]
    by_cases hi : ignored (c1, c2) = true
    · rw [if_pos hi, z _ _ (hi1 hi)]; rfl
    · rw [if_neg hi, one]
  rw [if_neg hc, if_neg hc]
  cases hsc : symCells
  · rw [if_neg (by simp), List.map_append, List.sum_append]
    congr 1
    · by_cases hi : ignored (c1, c2) = true
      · rw [if_pos hi, z _ _ (hi1 hi)]; rfl
      · rw [if_neg hi, one]
    · by_cases hi : ignored (c2, c1) = true
      · rw [if_pos hi, z _ _ (hi2 hsc hi)]; rfl
      · rw [if_neg hi, one]
  · rw [if_pos rfl, pairSum_mirror n cell2dof value c1 c2 h1 h2 (hm hsc)]
    by_cases hi : ignored (c1, c2) = true
    · rw [if_pos hi, z _ _ (hi1 hi)]; simp
    · rw [if_neg hi, List.map_singleton, List.sum_singleton, contrib_pair symLocal n cell2dof value _ (fun h => hs h _)]
      simp only [if_true]
      rw [add_mul, one_mul]

/-- Sum over all pairs, row by row of the loop. -/
theorem triangle_sum [AddCommMonoid K] (nc : Nat) (F : Nat → Nat → K) :
    (∑ c1 ∈ Finset.Ico 0 nc, ∑ c2 ∈ Finset.Ico c1 nc, if c1 = c2 then F c1 c2 else F c1 c2 + F c2 c1) = ∑ c1 ∈ Finset.range nc, ∑ c2 ∈ Finset.range nc, F c1 c2 := by
  rw [← upper_sum_sym nc (fun c => if c.1 = c.2 then F c.1 c.2 else F c.1 c.2 + F c.2 c.1) F fun _ _ _ _ => rfl, upper_sum, ← Finset.range_eq_Ico]
  refine Finset.sum_congr rfl fun c1 _ => ?_
  rw [← Finset.sum_filter]
  refine Finset.sum_congr ?_ fun _ _ => rfl
  ext x
  simp only [Finset.mem_Ico, Finset.mem_filter, Finset.mem_range]
  omega

theorem contrib_ext [Semiring K] (n : Nat) (cell2dof : Nat → List Int) (ns start stop : Nat) (valueExt : Nat × Nat → Nat → Nat → K)
    (hs : ∀ c p q, p < n → q < n → valueExt c p q = valueExt c q p) (hle : start ≤ stop) (i j : Nat) :
    contrib (extItems n cell2dof ns start stop valueExt) i j = ∑ c1 ∈ Finset.Ico start stop, ∑ c2 ∈ Finset.range ns, extSum n cell2dof valueExt (c1, c2) i j := by
  unfold extItems
  rw [contrib_flatMap', range'_sum, Nat.add_sub_cancel' hle]
  refine Finset.sum_congr rfl fun c1 _ => ?_
  rw [contrib_flatMap']
  show ∑ c2 ∈ Finset.range ns, _ = _
  refine Finset.sum_congr rfl fun c2 _ => ?_
  rw [contrib_symItems _ _ _ (hs _), one_mul]
  rfl

/-! ## Masks -/

/-- The state of the loops that build a mask. -/
theorem mask_fold {α : Type} (cond : α → Bool) : ∀ (l : List α) (s m : Nat), m < 2 ^ s →
    l.foldl (fun r q => (r.1 <<< 1, if cond q then r.2 ||| r.1 else r.2)) (2 ^ s, m) =
      (2 ^ (s + l.length), (l.foldl (fun r q => (r.1 <<< 1, if cond q then r.2 ||| r.1 else r.2)) (2 ^ s, m)).2) ∧
    ∀ k, (l.foldl (fun r q => (r.1 <<< 1, if cond q then r.2 ||| r.1 else r.2)) (2 ^ s, m)).2.testBit k =
      if k < s then m.testBit k else (l[k - s]?).any cond := by
  intro l
  induction l with
  | nil =>
    intro s m hm
    refine ⟨rfl, fun k => ?_⟩
    dsimp only [List.foldl_nil]
    split
    · rfl
    · rw [Nat.testBit_lt_two_pow (lt_of_lt_of_le hm (Nat.pow_le_pow_right (by omega) (by omega)))]
      simp
  | cons a t ih =>
    intro s m hm
    have hlt : (if cond a then m ||| 2 ^ s else m) < 2 ^ (s + 1) := by
      split
      · exact Nat.or_lt_two_pow (by rw [Nat.pow_succ]; omega) (Nat.pow_lt_pow_right (by omega) (by omega))
      · rw [Nat.pow_succ]; omega
    have e : (2 ^ s) <<< 1 = 2 ^ (s + 1) := by rw [Nat.shiftLeft_eq]; ring
    have := ih (s + 1) _ hlt
    rw [List.foldl_cons]
    dsimp only
    rw [e]
    refine ⟨by rw [this.1]; rw [List.length_cons]; congr 2; omega, fun k => ?_⟩
    rw [this.2]
    by_cases h1 : k < s
    · rw [if_pos (by omega), if_pos h1]
      split
      · rw [Nat.testBit_or, Nat.testBit_two_pow]
        simp <;> omega
      · rfl
    · rw [if_neg h1]
      by_cases h2 : k = s
      · subst h2
        rw [if_pos (by omega), Nat.sub_self]
        have hz := Nat.testBit_lt_two_pow hm
        cases hc : cond a
        · simp [hz, hc]
        · simp [hc, Nat.testBit_or, Nat.testBit_two_pow]
      · rw [if_neg (by omega), show k - s = (k - (s + 1)) + 1 by omega, List.getElem?_cons_succ]

theorem shift_skip (lo hi : Nat) (r : Nat × Nat) : forRange lo hi r (fun r _ => (r.1 <<< 1, r.2)) = (r.1 <<< (hi - lo), r.2) := by
  unfold forRange
  generalize hi - lo = m
  induction m generalizing lo r with
  | zero => rfl
  | succ m ih => rw [List.range'_succ, List.foldl_cons, ih]; congr 1

theorem symMask_eq (n : Nat) (m1 m2 : Nat → Bool) : symMask n m1 m2 =
    ((upper n).foldl (fun r q => (r.1 <<< 1, if m1 q.1 && m2 q.2 then r.2 ||| r.1 else r.2)) (2 ^ 0, 0)).2 := by
  unfold symMask
  have h := forRange_upper n (fun (r : Nat × Nat) p q => (r.1 <<< 1, if m1 p && m2 q then r.2 ||| r.1 else r.2)) (1, 0)
  rw [pow_zero]
  rw [← h]
  congr 1
  refine forRange_congr _ _ _ _ _ fun r p _ _ => ?_
  cases m1 p
  · rw [if_neg (by simp), ← shift_skip]
    rfl
  · rfl

theorem genMask_eq (n : Nat) (m1 m2 : Nat → Bool) : genMask n m1 m2 =
    (((List.range n).flatMap fun p => (List.range n).map fun q => (p, q)).foldl (fun r q => (r.1 <<< 1, if m1 q.1 && m2 q.2 then r.2 ||| r.1 else r.2)) (2 ^ 0, 0)).2 := by
  unfold genMask
  have h := forRange_rect n n (fun (r : Nat × Nat) p q => (r.1 <<< 1, if m1 p && m2 q then r.2 ||| r.1 else r.2)) (1, 0)
  rw [pow_zero]
  rw [← h]
  congr 1
  refine forRange_congr _ _ _ _ _ fun r p _ _ => ?_
  cases m1 p
  · rw [if_neg (by simp)]
    conv => lhs; rw [show n = n - 0 from rfl]
    rw [← shift_skip]
    rfl
  · rfl

theorem entryMask_eq (n : Nat) (dofs : List Int) (I J : Int) : entryMask n dofs I J =
    ((upper n).foldl (fun r q => (r.1 <<< 1, if decide ((I = dofs.getD q.1 0 ∧ J = dofs.getD q.2 0) ∨ (J = dofs.getD q.1 0 ∧ I = dofs.getD q.2 0)) then r.2 ||| r.1 else r.2)) (2 ^ 0, 0)).2 := by
  unfold entryMask
  have h := forRange_upper n (fun (r : Nat × Nat) p q => (r.1 <<< 1, if decide ((I = dofs.getD p 0 ∧ J = dofs.getD q 0) ∨ (J = dofs.getD p 0 ∧ I = dofs.getD q 0)) then r.2 ||| r.1 else r.2)) (1, 0)
  rw [pow_zero]
  rw [← h]
  simp only [decide_eq_true_eq]

theorem mask_bit {α : Type} (cond : α → Bool) (l : List α) (k : Nat) :
    (l.foldl (fun r q => (r.1 <<< 1, if cond q then r.2 ||| r.1 else r.2)) (2 ^ 0, 0)).2.testBit k = (l[k]?).any cond := by
  rw [(mask_fold cond l 0 0 (by norm_num)).2 k, if_neg (by omega), Nat.sub_zero]

/-- A loop with a counter. -/
theorem counter_idx {α : Type} (f : σ → α → Nat → σ) : ∀ (l : List α) (k : Nat) (A : σ),
    l.foldl (fun r q => (r.1 + 1, f r.2 q r.1)) (k, A) = (k + l.length, (l.zipIdx k).foldl (fun A e => f A e.1 e.2) A) := by
  intro l
  induction l with
  | nil => intro k A; rfl
  | cons a t ih =>
    intro k A
    rw [List.foldl_cons, ih, List.zipIdx_cons, List.foldl_cons, List.length_cons]
    congr 1
    dsimp only
    omega

theorem foldl_idx {α : Type} (f : σ → α → Nat → σ) (g : σ → α → σ) (l : List α) (A : σ) (h : ∀ A k (hk : k < l.length), f A l[k] k = g A l[k]) :
    (l.foldl (fun r q => (r.1 + 1, f r.2 q r.1)) (0, A)).2 = l.foldl g A := by
  rw [counter_idx]
  dsimp only
  have : (l.zipIdx 0).foldl (fun A e => f A e.1 e.2) A = (l.zipIdx 0).foldl (fun A e => g A e.1) A := by
    refine foldl_congr_mem _ _ _ (fun A e he => ?_) A
    obtain ⟨h1, h2⟩ := List.mem_zipIdx' he
    rw [h2]
    exact h A e.2 h1
  rw [this, ← List.foldl_map, List.zipIdx_map_fst]

theorem upper_loop_idx (n : Nat) (f : σ → Nat × Nat → Nat → σ) (A : σ) :
    (forRange 0 n (0, A) fun r p => forRange p n r fun r q => (r.1 + 1, f r.2 (p, q) r.1)) = (upper n).foldl (fun r q => (r.1 + 1, f r.2 q r.1)) (0, A) :=
  forRange_upper n (fun r p q => (r.1 + 1, f r.2 (p, q) r.1)) (0, A)

/-- Calls of the masked version. -/
def symItemsIf [Mul K] (n : Nat) (dofs : List Int) (M : Nat → Nat → K) (fac : K) (cond : Nat × Nat → Bool) : List (Nat × Nat × K) :=
  (upper n).flatMap fun q =>
    if cond q then
      if q.1 = q.2 then [((dofs.getD q.1 0).toNat, (dofs.getD q.1 0).toNat, fac * M q.1 q.2)]
      else [((dofs.getD q.1 0).toNat, (dofs.getD q.2 0).toNat, fac * M q.1 q.2), ((dofs.getD q.2 0).toNat, (dofs.getD q.1 0).toNat, fac * M q.1 q.2)]
    else []

theorem addSymMasked_eq [MulZeroClass K] (add : σ → Nat → Nat → K → σ) (n : Nat) (dofs : List Int) (M : Nat → Nat → K) (fac : K) (mask : Nat) (cond : Nat × Nat → Bool)
    (hm : ∀ k, mask.testBit k = ((upper n)[k]?).any cond) (A : σ) :
    addSymMasked add n dofs ((upper n).map fun q => M q.1 q.2) fac mask A = (symItemsIf n dofs M fac cond).foldl (fun A e => add A e.1 e.2.1 e.2.2) A := by
  unfold symItemsIf
  rw [foldl_flatMap']
  let F : σ → Nat × Nat → Nat → σ := fun A q k => if mask.testBit k then
      (if q.1 = q.2 then add A (dofs.getD q.1 0).toNat (dofs.getD q.1 0).toNat (fac * ((upper n).map fun q => M q.1 q.2).getD k 0)
      else add (add A (dofs.getD q.1 0).toNat (dofs.getD q.2 0).toNat (fac * ((upper n).map fun q => M q.1 q.2).getD k 0)) (dofs.getD q.2 0).toNat (dofs.getD q.1 0).toNat
        (fac * ((upper n).map fun q => M q.1 q.2).getD k 0)) else A
  rw [← foldl_idx F _ (upper n) A fun A k hk => ?_]
  · rw [← upper_loop_idx n F A]
    unfold addSymMasked
    dsimp only
    congr 1
    refine forRange_congr _ _ _ _ _ fun r p _ hp => ?_
    rw [forRange_first p n hp]
    have e1 : ∀ A k, F A (p, p) k = if mask.testBit k then add A (dofs.getD p 0).toNat (dofs.getD p 0).toNat (fac * ((upper n).map fun q => M q.1 q.2).getD k 0) else A :=
      fun A k => by simp only [F, if_true]
    rw [e1]
    refine forRange_congr _ _ _ _ _ fun r q hq _ => ?_
    simp only [F, if_neg (show ¬ p = q by omega)]
  · simp only [F]
    rw [hm, List.getElem?_eq_getElem hk, List.getD_eq_getElem ((upper n).map fun q => M q.1 q.2) _ (by rw [List.length_map]; exact hk), List.getElem_map]
    simp only [Option.any_some]
    by_cases hc : cond (upper n)[k] = true
    · rw [if_pos hc, if_pos hc]
      split <;> rfl
    · rw [if_neg hc, if_neg hc]; rfl

theorem addGenMasked_eq [MulZeroClass K] (add : σ → Nat → Nat → K → σ) (n : Nat) (dofs : List Int) (M : Nat → Nat → K) (fac : K) (mask : Nat) (cond : Nat × Nat → Bool)
    (hm : ∀ k, mask.testBit k = (((List.range n).flatMap fun p => (List.range n).map fun q => (p, q))[k]?).any cond) (A : σ) :
    addGenMasked add n dofs ((List.range n).flatMap fun p => (List.range n).map fun q => M p q) fac mask A =
      (((List.range n).flatMap fun p => (List.range n).map fun q => (p, q)).flatMap fun q =>
        if cond q then [((dofs.getD q.1 0).toNat, (dofs.getD q.2 0).toNat, fac * M q.1 q.2)] else []).foldl (fun A e => add A e.1 e.2.1 e.2.2) A := by
  rw [foldl_flatMap']
  have e : ((List.range n).flatMap fun p => (List.range n).map fun q => M p q) = ((List.range n).flatMap fun p => (List.range n).map fun q => (p, q)).map fun q => M q.1 q.2 := by
    rw [List.map_flatMap]
    simp only [List.map_map]
    rfl
  rw [e]
  unfold addGenMasked
  rw [forRange_rect n n (fun r p q => (r.1 + 1, if mask.testBit r.1 then add r.2 (dofs.getD p 0).toNat (dofs.getD q 0).toNat
    (fac * (((List.range n).flatMap fun p => (List.range n).map fun q => (p, q)).map fun q => M q.1 q.2).getD r.1 0) else r.2)) (0, A)]
  generalize ((List.range n).flatMap fun p => (List.range n).map fun q => (p, q)) = L at hm ⊢
  rw [foldl_idx (fun A q k => if mask.testBit k then add A (dofs.getD q.1 0).toNat (dofs.getD q.2 0).toNat (fac * (L.map fun q => M q.1 q.2).getD k 0) else A) _ L A fun A k hk => ?_]
  rw [hm, List.getElem?_eq_getElem hk, List.getD_eq_getElem (L.map fun q => M q.1 q.2) _ (by rw [List.length_map]; exact hk), List.getElem_map]
  simp only [Option.any_some]
  by_cases hc : cond L[k] = true
  · rw [if_pos hc, if_pos hc]; rfl
  · rw [if_neg hc, if_neg hc]; rfl

theorem extract_eq [NonAssocSemiring K] (n : Nat) (M : Nat → Nat → K) (fac : K) (mask : Nat) (cond : Nat × Nat → Bool) (hm : ∀ k, mask.testBit k = ((upper n)[k]?).any cond) :
    extract n ((upper n).map fun q => M q.1 q.2) fac mask = fac * ((upper n).map fun q => if cond q then M q.1 q.2 else 0).sum := by
  unfold extract
  rw [upper_loop_idx n (fun (s : K) _ k => if mask.testBit k then s + fac * ((upper n).map fun q => M q.1 q.2).getD k 0 else s),
    foldl_idx (fun (s : K) _ k => if mask.testBit k then s + fac * ((upper n).map fun q => M q.1 q.2).getD k 0 else s) (fun s q => s + fac * if cond q then M q.1 q.2 else 0) _ _ fun A k hk => ?_]
  · generalize upper n = L
    have : ∀ (L : List (Nat × Nat)) (s : K), L.foldl (fun s q => s + fac * if cond q then M q.1 q.2 else 0) s = s + fac * (L.map fun q => if cond q then M q.1 q.2 else 0).sum := by
      intro L
      induction L with
      | nil => intro s; simp
      | cons a t ih => intro s; rw [List.foldl_cons, ih, List.map_cons, List.sum_cons, mul_add, add_assoc]
    rw [this, zero_add]
  · rw [hm, List.getElem?_eq_getElem hk, List.getD_eq_getElem _ _ (by rw [List.length_map]; exact hk), List.getElem_map]
    simp only [Option.any_some]
    by_cases hc : cond (upper n)[k] = true
    · rw [if_pos hc, if_pos hc]
    · rw [if_neg hc, if_neg hc, mul_zero, add_zero]

end PyNucleus.NonlocalAssembly
