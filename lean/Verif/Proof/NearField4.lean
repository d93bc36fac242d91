import Verif.Proof.NearField3

/-! # Exterior contributions of cluster pairs -/

namespace PyNucleus.NearField

open PyNucleus.Loops PyNucleus.NonlocalAssembly PyNucleus.SSS
open PyNucleus.Simplex (upper)

variable {K : Type}

/-- The part of the contribution with `p ≤ q`, or with `q < p`. -/
def partExt [AddCommMonoid K] (n : Nat) (dofs : List Int) (M : Nat → Nat → K) (I J : Nat) (first : Bool) : K :=
  ∑ p ∈ Finset.range n, ∑ q ∈ Finset.range n, if (dofs.getD p 0 = I ∧ dofs.getD q 0 = J) ∧ decide (p ≤ q) = first then M p q else 0

theorem partExt_add [AddCommMonoid K] (n : Nat) (cell2dof : Nat → List Int) (value : Nat × Nat → Nat → Nat → K) (c : Nat × Nat) (I J : Nat) :
    partExt n (cell2dof c.1) (value c) I J true + partExt n (cell2dof c.1) (value c) I J false = extSum n cell2dof value c I J := by
  unfold partExt extSum
  rw [← Finset.sum_add_distrib]
  refine Finset.sum_congr rfl fun p _ => ?_
  rw [← Finset.sum_add_distrib]
  refine Finset.sum_congr rfl fun q _ => ?_
  by_cases h : p ≤ q
  · simp [h]
  · simp [h]

theorem cluster_step [Semiring K] (n : Nat) (C : Cluster) (row : List Int) (M : Nat → Nat → K) (hs : ∀ p q, p < n → q < n → M p q = M q p) (A : Nat → Nat → K) (I J : Nat) :
    addSymMasked denseAdd n row ((upper n).map fun q => M q.1 q.2) 1 (clusterMask n C row) A I J =
      A I J + ((if block C I J then partExt n row M I J true else 0) + if block C J I then partExt n row M I J false else 0) := by
  have hb : ∀ k, (clusterMask n C row).testBit k = ((upper n)[k]?).any fun q => isIn C.dofs1 row q.1 && isIn C.dofs2 row q.2 := by
    intro k
    unfold clusterMask
    rw [symMask_eq]
    exact mask_bit (fun q : Nat × Nat => isIn C.dofs1 row q.1 && isIn C.dofs2 row q.2) _ k
  rw [addSymMasked_entry n row M hs 1 _ _ hb, one_mul]
  · congr 1
    have e : ∀ p q : Nat, (if (row.getD p 0 = (I : Int) ∧ row.getD q 0 = (J : Int)) ∧ (isIn C.dofs1 row (min p q) && isIn C.dofs2 row (max p q)) = true then M p q else 0) =
        (if ((row.getD p 0 = (I : Int) ∧ row.getD q 0 = (J : Int)) ∧ decide (p ≤ q) = true) ∧ block C I J then M p q else 0) +
          if ((row.getD p 0 = (I : Int) ∧ row.getD q 0 = (J : Int)) ∧ decide (p ≤ q) = false) ∧ block C J I then M p q else 0 := by
      intro p q
      by_cases hd : row.getD p 0 = (I : Int) ∧ row.getD q 0 = (J : Int)
      · have i : ∀ (l : List Nat) (x : Nat) (Y : Nat), row.getD x 0 = (Y : Int) → (isIn l row x = true ↔ Y ∈ l) := by
          intro l x Y h
          unfold isIn
          rw [decide_eq_true_eq, h]
          simp
        simp only [hd, true_and]
        by_cases hpq : p ≤ q
        · rw [min_eq_left hpq, max_eq_right hpq]
          simp only [Bool.and_eq_true, i _ _ _ hd.1, i _ _ _ hd.2, hpq]
          simp [block]
        · rw [min_eq_right (by omega), max_eq_left (by omega)]
          simp only [Bool.and_eq_true, i _ _ _ hd.1, i _ _ _ hd.2, hpq]
          simp [block]
      · simp only [hd, false_and, if_false, add_zero]
    simp only [e, Finset.sum_add_distrib]
    congr 1
    · by_cases hB : block C I J
      · simp only [hB, and_true, if_true]; rfl
      · simp only [hB, and_false, if_false, Finset.sum_const_zero]
    · by_cases hB : block C J I
      · simp only [hB, and_true, if_true]; rfl
      · simp only [hB, and_false, if_false, Finset.sum_const_zero]
  · intro q hq
    unfold isIn at hq
    rw [Bool.and_eq_true, decide_eq_true_eq, decide_eq_true_eq] at hq
    exact ⟨hq.1.1, hq.2.1⟩

/-- Contribution of the exterior for a cluster pair. -/
def ext [Semiring K] (n : Nat) (cell2dof : Nat → List Int) (ns : List Nat → Nat) (value : List Nat → Nat × Nat → Nat → Nat → K) (I J : Nat) (C : Cluster) : K :=
  if block C I J then (C.inter.map fun a => ∑ b ∈ Finset.range (ns C.union), extSum n cell2dof (value C.union) (a, b) I J).sum else 0

theorem clusterExterior_entry [Semiring K] (n : Nat) (cell2dof : Nat → List Int) (ns : List Nat → Nat) (evalExt : List Nat → Nat × Nat → List K)
    (value : List Nat → Nat × Nat → Nat → Nat → K) (Cs : List Cluster) (hs : ∀ C ∈ Cs, ∀ c p q, p < n → q < n → value C.union c p q = value C.union c q p)
    (he : ∀ C ∈ Cs, ∀ a ∈ C.inter, ∀ b < ns C.union, evalExt C.union (a, b) = (upper n).map fun q => value C.union (a, b) q.1 q.2)
    (hsym : (Cs.map Cluster.swap).Perm Cs) (A : Nat → Nat → K) (I J : Nat) :
    clusterExterior denseAdd n cell2dof ns evalExt Cs A I J = A I J + (Cs.map (ext n cell2dof ns value I J)).sum := by
  let X : Bool → Cluster → K := fun first C => (C.inter.map fun a => ∑ b ∈ Finset.range (ns C.union), partExt n (cell2dof a) (value C.union (a, b)) I J first).sum
  have e1 : clusterExterior denseAdd n cell2dof ns evalExt Cs A I J = A I J + (Cs.map fun C => (if block C I J then X true C else 0) + if block C J I then X false C else 0).sum := by
    unfold clusterExterior
    refine foldl_entry Cs _ _ I J (fun C hC A => ?_) A
    have step : ∀ A : Nat → Nat → K, C.inter.foldl (fun A c1 => forRange 0 (ns C.union) A fun A c2 => addSymMasked denseAdd n (cell2dof c1) (evalExt C.union (c1, c2)) 1
        (clusterMask n C (cell2dof c1)) A) A I J = A I J + ((if block C I J then X true C else 0) + if block C J I then X false C else 0) := by
      intro A
      rw [foldl_entry C.inter _ (fun a => ((if block C I J then ∑ b ∈ Finset.range (ns C.union), partExt n (cell2dof a) (value C.union (a, b)) I J true else 0) +
        if block C J I then ∑ b ∈ Finset.range (ns C.union), partExt n (cell2dof a) (value C.union (a, b)) I J false else 0)) I J]
      · congr 1
        rw [list_sum_add]
        congr 1
        · by_cases hB : block C I J
          · simp only [if_pos hB]; rfl
          · simp only [if_neg hB]; simp
        · by_cases hB : block C J I
          · simp only [if_pos hB]; rfl
          · simp only [if_neg hB]; simp
      · intro a ha A
        unfold forRange
        rw [foldl_entry (List.range' 0 (ns C.union - 0)) _ (fun b => ((if block C I J then partExt n (cell2dof a) (value C.union (a, b)) I J true else 0) +
          if block C J I then partExt n (cell2dof a) (value C.union (a, b)) I J false else 0)) I J]
        · congr 1
          rw [range'_sum, Nat.sub_zero, Nat.zero_add, ← Finset.range_eq_Ico, Finset.sum_add_distrib]
          congr 1
          · by_cases hB : block C I J
            · simp only [if_pos hB]
            · simp only [if_neg hB]; simp
          · by_cases hB : block C J I
            · simp only [if_pos hB]
            · simp only [if_neg hB]; simp
        · intro b hb A
          have hb' : b < ns C.union := by
            rw [List.mem_range'_1] at hb; omega
          rw [he C hC a ha b hb', cluster_step n C (cell2dof a) (value C.union (a, b)) (hs C hC (a, b))]
    by_cases hz : C.inter.length = 0
    · have hn : C.inter = [] := List.length_eq_zero_iff.1 hz
      have := step A
      rw [hn] at this
      rw [if_pos hz]
      exact this
    · rw [if_neg hz]; exact step A
  rw [e1]
  congr 1
  have e2 : Cs.map (ext n cell2dof ns value I J) = Cs.map fun C => (if block C I J then X true C else 0) + if block C I J then X false C else 0 := by
    refine List.map_congr_left fun C _ => ?_
    unfold ext
    by_cases hB : block C I J
    · simp only [if_pos hB, X]
      rw [← list_sum_add]
      congr 1
      refine List.map_congr_left fun a _ => ?_
      rw [← Finset.sum_add_distrib]
      exact Finset.sum_congr rfl fun b _ => (partExt_add n cell2dof (value C.union) (a, b) I J).symm
    · simp only [if_neg hB, add_zero]
  rw [e2, list_sum_add, list_sum_add]
  congr 1
  have : (fun C : Cluster => if block C J I then X false C else 0) = (fun C => if block C I J then X false C else 0) ∘ Cluster.swap := by
    funext C
    show _ = if block C.swap I J then X false C.swap else 0
    have hb : block C.swap I J ↔ block C J I := and_comm
    by_cases hB : block C J I
    · rw [if_pos hB, if_pos (hb.2 hB)]; rfl
    · rw [if_neg hB, if_neg (fun x => hB (hb.1 x))]
  rw [this, ← List.map_map]
  exact (hsym.map _).sum_eq

end PyNucleus.NearField
