import Verif.Proof.NonlocalAssembly2

/-! # `getEntry` -/

namespace PyNucleus.NonlocalAssembly

open PyNucleus.Loops PyNucleus.Assembly
open PyNucleus.Simplex (upper)

variable {K σ : Type}

/-- Pairs with the numbers `I` and `J` in one of the two orders. -/
def hits (dofs : List Int) (I J : Int) (q : Nat × Nat) : Bool :=
  decide ((I = dofs.getD q.1 0 ∧ J = dofs.getD q.2 0) ∨ (J = dofs.getD q.1 0 ∧ I = dofs.getD q.2 0))

theorem entryMask_bit (n : Nat) (dofs : List Int) (I J : Int) (k : Nat) : (entryMask n dofs I J).testBit k = ((upper n)[k]?).any (hits dofs I J) := by
  rw [entryMask_eq]
  exact mask_bit (hits dofs I J) (upper n) k

theorem hits_sum [AddCommMonoid K] (n : Nat) (dofs : List Int) (I J : Nat) (M : Nat → Nat → K) (hs : ∀ p q, p < n → q < n → M p q = M q p)
    (h1 : I = J → ∀ p q, p < n → q < n → p ≠ q → dofs.getD p 0 = I → dofs.getD q 0 = I → M p q = 0) :
    ((upper n).map fun q => if hits dofs I J q then M q.1 q.2 else 0).sum =
      ∑ p ∈ Finset.range n, ∑ q ∈ Finset.range n, if dofs.getD p 0 = I ∧ dofs.getD q 0 = J then M p q else 0 := by
  refine upper_sum_sym n _ _ fun p q hpq hq => ?_
  dsimp only
  unfold hits
  simp only [decide_eq_true_eq]
  rw [hs q p hq (by omega)]
  generalize hP : dofs.getD p 0 = P at h1 ⊢
  by_cases he : p = q
  · subst he
    rw [if_pos rfl, hP]
    by_cases h : P = (I : Int) ∧ P = (J : Int)
    · rw [if_pos h, if_pos (by omega)]
    · rw [if_neg h, if_neg (by omega)]
  · rw [if_neg he]
    generalize hQ : dofs.getD q 0 = Q
    by_cases hIJ : I = J
    · subst hIJ
      by_cases h : P = (I : Int) ∧ Q = (I : Int)
      · rw [h1 rfl p q (by omega) hq he (hP.trans h.1) (hQ.trans h.2)]
        simp
      · rw [if_neg (by omega), if_neg h, if_neg (by omega), add_zero]
    · by_cases h : P = (I : Int) ∧ Q = (J : Int)
      · rw [if_pos (by omega), if_pos h, if_neg (by omega), add_zero]
      · rw [if_neg h, zero_add]
        by_cases h2 : Q = (I : Int) ∧ P = (J : Int)
        · rw [if_pos h2, if_pos (by omega)]
        · rw [if_neg h2, if_neg (by omega)]

/-- What is read from a local matrix is its contribution. -/
theorem extract_pair [NonAssocSemiring K] (n : Nat) (cell2dof : Nat → List Int) (value : Nat × Nat → Nat → Nat → K) (c : Nat × Nat) (I J : Nat) (fac : K)
    (hs : ∀ p q, p < 2 * n → q < 2 * n → value c p q = value c q p)
    (h1 : I = J → ∀ p q, p < 2 * n → q < 2 * n → p ≠ q → (pairDofs cell2dof c).getD p 0 = I → (pairDofs cell2dof c).getD q 0 = I → value c p q = 0) :
    extract (2 * n) ((upper (2 * n)).map fun q => value c q.1 q.2) fac (entryMask (2 * n) (pairDofs cell2dof c) I J) = fac * pairSum n cell2dof value c I J := by
  rw [extract_eq (2 * n) (value c) fac _ (hits (pairDofs cell2dof c) I J) (entryMask_bit _ _ _ _), hits_sum _ _ _ _ _ hs h1]
  rfl

theorem extract_zero [NonAssocSemiring K] (n : Nat) (contrib : List K) (fac : K) : extract n contrib fac 0 = 0 := by
  unfold extract
  simp only [Nat.zero_testBit]
  rw [upper_loop_idx n (fun (s : K) _ k => if (false : Bool) = true then s + fac * contrib.getD k 0 else s), foldl_idx (fun (s : K) _ k => if (false : Bool) = true then s + fac * contrib.getD k 0 else s) (fun s _ => s) _ _ fun _ _ _ => rfl]
  induction upper n with
  | nil => rfl
  | cons a t ih => exact ih

theorem foldl_add {α : Type} [AddCommMonoid K] (l : List α) (f : K → α → K) (g : α → K) (h : ∀ s, ∀ a ∈ l, f s a = s + g a) (s : K) : l.foldl f s = s + (l.map g).sum := by
  induction l generalizing s with
  | nil => simp
  | cons a t ih =>
    rw [List.foldl_cons, h s a (by simp), ih (fun s b hb => h s b (by simp [hb])), List.map_cons, List.sum_cons, add_assoc]

theorem entryNear_eq [Semiring K] (n : Nat) (cell2dof : Nat → List Int) (ignored : Nat × Nat → Bool) (eval : Nat × Nat → List K) (value : Nat × Nat → Nat → Nat → K) (I J : Nat) (U : List Nat)
    (hs : ∀ c p q, p < 2 * n → q < 2 * n → value c p q = value c q p)
    (h1 : I = J → ∀ c p q, p < 2 * n → q < 2 * n → p ≠ q → (pairDofs cell2dof c).getD p 0 = I → (pairDofs cell2dof c).getD q 0 = I → value c p q = 0)
    (he : ∀ c1 ∈ U, ∀ c2 ∈ U, c1 ≤ c2 → (ignored (c1, c2) = false ∨ c1 = c2) → eval (c1, c2) = (upper (2 * n)).map fun q => value (c1, c2) q.1 q.2)
    (hz : ∀ c1 ∈ U, ∀ c2 ∈ U, c1 < c2 → ignored (c1, c2) = true → ∀ p q, p < 2 * n → q < 2 * n → value (c1, c2) p q = 0) (s : K) :
    entryNear true n cell2dof ignored eval I J U s = s + (U.map fun c1 => (U.map fun c2 => if c2 < c1 then 0 else if c1 = c2 then pairSum n cell2dof value (c1, c2) I J
      else (1 + 1) * pairSum n cell2dof value (c1, c2) I J).sum).sum := by
  unfold entryNear
  suffices H : ∀ (R : List Nat), (∀ c ∈ R, c ∈ U) → ∀ (s : K) (l0 : Nat × Nat), (R.foldl (fun st c1 =>
      U.foldl (fun st c2 =>
        if c2 < c1 then st
        else if entryMask (2 * n) (pairDofs cell2dof (c1, c2)) I J = 0 then st
          else if c1 = c2 then (st.1 + extract (2 * n) (eval (st.2.1, c2)) 1 (entryMask (2 * n) (pairDofs cell2dof (c1, c2)) I J), (st.2.1, c2))
            else if (true : Bool) = true then
              if ignored (st.2.1, c2) then (st.1, (st.2.1, c2)) else (st.1 + extract (2 * n) (eval (st.2.1, c2)) (1 + 1) (entryMask (2 * n) (pairDofs cell2dof (c1, c2)) I J), (st.2.1, c2))
            else if ignored (c2, st.2.1) then (if ignored (st.2.1, c2) then st.1 else st.1 + extract (2 * n) (eval (st.2.1, c2)) 1 (entryMask (2 * n) (pairDofs cell2dof (c1, c2)) I J), (c2, st.2.1))
              else ((if ignored (st.2.1, c2) then st.1 else st.1 + extract (2 * n) (eval (st.2.1, c2)) 1 (entryMask (2 * n) (pairDofs cell2dof (c1, c2)) I J)) +
                extract (2 * n) (eval (c2, st.2.1)) 1 (entryMask (2 * n) (pairDofs cell2dof (c2, c1)) I J), (c2, st.2.1))) (st.1, (c1, st.2.2)))
      (s, l0)).1 = s + (R.map fun c1 => (U.map fun c2 => if c2 < c1 then 0 else if c1 = c2 then pairSum n cell2dof value (c1, c2) I J
        else (1 + 1) * pairSum n cell2dof value (c1, c2) I J).sum).sum from H U (fun _ h => h) s (0, 0)
  intro R
  induction R with
  | nil => intro _ s l0; simp
  | cons c1 R ih =>
    intro hR s l0
    have hc1 := hR c1 (by simp)
    rw [List.foldl_cons, List.map_cons, List.sum_cons, ← add_assoc]
    suffices H : ∀ (C : List Nat), (∀ c ∈ C, c ∈ U) → ∀ (s : K) (x : Nat), ∃ y, (C.foldl (fun st c2 =>
        if c2 < c1 then st
        else if entryMask (2 * n) (pairDofs cell2dof (c1, c2)) I J = 0 then st
          else if c1 = c2 then (st.1 + extract (2 * n) (eval (st.2.1, c2)) 1 (entryMask (2 * n) (pairDofs cell2dof (c1, c2)) I J), (st.2.1, c2))
            else if (true : Bool) = true then
              if ignored (st.2.1, c2) then (st.1, (st.2.1, c2)) else (st.1 + extract (2 * n) (eval (st.2.1, c2)) (1 + 1) (entryMask (2 * n) (pairDofs cell2dof (c1, c2)) I J), (st.2.1, c2))
            else if ignored (c2, st.2.1) then (if ignored (st.2.1, c2) then st.1 else st.1 + extract (2 * n) (eval (st.2.1, c2)) 1 (entryMask (2 * n) (pairDofs cell2dof (c1, c2)) I J), (c2, st.2.1))
              else ((if ignored (st.2.1, c2) then st.1 else st.1 + extract (2 * n) (eval (st.2.1, c2)) 1 (entryMask (2 * n) (pairDofs cell2dof (c1, c2)) I J)) +
                extract (2 * n) (eval (c2, st.2.1)) 1 (entryMask (2 * n) (pairDofs cell2dof (c2, c1)) I J), (c2, st.2.1))) (s, (c1, x))) =
          (s + (C.map fun c2 => if c2 < c1 then 0 else if c1 = c2 then pairSum n cell2dof value (c1, c2) I J else (1 + 1) * pairSum n cell2dof value (c1, c2) I J).sum, (c1, y)) by
      obtain ⟨y, hy⟩ := H U (fun _ h => h) s l0.2
      rw [hy]
      exact ih (fun c hc => hR c (by simp [hc])) _ _
    intro C
    induction C with
    | nil => intro _ s x; exact ⟨x, by simp⟩
    | cons c2 C ihC =>
      intro hC s x
      have hc2 := hC c2 (by simp)
      have hC' : ∀ c ∈ C, c ∈ U := fun c hc => hC c (by simp [hc])
      rw [List.foldl_cons, List.map_cons, List.sum_cons, ← add_assoc]
      dsimp only
      by_cases hlt : c2 < c1
      · rw [if_pos hlt, if_pos hlt, add_zero]
        exact ihC hC' s x
      rw [if_neg hlt, if_neg hlt]
      have hval := fun h fac => extract_pair n cell2dof value (c1, c2) I J fac (hs _) (fun e => h1 e _) ▸ congrArg (fun e => extract (2 * n) e fac (entryMask (2 * n) (pairDofs cell2dof (c1, c2)) I J)) (he c1 hc1 c2 hc2 (by omega) h)
      by_cases hm : entryMask (2 * n) (pairDofs cell2dof (c1, c2)) I J = 0
      · have hp : pairSum n cell2dof value (c1, c2) I J = 0 := by
          have := extract_pair n cell2dof value (c1, c2) I J 1 (hs _) (fun e => h1 e _)
          rw [hm, extract_zero, one_mul] at this
          exact this.symm
        rw [if_pos hm, hp]
        simp only [mul_zero, ite_self, add_zero]
        exact ihC hC' s x
      rw [if_neg hm]
      by_cases hc : c1 = c2
      · rw [if_pos hc, if_pos hc, hval (Or.inr hc) 1, one_mul]
        exact ihC hC' _ _
      · rw [if_neg hc, if_neg hc, if_pos rfl]
        by_cases hi : ignored (c1, c2) = true
        · have hp : pairSum n cell2dof value (c1, c2) I J = 0 := by
            unfold pairSum
            refine Finset.sum_eq_zero fun p hp => Finset.sum_eq_zero fun q hq => ?_
            rw [hz c1 hc1 c2 hc2 (by omega) hi p q (Finset.mem_range.1 hp) (Finset.mem_range.1 hq), ite_self]
          rw [if_pos hi, hp, mul_zero, add_zero]
          exact ihC hC' _ _
        · rw [if_neg hi, hval (Or.inl (by simpa using hi)) (1 + 1)]
          exact ihC hC' _ _

theorem filter_sum [AddCommMonoid K] (nc : Nat) (P : Nat → Bool) (f : Nat → K) : (((List.range nc).filter P).map f).sum = ∑ c ∈ Finset.range nc, if P c then f c else 0 := by
  induction nc with
  | zero => rfl
  | succ m ih =>
    rw [List.range_succ, List.filter_append, List.map_append, List.sum_append, ih, Finset.sum_range_succ]
    congr 1
    cases h : P m <;> simp [h]

theorem union_sum [Semiring K] (nc : Nat) (P : Nat → Bool) (F : Nat → Nat → K) (hF : ∀ c1 c2, c1 < nc → c2 < nc → F c1 c2 = F c2 c1) :
    (((List.range nc).filter P).map fun c1 => (((List.range nc).filter P).map fun c2 => if c2 < c1 then 0 else if c1 = c2 then F c1 c2 else (1 + 1) * F c1 c2).sum).sum =
      ∑ c1 ∈ Finset.range nc, ∑ c2 ∈ Finset.range nc, if P c1 && P c2 then F c1 c2 else 0 := by
  rw [filter_sum, ← upper_sum_sym nc (fun c => if c.1 = c.2 then (if P c.1 && P c.2 then F c.1 c.2 else 0) else (if P c.1 && P c.2 then F c.1 c.2 else 0) + if P c.2 && P c.1 then F c.2 c.1 else 0)
    (fun c1 c2 => if P c1 && P c2 then F c1 c2 else 0) fun _ _ _ _ => rfl, upper_sum]
  refine Finset.sum_congr rfl fun c1 h1 => ?_
  rw [Finset.mem_range] at h1
  cases hP : P c1
  · simp [hP]
  · rw [if_pos rfl, filter_sum]
    refine Finset.sum_congr rfl fun c2 h2 => ?_
    rw [Finset.mem_range] at h2
    dsimp only
    cases hP2 : P c2
    · simp [hP2]
    · by_cases h : c2 < c1
      · rw [if_pos rfl, if_pos h, if_neg (by omega)]
      · rw [if_pos rfl, if_neg h, if_pos (show c1 ≤ c2 by omega), hF c2 c1 h2 h1]
        simp only [hP, Bool.and_self, if_true, add_mul, one_mul]

end PyNucleus.NonlocalAssembly
