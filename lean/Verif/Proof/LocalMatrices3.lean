import Verif.Proof.LocalMatrices2

/-! Stiffness matrices. -/

namespace PyNucleus.Simplex

open MvPolynomial PyNucleus.ShapeFunctions PyNucleus.LocalMatrices

variable {K : Type} [Field K] [CharZero K]

/-- Only the normal form of a quadratic form matters if the rows of the symmetric matrix sum to zero. -/
theorem form_eq (n : Nat) (A B : Fin n → Fin n → K) (G : Fin n → Fin n → K) (hs : ∀ k l, G k l = G l k) (hz : ∀ k, ∑ l, G k l = 0)
    (h : ∀ k l, A k l + A l k - A k k - A l l = B k l + B l k - B k k - B l l) :
    ∑ k, ∑ l, A k l * G k l = ∑ k, ∑ l, B k l * G k l := by
  have key : ∀ A : Fin n → Fin n → K, ∑ k, ∑ l, (A k l + A l k - A k k - A l l) * G k l = 2 * ∑ k, ∑ l, A k l * G k l := fun A => by
    have h1 : ∑ k, ∑ l, A l k * G k l = ∑ k, ∑ l, A k l * G k l := by
      rw [Finset.sum_comm]
      exact Finset.sum_congr rfl fun k _ => Finset.sum_congr rfl fun l _ => by rw [hs]
    have h2 : ∑ k, ∑ l, A k k * G k l = 0 := Finset.sum_eq_zero fun k _ => by rw [← Finset.mul_sum, hz, mul_zero]
    have h3 : ∑ k, ∑ l, A l l * G k l = 0 := by
      rw [Finset.sum_comm]
      refine Finset.sum_eq_zero fun k _ => ?_
      rw [← Finset.mul_sum, Finset.sum_congr rfl fun l _ => hs l k, hz, mul_zero]
    have h4 : ∑ k, ∑ l, (A k l + A l k - A k k - A l l) * G k l = ∑ k, ∑ l, A k l * G k l + ∑ k, ∑ l, A l k * G k l - ∑ k, ∑ l, A k k * G k l - ∑ k, ∑ l, A l l * G k l := by
      simp only [← Finset.sum_add_distrib, ← Finset.sum_sub_distrib]
      exact Finset.sum_congr rfl fun k _ => Finset.sum_congr rfl fun l _ => by ring
    rw [h4, h1, h2, h3]
    ring
  have h5 := key A
  rw [Finset.sum_congr rfl fun k _ => Finset.sum_congr rfl fun l _ => by rw [h k l], key B] at h5
  exact (mul_left_cancel₀ two_ne_zero h5).symm

/-- The row of a table as quadratic form. -/
theorem row_form (d : Nat) (row : List (Int × Nat)) (hr : ∀ t ∈ row, t.2 < (upper (d + 1)).length) (L : Nat → Nat → K) :
    (row.map fun t : Int × Nat => (t.1 : K) * ((upper (d + 1)).map fun q => L q.1 q.2).getD t.2 0).sum =
      ∑ k : Fin (d + 1), ∑ l : Fin (d + 1), (rowMat d row k l : K) * L k l := by
  induction row with
  | nil => simp [rowMat]
  | cons t row ih =>
    rw [List.map_cons, List.sum_cons, ih fun t ht => hr t (List.mem_cons_of_mem _ ht)]
    have h1 : ∀ k l, (rowMat d (t :: row) k l : K) = (if (upper (d + 1))[t.2]? = some (k, l) then (t.1 : K) else 0) + (rowMat d row k l : K) := fun k l => by
      unfold rowMat
      rw [List.map_cons, List.sum_cons, Int.cast_add]
      split <;> simp
    simp only [h1, add_mul, Finset.sum_add_distrib]
    congr 1
    have ht := hr t List.mem_cons_self
    obtain ⟨a, b⟩ := t
    dsimp only at ht ⊢
    rcases hij : (upper (d + 1))[b] with ⟨i, j⟩
    have hm := (mem_upper (d + 1) (i, j)).1 (hij ▸ List.getElem_mem ht)
    dsimp only at hm
    rw [List.getD_eq_getElem?_getD, List.getElem?_map, List.getElem?_eq_getElem ht, hij]
    rw [Finset.sum_eq_single (⟨i, by omega⟩ : Fin (d + 1))]
    · rw [Finset.sum_eq_single (⟨j, by omega⟩ : Fin (d + 1))]
      · simp
      · intro l _ hl
        rw [if_neg, zero_mul]
        intro e
        simp only [Option.some.injEq, Prod.mk.injEq] at e
        exact hl (Fin.ext e.2.symm)
      · exact fun h => absurd (Finset.mem_univ _) h
    · intro k _ hk
      refine Finset.sum_eq_zero fun l _ => ?_
      rw [if_neg, zero_mul]
      intro e
      simp only [Option.some.injEq, Prod.mk.injEq] at e
      exact hk (Fin.ext e.1.symm)
    · exact fun h => absurd (Finset.mem_univ _) h

theorem getD_matOf (n : Nat) (A : Nat → Nat → Int) (k l : Nat) (hk : k < n) (hl : l < n) : ((matOf n A).getD k []).getD l 0 = A k l := by
  unfold matOf
  rw [List.getD_eq_getElem?_getD (l := List.map _ _), List.getElem?_map, List.getElem?_range hk]
  dsimp only [Option.map_some, Option.getD_some]
  rw [List.getD_eq_getElem?_getD, List.getElem?_map, List.getElem?_range hl]; rfl

theorem getD_map_range' {α : Type} (n i : Nat) (f : Nat → α) (a : α) (h : i < n) : ((List.range n).map f).getD i a = f i := by
  rw [List.getD_eq_getElem?_getD, List.getElem?_map, List.getElem?_range h]; rfl

/-- One pair of shape functions: the mean value of the product of the gradients. -/
theorem pair_form (d M F : Nat) (f g : Poly) (row : List (Int × Nat)) (hc : stiffnessPair d M F f g row = true)
    (G : Fin (d + 1) → Fin (d + 1) → K) (hs : ∀ k l, G k l = G l k) (hz : ∀ k, ∑ l, G k l = 0) :
    ∑ k : Fin (d + 1), ∑ l : Fin (d + 1), ((mean d (pderiv k (toMv (d + 1) f) * pderiv l (toMv (d + 1) g)) : ℚ) : K) * G k l =
      (d.factorial / M.factorial * F) * ∑ k : Fin (d + 1), ∑ l : Fin (d + 1), (rowMat d row k l : K) * G k l := by
  unfold stiffnessPair at hc
  simp only [List.all_eq_true, List.mem_range, Bool.and_eq_true, beq_iff_eq] at hc
  have hA : ∀ k l : Fin (d + 1), mean d (pderiv k (toMv (d + 1) f) * pderiv l (toMv (d + 1) g)) =
      meanInt d M (mul (d + 1) (deriv (d + 1) k f) (deriv (d + 1) l g)) * (d.factorial / M.factorial) := fun k l => by
    have h1 := (hc k k.2 l l.2).1
    rw [getD_map_range' _ _ _ _ k.2, getD_map_range' _ _ _ _ l.2] at h1
    rw [← mean_toMv d M _ h1, toMv_mul, toMv_deriv, toMv_deriv]
  have hN : ∀ k l : Fin (d + 1), normal (fun k l => meanInt d M (mul (d + 1) (deriv (d + 1) k f) (deriv (d + 1) l g))) k l = F * normal (rowMat d row) k l := fun k l => by
    have h1 := (hc k k.2 l l.2).2
    unfold normal at h1 ⊢
    simp only [getD_matOf _ _ _ _ k.2 l.2, getD_matOf _ _ _ _ l.2 k.2, getD_matOf _ _ _ _ k.2 k.2, getD_matOf _ _ _ _ l.2 l.2,
      getD_map_range' _ _ _ _ k.2, getD_map_range' _ _ _ _ l.2] at h1
    exact h1
  have h2 := form_eq (d + 1) (fun k l => ((meanInt d M (mul (d + 1) (deriv (d + 1) k f) (deriv (d + 1) l g)) : Int) : K))
    (fun k l => (F : K) * (rowMat d row k l : K)) G hs hz fun k l => by
      have h3 := congrArg (fun x : Int => (x : K)) (hN k l)
      unfold normal at h3
      push_cast at h3
      linear_combination h3
  have h4 : ∀ k l : Fin (d + 1), ((mean d (pderiv k (toMv (d + 1) f) * pderiv l (toMv (d + 1) g)) : ℚ) : K) * G k l =
      (d.factorial / M.factorial) * (((meanInt d M (mul (d + 1) (deriv (d + 1) k f) (deriv (d + 1) l g)) : Int) : K) * G k l) := fun k l => by
    rw [hA]
    push_cast
    ring
  simp only [h4, ← Finset.mul_sum]
  rw [h2, Finset.mul_sum, Finset.mul_sum]
  refine Finset.sum_congr rfl fun k _ => ?_
  rw [Finset.mul_sum, Finset.mul_sum]
  exact Finset.sum_congr rfl fun l _ => by ring

theorem pderiv_C_two (d : Nat) (k : Fin (d + 1)) (f : MvPolynomial (Fin (d + 1)) ℚ) : pderiv k (C (2 : ℚ) * f) = C 2 * pderiv k f := pderiv_C_mul

/-- All entries. -/
theorem stiffness_forms (p d : Nat) (h0 : 1 ≤ p) (hp : p ≤ 3) (h1 : 1 ≤ d) (h3 : d ≤ 3) (f : Nat → MvPolynomial (Fin (d + 1)) ℚ) (hf : IsShape p d f)
    (G : Nat → Nat → K) (hs : ∀ k l, G k l = G l k) (hz : ∀ k, k ≤ d → ∑ l : Fin (d + 1), G k l = 0) :
    ((upper (localShapeFunctions p d).length).map fun q => ∑ k : Fin (d + 1), ∑ l : Fin (d + 1), ((mean d (pderiv k (f q.1) * pderiv l (f q.2)) : ℚ) : K) * G k l) =
      (stiffnessRows p d).map fun row => (row.map fun t : Int × Nat => (t.1 : K) * ((upper (d + 1)).map fun q => G q.1 q.2).getD t.2 0).sum *
        ((stiffnessF p d : K) / 4 * ((d.factorial : K) / ((d + 2 * (p - 1)).factorial : K))) := by
  have hc := stiffnessCheck_true p d h0 hp h1 h3
  unfold stiffnessCheck at hc
  simp only [Bool.and_eq_true, beq_iff_eq, List.all_eq_true, decide_eq_true_eq, doubles_length] at hc
  obtain ⟨⟨hl, hr⟩, hc⟩ := hc
  refine List.ext_getElem (by rw [List.length_map, List.length_map, hl]) fun i hi1 hi2 => ?_
  rw [List.length_map] at hi1 hi2
  rw [List.getElem_map, List.getElem_map]
  have hz1 : ((upper (localShapeFunctions p d).length)[i], (stiffnessRows p d)[i]) ∈ (upper (localShapeFunctions p d).length).zip (stiffnessRows p d) := by
    rw [← List.getElem_zip (h := by rw [List.length_zip]; omega)]
    exact List.getElem_mem _
  have h5 := hc _ hz1
  have h6 := pair_form d _ _ _ _ _ h5 (fun k l => G k l) (fun k l => hs k l) (fun k => hz k (by omega))
  have hm := (mem_upper _ _).1 (List.getElem_mem (l := upper (localShapeFunctions p d).length) (h := hi1))
  rw [row_form d _ (hr _ (List.getElem_mem hi2)) G]
  rw [← isShape_eq p d hp h1 h3 f hf _ (lt_of_le_of_lt hm.1 hm.2), ← isShape_eq p d hp h1 h3 f hf _ hm.2] at h6
  have h7 : ∀ k l : Fin (d + 1), mean d (pderiv k (C (2 : ℚ) * f (upper (localShapeFunctions p d).length)[i].1) * pderiv l (C (2 : ℚ) * f (upper (localShapeFunctions p d).length)[i].2)) =
      4 * mean d (pderiv k (f (upper (localShapeFunctions p d).length)[i].1) * pderiv l (f (upper (localShapeFunctions p d).length)[i].2)) := fun k l => by
    rw [pderiv_C_two, pderiv_C_two, show ∀ a b : MvPolynomial (Fin (d + 1)) ℚ, C (2 : ℚ) * a * (C (2 : ℚ) * b) = C 2 * (C 2 * (a * b)) from fun a b => by ring,
      mean_C_mul, mean_C_mul]
    ring
  simp only [h7] at h6
  push_cast at h6
  simp only [mul_assoc (4 : K), ← Finset.mul_sum] at h6
  linear_combination h6 / 4

end PyNucleus.Simplex
