import Verif.Proof.LocalMatrices
import Mathlib.Tactic.LinearCombination
import Mathlib.Algebra.CharZero.Infinite

/-! From the checks of `Verif.Proof.LocalMatrices` to statements about mean values. -/

namespace PyNucleus.Simplex

open MvPolynomial PyNucleus.ShapeFunctions PyNucleus.LocalMatrices

/-- Polynomials of the shape functions. -/
def IsShape (p d : Nat) (f : Nat → MvPolynomial (Fin (d + 1)) ℚ) : Prop :=
  ∀ i (h : i < (localShapeFunctions p d).length) (lam : List ℚ), eval (fun k : Fin (d + 1) => lam.getD k 0) (f i) = ((localShapeFunctions p d)[i]).eval lam

theorem eq_of_eval (n : Nat) (f g : MvPolynomial (Fin n) ℚ) (h : ∀ lam : List ℚ, eval (fun k : Fin n => lam.getD k 0) f = eval (fun k : Fin n => lam.getD k 0) g) : f = g := by
  refine MvPolynomial.funext fun x => ?_
  have h1 : (fun k : Fin n => (List.ofFn x).getD k 0) = x := by
    funext k
    rw [List.getD_eq_getElem?_getD, List.getElem?_ofFn, dif_pos k.2]
    rfl
  have h2 := h (List.ofFn x)
  rwa [h1] at h2

theorem doubles_getD (p d i : Nat) (h : i < (localShapeFunctions p d).length) : (doubles p d).getD i [] = double (d + 1) ((localShapeFunctions p d)[i]) := by
  rw [doubles, List.getD_eq_getElem?_getD, List.getElem?_map, List.getElem?_eq_getElem h]; rfl

theorem isShape_eq (p d : Nat) (hp : p ≤ 3) (h1 : 1 ≤ d) (h3 : d ≤ 3) (f : Nat → MvPolynomial (Fin (d + 1)) ℚ) (hf : IsShape p d f) (i : Nat)
    (h : i < (localShapeFunctions p d).length) : C (2 : ℚ) * f i = toMv (d + 1) ((doubles p d).getD i []) := by
  refine eq_of_eval _ _ _ fun lam => ?_
  rw [map_mul, eval_C, hf i h, doubles_getD _ _ _ h, eval_double _ _ (vertsLt_local p d hp h1 h3 _ (List.getElem_mem h))]

theorem isShape_exists (p d : Nat) (hp : p ≤ 3) (h1 : 1 ≤ d) (h3 : d ≤ 3) : ∃ f, IsShape p d f :=
  ⟨fun i => C (1 / 2 : ℚ) * toMv (d + 1) ((doubles p d).getD i []), fun i h lam => by
    rw [map_mul, eval_C, doubles_getD _ _ _ h, eval_double _ _ (vertsLt_local p d hp h1 h3 _ (List.getElem_mem h))]
    ring⟩

theorem mean_C_mul (d : Nat) (c : ℚ) (f : MvPolynomial (Fin (d + 1)) ℚ) : mean d (C c * f) = c * mean d f := by
  rw [← smul_eq_C_mul, map_smul, smul_eq_mul]

theorem mem_upper (n : Nat) (q : Nat × Nat) : q ∈ upper n ↔ q.1 ≤ q.2 ∧ q.2 < n := by
  unfold upper
  simp only [List.mem_flatMap, List.mem_map, List.mem_range]
  constructor
  · rintro ⟨i, hi, j, hj, rfl⟩
    dsimp only
    omega
  · rintro ⟨h1, h2⟩
    exact ⟨q.1, by omega, q.2 - q.1, by omega, by ext <;> dsimp only; omega⟩

theorem doubles_length (p d : Nat) : (doubles p d).length = (localShapeFunctions p d).length := List.length_map _

/-- Mean values of products of shape functions. -/
theorem mass_means (p d : Nat) (hp : p ≤ 3) (h1 : 1 ≤ d) (h3 : d ≤ 3) (f : Nat → MvPolynomial (Fin (d + 1)) ℚ) (hf : IsShape p d f) :
    ((upper (localShapeFunctions p d).length).map fun q => mean d (f q.1 * f q.2)) =
      (mass p d).factors.map fun a : Int => (a : ℚ) * ((massF p d : ℚ) / 4 * (d.factorial / (d + 2 * p).factorial)) := by
  have hc := massCheck_true p d hp h1 h3
  unfold massCheck at hc
  dsimp only at hc
  rw [Bool.and_eq_true, List.all_eq_true] at hc
  have h2 := congrArg (List.map fun x : Int => (x : ℚ) * (1 / 4 * (d.factorial / (d + 2 * p).factorial))) (eq_of_beq hc.2)
  rw [List.map_map, List.map_map, List.map_map, doubles_length] at h2
  have h4 : ∀ q ∈ upper (localShapeFunctions p d).length, mean d (f q.1 * f q.2) =
      ((meanInt d (d + 2 * p) (mul (d + 1) ((doubles p d).getD q.1 []) ((doubles p d).getD q.2 [])) : Int) : ℚ) * (1 / 4 * (d.factorial / (d + 2 * p).factorial)) := by
    intro q hq
    have hq' := (mem_upper _ _).1 hq
    have hok := hc.1 _ (List.mem_map_of_mem (f := fun q : Nat × Nat => mul (d + 1) ((doubles p d).getD q.1 []) ((doubles p d).getD q.2 [])) (doubles_length p d ▸ hq))
    have h5 := mean_toMv d (d + 2 * p) _ hok
    rw [toMv_mul, ← isShape_eq p d hp h1 h3 f hf q.1 (by omega), ← isShape_eq p d hp h1 h3 f hf q.2 (by omega),
      show C (2 : ℚ) * f q.1 * (C (2 : ℚ) * f q.2) = C 2 * (C 2 * (f q.1 * f q.2)) by ring, mean_C_mul, mean_C_mul] at h5
    linear_combination h5 / 4
  rw [List.map_congr_left h4]
  refine h2.trans (List.map_congr_left fun a _ => ?_)
  simp only [Function.comp_apply]
  push_cast
  ring

theorem mass01_means (d : Nat) (h1 : 1 ≤ d) (h3 : d ≤ 3) (f : Nat → MvPolynomial (Fin (d + 1)) ℚ) (hf : IsShape 1 d f) :
    ((List.range (d + 1)).map fun j => mean d (f j)) = (mass01 d).factors.map fun a : Int => (a : ℚ) * (d.factorial / (d + 1).factorial) := by
  have hc := mass01Check_true d h1 h3
  unfold mass01Check at hc
  dsimp only at hc
  rw [Bool.and_eq_true, List.all_eq_true] at hc
  have hlen : (localShapeFunctions 1 d).length = d + 1 := by simp [localShapeFunctions]
  have h2 := congrArg (List.map fun x : Int => (x : ℚ) * (1 / 2 * (d.factorial / (d + 1).factorial))) (eq_of_beq hc.2)
  rw [List.map_map, List.map_map] at h2
  have hd : doubles 1 d = (List.range (d + 1)).map fun j => (doubles 1 d).getD j [] := by
    refine List.ext_getElem (by rw [doubles_length, hlen]; simp) fun i h1 h2 => ?_
    rw [List.getElem_map, List.getElem_range, List.getD_eq_getElem?_getD, List.getElem?_eq_getElem h1]; rfl
  have h4 : ∀ j ∈ List.range (d + 1), mean d (f j) =
      ((meanInt d (d + 1) ((doubles 1 d).getD j []) : Int) : ℚ) * (1 / 2 * (d.factorial / (d + 1).factorial)) := by
    intro j hj
    have hj' := List.mem_range.1 hj
    have hok := hc.1 ((doubles 1 d).getD j []) (by rw [hd]; rw [← hd]; exact (by
      rw [List.getD_eq_getElem?_getD, List.getElem?_eq_getElem (by rw [doubles_length]; omega)]; exact List.getElem_mem _))
    have h5 := mean_toMv d (d + 1) _ hok
    rw [← isShape_eq 1 d (by omega) h1 h3 f hf j (by omega), mean_C_mul] at h5
    linear_combination h5 / 2
  rw [List.map_congr_left h4]
  have h6 : ((List.range (d + 1)).map fun j => ((meanInt d (d + 1) ((doubles 1 d).getD j []) : Int) : ℚ) * (1 / 2 * (d.factorial / (d + 1).factorial))) =
      (doubles 1 d).map ((fun x : Int => (x : ℚ) * (1 / 2 * (d.factorial / (d + 1).factorial))) ∘ meanInt d (d + 1)) := by
    conv_rhs => rw [hd]
    rw [List.map_map]
    rfl
  rw [h6]
  refine h2.trans (List.map_congr_left fun a _ => ?_)
  simp only [Function.comp_apply]
  push_cast
  ring

end PyNucleus.Simplex
