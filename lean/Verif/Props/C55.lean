import Verif.Proof.LocalMatrices3
import Mathlib.Algebra.Order.Field.Rat
import Mathlib.Algebra.Order.Group.Unbundled.Abs

/-!
# C55: local mass and stiffness matrices

Full statement: on every simplex of dimension 1, 2, 3 and for P0 (mass only), P1, P2 and P3 the entry `(i, j)` of the local mass matrix is the
integral of `φᵢ φⱼ` and that of the local stiffness matrix is the integral of `∇φᵢ · ∇φⱼ`, up to the relative error of at most `10⁻¹⁴` of the
decimal constant by which all entries of a matrix are multiplied.

The shape functions are polynomials in the barycentric coordinates; `mean` is their mean value over the simplex.  The gradient of the shape
function `f` is `∑ k, ∂ₖf ∇λₖ`, so that `∇φᵢ · ∇φⱼ = ∑ k l, ∂ₖφᵢ ∂ₗφⱼ G k l`, where `G k l = ∇λₖ · ∇λₗ`.  Because the barycentric
coordinates sum to one, the rows of `G` sum to zero.
-/

namespace PyNucleus.Props.C55

open MvPolynomial PyNucleus.ShapeFunctions PyNucleus.LocalMatrices PyNucleus.Simplex

/-- `f i` is the polynomial of the `i`-th local shape function. -/
def IsShape (p d : Nat) (f : Nat → MvPolynomial (Fin (d + 1)) ℚ) : Prop :=
  ∀ i (h : i < (localShapeFunctions p d).length) (lam : List ℚ), eval (fun k : Fin (d + 1) => lam.getD k 0) (f i) = ((localShapeFunctions p d)[i]).eval lam

/-- There are such polynomials. -/
theorem shapes (p d : Nat) (hp : p ≤ 3) (h1 : 1 ≤ d) (h3 : d ≤ 3) : ∃ f, IsShape p d f := isShape_exists p d hp h1 h3

/-- Mass matrices. -/
theorem mass_exact (p d : Nat) (hp : p ≤ 3) (h1 : 1 ≤ d) (h3 : d ≤ 3) :
    ∃ ε : ℚ, |ε| ≤ 1 / 10 ^ 14 ∧ ∀ (K : Type) [Field K] [CharZero K] (volume : K) (f : Nat → MvPolynomial (Fin (d + 1)) ℚ), IsShape p d f →
      evalMass (mass p d) volume = (upper (localShapeFunctions p d).length).map fun q => ((1 + ε : ℚ) : K) * (volume * ((mean d (f q.1 * f q.2) : ℚ) : K)) := by
  have hε : |(mass p d).const * (4 * (d + 2 * p).factorial) / (massF p d * d.factorial) - 1| ≤ 1 / 10 ^ 14 ∧ massF p d ≠ 0 := by
    interval_cases p <;> interval_cases d <;> decide +kernel
  refine ⟨_, hε.1, fun K _ _ volume f hf => ?_⟩
  have h := congrArg (List.map fun x : ℚ => (((mass p d).const * (4 * (d + 2 * p).factorial) / (massF p d * d.factorial) : ℚ) : K) * (volume * (x : K))) (mass_means p d hp h1 h3 f hf)
  rw [List.map_map, List.map_map] at h
  have hF : (massF p d : K) ≠ 0 := by exact_mod_cast hε.2
  have hd : (d.factorial : K) ≠ 0 := by exact_mod_cast Nat.factorial_ne_zero d
  have hM : ((d + 2 * p).factorial : K) ≠ 0 := by exact_mod_cast Nat.factorial_ne_zero _
  rw [show ∀ x : ℚ, 1 + (x - 1) = x from fun x => by ring]
  refine Eq.trans ?_ h.symm
  unfold evalMass
  refine List.map_congr_left fun a _ => ?_
  simp only [Function.comp_apply]
  push_cast
  field_simp

/-- Rectangular mass matrices of P0 and P1. -/
theorem mass01_exact (d : Nat) (h1 : 1 ≤ d) (h3 : d ≤ 3) :
    ∃ ε : ℚ, |ε| ≤ 1 / 10 ^ 14 ∧ ∀ (K : Type) [Field K] [CharZero K] (volume : K) (e f : Nat → MvPolynomial (Fin (d + 1)) ℚ), IsShape 0 d e → IsShape 1 d f →
      evalMass (mass01 d) volume = (List.range (d + 1)).map fun j => ((1 + ε : ℚ) : K) * (volume * ((mean d (e 0 * f j) : ℚ) : K)) := by
  have hε : |(mass01 d).const * (d + 1).factorial / d.factorial - 1| ≤ 1 / 10 ^ 14 := by interval_cases d <;> decide +kernel
  refine ⟨_, hε, fun K _ _ volume e f he hf => ?_⟩
  have h := congrArg (List.map fun x : ℚ => (((mass01 d).const * (d + 1).factorial / d.factorial : ℚ) : K) * (volume * (x : K))) (mass01_means d h1 h3 f hf)
  rw [List.map_map, List.map_map] at h
  have hd : (d.factorial : K) ≠ 0 := by exact_mod_cast Nat.factorial_ne_zero d
  have hM : ((d + 1).factorial : K) ≠ 0 := by exact_mod_cast Nat.factorial_ne_zero _
  have he1 : e 0 = 1 := eq_of_eval _ _ _ fun lam => by rw [he 0 (by simp [localShapeFunctions]) lam, map_one]; rfl
  rw [show ∀ x : ℚ, 1 + (x - 1) = x from fun x => by ring]
  simp only [he1, one_mul]
  refine Eq.trans ?_ h.symm
  unfold evalMass
  refine List.map_congr_left fun a _ => ?_
  simp only [Function.comp_apply]
  push_cast
  field_simp

/-- Stiffness matrices in two and three dimensions; the inner products given to `eval` are those of the gradients of the barycentric
coordinates times `(d! volume)²`. -/
theorem stiffness_exact (p d : Nat) (h0 : 1 ≤ p) (hp : p ≤ 3) (h2 : 2 ≤ d) (h3 : d ≤ 3) :
    ∃ ε : ℚ, |ε| ≤ 1 / 10 ^ 14 ∧ ∀ (K : Type) [Field K] [CharZero K] (volume : K) (G : Nat → Nat → K) (f : Nat → MvPolynomial (Fin (d + 1)) ℚ), IsShape p d f →
      volume ≠ 0 → (∀ k l, G k l = G l k) → (∀ k, k ≤ d → ∑ l : Fin (d + 1), G k l = 0) →
      evalStiffness (stiffness p d) volume ((upper (d + 1)).map fun q => (d.factorial * volume) ^ 2 * G q.1 q.2) =
        (upper (localShapeFunctions p d).length).map fun q => ((1 + ε : ℚ) : K) * (volume *
          ∑ k : Fin (d + 1), ∑ l : Fin (d + 1), ((mean d (pderiv k (f q.1) * pderiv l (f q.2)) : ℚ) : K) * G k l) := by
  have hε : |(stiffness p d).const * d.factorial ^ 2 * (4 * (d + 2 * (p - 1)).factorial) / (stiffnessF p d * d.factorial) - 1| ≤ 1 / 10 ^ 14 ∧ stiffnessF p d ≠ 0 := by
    interval_cases p <;> interval_cases d <;> decide +kernel
  refine ⟨_, hε.1, fun K _ _ volume G f hf hv hs hz => ?_⟩
  have h := congrArg (List.map fun x : K => (((stiffness p d).const * d.factorial ^ 2 * (4 * (d + 2 * (p - 1)).factorial) / (stiffnessF p d * d.factorial) : ℚ) : K) * (volume * x))
    (stiffness_forms p d h0 hp (by omega) h3 f hf G hs hz)
  rw [List.map_map, List.map_map] at h
  have hF : (stiffnessF p d : K) ≠ 0 := by exact_mod_cast hε.2
  have hd : (d.factorial : K) ≠ 0 := by exact_mod_cast Nat.factorial_ne_zero d
  have hM : ((d + 2 * (p - 1)).factorial : K) ≠ 0 := by exact_mod_cast Nat.factorial_ne_zero _
  rw [show ∀ x : ℚ, 1 + (x - 1) = x from fun x => by ring]
  refine Eq.trans ?_ h.symm
  unfold evalStiffness
  rw [stiffnessRows, if_neg (by omega)]
  refine List.map_congr_left fun row _ => ?_
  simp only [Function.comp_apply]
  have h4 : (row.map fun t : Int × Nat => (t.1 : K) * ((upper (d + 1)).map fun q => (d.factorial * volume) ^ 2 * G q.1 q.2).getD t.2 0).sum =
      (d.factorial * volume) ^ 2 * (row.map fun t : Int × Nat => (t.1 : K) * ((upper (d + 1)).map fun q => G q.1 q.2).getD t.2 0).sum := by
    rw [← List.sum_map_mul_left]
    congr 1
    refine List.map_congr_left fun t _ => ?_
    simp only [List.getD_eq_getElem?_getD, List.getElem?_map]
    cases (upper (d + 1))[t.2]? with
    | none => simp
    | some q => dsimp only [Option.map_some, Option.getD_some]; ring
  rw [h4]
  push_cast
  field_simp

/-- Stiffness matrices in one dimension, where `∇λ₀ = -∇λ₁` has length `1 / volume`. -/
theorem stiffness1_exact (p : Nat) (h0 : 1 ≤ p) (hp : p ≤ 3) :
    ∃ ε : ℚ, |ε| ≤ 1 / 10 ^ 14 ∧ ∀ (K : Type) [Field K] [CharZero K] (volume : K) (f : Nat → MvPolynomial (Fin 2) ℚ), IsShape p 1 f → volume ≠ 0 →
      evalStiffness1 (stiffness1 p) volume =
        (upper (localShapeFunctions p 1).length).map fun q => ((1 + ε : ℚ) : K) * (volume *
          ∑ k : Fin 2, ∑ l : Fin 2, ((mean 1 (pderiv k (f q.1) * pderiv l (f q.2)) : ℚ) : K) * ((if k = l then 1 else -1) / volume ^ 2)) := by
  have hε : |(stiffness1 p).const * (4 * (1 + 2 * (p - 1)).factorial) / stiffnessF p 1 - 1| ≤ 1 / 10 ^ 14 ∧ stiffnessF p 1 ≠ 0 := by
    interval_cases p <;> decide +kernel
  refine ⟨_, hε.1, fun K _ _ volume f hf hv => ?_⟩
  have h := congrArg (List.map fun x : K => (((stiffness1 p).const * (4 * (1 + 2 * (p - 1)).factorial) / stiffnessF p 1 : ℚ) : K) * (volume * x))
    (stiffness_forms p 1 h0 hp (by omega) (by omega) f hf (fun k l => (if k = l then 1 else -1) / volume ^ 2 : Nat → Nat → K)
      (fun k l => by simp only [eq_comm]) (fun k hk => by interval_cases k <;> simp [Fin.sum_univ_two] <;> ring))
  rw [List.map_map, List.map_map] at h
  have hF : (stiffnessF p 1 : K) ≠ 0 := by exact_mod_cast hε.2
  have hM : ((1 + 2 * (p - 1)).factorial : K) ≠ 0 := by exact_mod_cast Nat.factorial_ne_zero _
  rw [show ∀ x : ℚ, 1 + (x - 1) = x from fun x => by ring]
  simp only [Fin.ext_iff]
  refine Eq.trans ?_ h.symm
  unfold evalStiffness1
  rw [stiffnessRows, if_pos rfl, List.map_map]
  refine List.map_congr_left fun a _ => ?_
  simp only [Function.comp_apply]
  have hu : upper (1 + 1) = [(0, 0), (0, 1), (1, 1)] := by decide
  rw [hu]
  simp only [List.map_cons, List.map_nil, List.getD_cons_zero, List.sum_cons, List.sum_nil, Nat.factorial_one, Nat.cast_one]
  simp only [if_true, add_zero]
  push_cast
  field_simp

/- A triangle with area 1/2 (vertices (0,0), (1,0), (0,1)): diagonal entry of the first vertex for P1. -/
example : evalMass (mass 2 1) (3 : ℚ) = (mass 2 1).factors.map fun a : Int => (a : ℚ) * ((mass 2 1).const * 3) := rfl
example : evalStiffness (stiffness 1 2) (1 / 2 : ℚ) [2, -1, -1, 1, 0, 1] = [1, -1/2, -1/2, 1/2, 0, 1/2] := by decide +kernel
/- The gradients of that triangle satisfy the hypotheses. -/
example : (∀ k l : Fin 3, (![![2, -1, -1], ![-1, 1, 0], ![-1, 0, 1]] : Fin 3 → Fin 3 → ℚ) k l = (![![2, -1, -1], ![-1, 1, 0], ![-1, 0, 1]] : Fin 3 → Fin 3 → ℚ) l k) ∧
    ∀ k : Fin 3, ∑ l, (![![2, -1, -1], ![-1, 1, 0], ![-1, 0, 1]] : Fin 3 → Fin 3 → ℚ) k l = 0 := by decide +kernel

end PyNucleus.Props.C55
