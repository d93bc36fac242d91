import Verif.Spec.Vec
import Verif.Proof.Blas
import Mathlib.Algebra.BigOperators.Fin

/-! # Kernels as vector operations -/

namespace PyNucleus.Spec

open PyNucleus.Loops PyNucleus.Blas

variable {K : Type}

theorem toV_ext [Zero K] {n : Nat} {l : List K} {v : Fin n → K} (h : ∀ i (hi : i < n), l.getD i 0 = v ⟨i, hi⟩) : toV n l = v :=
  funext fun i => h i i.2

theorem toV_inj [Zero K] {n : Nat} {l l' : List K} (h : l.length = n) (h' : l'.length = n) (e : toV n l = toV n l') : l = l' := by
  apply List.ext_getElem (h.trans h'.symm)
  intro i hi hi'
  have := congrFun e ⟨i, by omega⟩
  simp only [toV] at this
  rwa [List.getD_eq_getElem?_getD, List.getD_eq_getElem?_getD, List.getElem?_eq_getElem hi, List.getElem?_eq_getElem hi'] at this

section
variable [CommRing K] {n : Nat}

theorem updateScaled_V (x y : List K) (a : K) (hx : x.length = n) :
    (updateScaled x y a).length = n ∧ toV n (updateScaled x y a) = toV n x + a • toV n y := by
  have h := updateScaled_eq x y a
  exact ⟨h.1.trans hx, toV_ext fun i hi => h.2 i (by omega)⟩

theorem update_V (x y : List K) (hx : x.length = n) :
    (update x y).length = n ∧ toV n (update x y) = toV n x + toV n y := by
  have h := update_eq x y
  exact ⟨h.1.trans hx, toV_ext fun i hi => h.2 i (by omega)⟩

theorem scaleScalar_V (x : List K) (a : K) (hx : x.length = n) :
    (scaleScalar x a).length = n ∧ toV n (scaleScalar x a) = a • toV n x := by
  have h := scaleScalar_eq x a
  exact ⟨h.1.trans hx, toV_ext fun i hi => (h.2 i (by omega)).trans (mul_comm _ _)⟩

theorem assign3Self_V (z : List K) (a : K) (y : List K) (b : K) (hz : z.length = n) :
    (assign3Self z a y b).length = n ∧ toV n (assign3Self z a y b) = a • toV n z + b • toV n y := by
  have h := assign3Self_eq z a y b
  exact ⟨h.1.trans hz, toV_ext fun i hi => h.2 i (by omega)⟩

theorem assign3_V (z x : List K) (a : K) (y : List K) (b : K) (hz : z.length = n) (hx : x.length = n) :
    (assign3 z x a y b).length = n ∧ toV n (assign3 z x a y b) = a • toV n x + b • toV n y := by
  have h := assign3_eq z x a y b (by omega)
  exact ⟨h.1.trans hz, toV_ext fun i hi => h.2 i (by omega)⟩

theorem mydot_V (u v : List K) (hu : u.length = n) : mydot u v = toV n u ⬝ᵥ toV n v := by
  rw [mydot_eq u v n hu]
  unfold dot dotProduct
  rw [Finset.sum_range]
  rfl

theorem zero_V (x : List K) (hx : x.length = n) :
    (forRange 0 n x fun x i => x.set i 0).length = n ∧ toV n (forRange 0 n x fun x i => x.set i 0) = 0 := by
  have h := PyNucleus.CSR.forRange_set x n (by omega) fun _ _ => (0 : K)
  exact ⟨h.1.trans hx, toV_ext fun i hi => by rw [h.2 i, if_pos hi]; rfl⟩

end

end PyNucleus.Spec
