import Verif.Model.Blas
import Verif.Proof.CSR
import Mathlib.Algebra.Ring.Basic
import Mathlib.Tactic.Ring

/-! # Lemmas for the vector kernels -/

namespace PyNucleus.Blas

open PyNucleus.Loops PyNucleus.Spec PyNucleus.CSR

variable {K : Type}

theorem scaleScalar_eq [Semiring K] (x : List K) (a : K) :
    (scaleScalar x a).length = x.length ∧ ∀ i, i < x.length → (scaleScalar x a).getD i 0 = x.getD i 0 * a := by
  have h := forRange_set x x.length (Nat.le_refl _) fun _ o => o * a
  exact ⟨h.1, fun i hi => by unfold scaleScalar; rw [h.2 i, if_pos hi]⟩

theorem assign3Self_eq [Semiring K] (z : List K) (a : K) (y : List K) (b : K) :
    (assign3Self z a y b).length = z.length ∧
      ∀ i, i < z.length → (assign3Self z a y b).getD i 0 = a * z.getD i 0 + b * y.getD i 0 := by
  have h := forRange_set z z.length (Nat.le_refl _) fun i o => a * o + b * y.getD i 0
  exact ⟨h.1, fun i hi => by unfold assign3Self; rw [h.2 i, if_pos hi]⟩

theorem assign3_eq [Semiring K] (z x : List K) (a : K) (y : List K) (b : K) (hz : x.length = z.length) :
    (assign3 z x a y b).length = z.length ∧
      ∀ i, i < z.length → (assign3 z x a y b).getD i 0 = a * x.getD i 0 + b * y.getD i 0 := by
  have h := forRange_set z x.length (by omega) fun i _ => a * x.getD i 0 + b * y.getD i 0
  exact ⟨h.1, fun i hi => by unfold assign3; rw [h.2 i, if_pos (by omega)]⟩

theorem assign_eq [Zero K] (y x : List K) (hx : x.length = y.length) : assign y x = x := by
  have h := forRange_set y x.length (by omega) fun i _ => x.getD i 0
  have h1 : (assign y x).length = y.length := h.1
  apply List.ext_getElem
  · rw [h1, hx]
  · intro i hi hi'
    have := h.2 i
    rw [if_pos hi'] at this
    change (assign y x).getD i 0 = _ at this
    rw [List.getD_eq_getElem?_getD, List.getElem?_eq_getElem hi, List.getD_eq_getElem?_getD, List.getElem?_eq_getElem hi'] at this
    exact this

theorem assignScaled_eq [Semiring K] (y x : List K) (a : K) (hx : x.length = y.length) :
    (assignScaled y x a).length = y.length ∧ ∀ i, i < y.length → (assignScaled y x a).getD i 0 = a * x.getD i 0 := by
  have h := forRange_set y x.length (by omega) fun i _ => a * x.getD i 0
  exact ⟨h.1, fun i hi => by unfold assignScaled; rw [h.2 i, if_pos (by omega)]⟩

theorem update_eq [Semiring K] (x y : List K) :
    (update x y).length = x.length ∧ ∀ i, i < x.length → (update x y).getD i 0 = x.getD i 0 + y.getD i 0 := by
  have h := forRange_set x x.length (Nat.le_refl _) fun i o => o + y.getD i 0
  exact ⟨h.1, fun i hi => by unfold update; rw [h.2 i, if_pos hi]⟩

theorem updateScaled_eq [Semiring K] (x y : List K) (a : K) :
    (updateScaled x y a).length = x.length ∧
      ∀ i, i < x.length → (updateScaled x y a).getD i 0 = x.getD i 0 + a * y.getD i 0 := by
  have h := forRange_set x x.length (Nat.le_refl _) fun i o => o + a * y.getD i 0
  exact ⟨h.1, fun i hi => by unfold updateScaled; rw [h.2 i, if_pos hi]⟩

theorem forRange_addSum [AddCommMonoid K] (n : Nat) (s : K) (f : Nat → K) :
    forRange 0 n s (fun s j => s + f j) = s + ∑ j ∈ Finset.range n, f j := by
  induction n with
  | zero => simp [forRange_zero]
  | succ n ih => rw [forRange_succ, ih, Finset.sum_range_succ, add_assoc]

theorem mydot_eq [CommSemiring K] (u v : List K) (n : Nat) (h : u.length = n) : mydot u v = dot n u v := by
  unfold mydot dot
  rw [h, forRange_addSum n (0 : K) (fun i => u.getD i 0 * v.getD i 0), zero_add]

theorem gemv_eq [CommSemiring K] [DecidableEq K] (A : Dense K) (x y : List K) (beta : K) (hy : A.numRows ≤ y.length) :
    (gemv A x y beta).length = y.length ∧
      ∀ i, i < A.numRows → (gemv A x y beta).getD i 0 = beta * y.getD i 0 + mulVec A.numCols A.entry x i := by
  have h := forRange_set y A.numRows hy fun i o => beta * o + mulVec A.numCols A.entry x i
  have e : gemv A x y beta = forRange 0 A.numRows y fun y i => y.set i (beta * y.getD i 0 + mulVec A.numCols A.entry x i) := by
    unfold gemv
    apply forRange_congr
    intro s i _ _
    simp only [forRange_addSum A.numCols (0 : K) (fun j => A.entry i j * x.getD j 0), zero_add]
    by_cases hb : beta = 0
    · rw [if_neg (by simpa using hb), hb, zero_mul, zero_add]; rfl
    · rw [if_pos hb]; rfl
  rw [e]
  exact ⟨h.1, fun i hi => by rw [h.2 i, if_pos hi]⟩

/-- Adding a sequence of terms to one entry. -/
theorem forRange_addAt [AddCommMonoid K] (n i : Nat) (y : List K) (hi : i < y.length) (f : Nat → K) :
    forRange 0 n y (fun y j => y.set i (y.getD i 0 + f j)) = y.set i (y.getD i 0 + ∑ j ∈ Finset.range n, f j) := by
  induction n with
  | zero =>
    rw [forRange_zero, Finset.range_zero, Finset.sum_empty, add_zero, List.getD_eq_getElem?_getD, List.getElem?_eq_getElem hi]
    simp
  | succ n ih =>
    rw [forRange_succ, ih, List.set_set, getD_set, if_pos ⟨rfl, hi⟩, Finset.sum_range_succ, add_assoc]

theorem gemvT_eq [CommSemiring K] [DecidableEq K] (A : Dense K) (x y : List K) (beta : K) (hy : y.length = A.numCols)
    (hb : beta = 0 ∨ beta = 1 ∧ A.numRows ≤ A.numCols) :
    ∃ v, gemvT A x y beta = some v ∧ v.length = y.length ∧
      ∀ i, i < A.numCols → v.getD i 0 = beta * y.getD i 0 + mulVec A.numRows (fun i j => A.entry j i) x i := by
  unfold gemvT
  rw [if_neg (by rcases hb with hb | hb <;> simp [hb]; omega)]
  refine ⟨_, rfl, ?_⟩
  have hscale : ∃ y0 : List K, (if beta ≠ 0 then forRange 0 A.numRows y fun y i => y.set i (y.getD i 0 * beta)
      else forRange 0 y.length y fun y i => y.set i 0) = y0 ∧ y0.length = y.length ∧ ∀ i, i < y.length → y0.getD i 0 = beta * y.getD i 0 := by
    refine ⟨_, rfl, ?_⟩
    rcases hb with hb | ⟨hb, hr⟩
    · rw [if_neg (by simpa using hb)]
      have h := forRange_set y y.length (Nat.le_refl _) fun _ _ => (0 : K)
      exact ⟨h.1, fun i hi => by rw [h.2 i, if_pos hi, hb, zero_mul]⟩
    · have h := forRange_set y A.numRows (by omega) fun _ o => o * beta
      by_cases h10 : (beta : K) = 0
      · rw [if_neg (by simpa using h10)]
        have h := forRange_set y y.length (Nat.le_refl _) fun _ _ => (0 : K)
        exact ⟨h.1, fun i hi => by rw [h.2 i, if_pos hi, h10, zero_mul]⟩
      · rw [if_pos h10]
        refine ⟨h.1, fun i hi => ?_⟩
        rw [h.2 i]
        split <;> simp [hb]
  obtain ⟨y0, e, l0, v0⟩ := hscale
  rw [e]
  have h := forRange_set y0 A.numCols (by omega) fun i o => o + mulVec A.numRows (fun i j => A.entry j i) x i
  have e2 : (forRange 0 A.numCols y0 fun y i =>
      forRange 0 A.numRows y fun y j => y.set i (y.getD i 0 + A.entry j i * x.getD j 0)) =
      forRange 0 A.numCols y0 fun y i => y.set i (y.getD i 0 + mulVec A.numRows (fun i j => A.entry j i) x i) := by
    have hlen : ∀ m, m ≤ A.numCols → (forRange 0 m y0 fun y i =>
        forRange 0 A.numRows y fun y j => y.set i (y.getD i 0 + A.entry j i * x.getD j 0)) =
        forRange 0 m y0 fun y i => y.set i (y.getD i 0 + mulVec A.numRows (fun i j => A.entry j i) x i) := by
      intro m
      induction m with
      | zero => intro _; rfl
      | succ m ih =>
        intro hm
        rw [forRange_succ, forRange_succ, ih (by omega)]
        have hl := (forRange_set y0 m (by omega) fun i o => o + mulVec A.numRows (fun i j => A.entry j i) x i).1
        rw [forRange_addAt A.numRows m _ (by rw [hl]; omega) fun j => A.entry j m * x.getD j 0]
        rfl
    exact hlen _ (Nat.le_refl _)
  rw [e2]
  refine ⟨by rw [h.1, l0], fun i hi => ?_⟩
  rw [h.2 i, if_pos hi, v0 i (by omega)]

end PyNucleus.Blas
