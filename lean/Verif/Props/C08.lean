import Verif.Proof.CSR
import Mathlib.Algebra.Order.Ring.Nat
import Mathlib.Algebra.Ring.Int.Defs
import Mathlib.Algebra.BigOperators.Group.Finset.Sigma

/-!
# C08 CSR matvec is the matrix-vector product

`A.entry` is the matrix described by the arrays (Spec.Matrix); rows may be unsorted and may
repeat columns.  The first argument of `matvec` etc. says whether the scalars are complex
(the code branches on it).
-/

namespace PyNucleus.Props.C08

open PyNucleus.CSR PyNucleus.Spec PyNucleus.Loops

variable {K : Type}

/-- `matvec(x, y)`, real and complex scalars: entry `i` becomes `sum_j A_ij x_j`, whatever `y`
held before. -/
theorem matvec_correct [CommSemiring K] (c : Bool) (A : CSR K) (hA : A.Valid) (x y : List K)
    (hy : y.length = A.numRows) :
    (matvec c A x y).length = A.numRows ∧
      ∀ i, i < A.numRows → (matvec c A x y).getD i 0 = mulVec A.numCols A.entry x i := by
  have h := spmvRows_eq A hA x y (by omega) true
  have e : matvec c A x y = spmvRows A x y true := by
    unfold matvec spmv; cases c <;> simp
  rw [e]
  refine ⟨by rw [h.1, hy], fun i hi => ?_⟩
  rw [h.2 i, if_pos hi]; simp

/-- `matvec_no_overwrite(x, y)` adds the product to `y`. -/
theorem matvec_no_overwrite_correct [CommSemiring K] (c : Bool) (A : CSR K) (hA : A.Valid)
    (x y : List K) (hy : y.length = A.numRows) :
    (matvecNoOverwrite c A x y).length = A.numRows ∧
      ∀ i, i < A.numRows →
        (matvecNoOverwrite c A x y).getD i 0 = y.getD i 0 + mulVec A.numCols A.entry x i := by
  have h := spmvRows_eq A hA x y (by omega) false
  have e : matvecNoOverwrite c A x y = spmvRows A x y false := by
    unfold matvecNoOverwrite spmv; cases c <;> simp
  rw [e]
  refine ⟨by rw [h.1, hy], fun i hi => ?_⟩
  rw [h.2 i, if_pos hi]; simp

/-- `matvecTrans(x, y)` for real scalars: entry `j` becomes `sum_i A_ij x_i`.
Missing for the full property: complex scalars, where the code computes `A x` instead. -/
theorem matvecTrans_correct_partial [CommSemiring K] (A : CSR K) (hA : A.Valid) (x y : List K)
    (hy : y.length = A.numCols) :
    (matvecTrans false A x y).length = A.numCols ∧
      ∀ j, j < A.numCols →
        (matvecTrans false A x y).getD j 0 = mulVec A.numRows (fun j i => A.entry i j) x j := by
  have h := spmvTrans_eq A hA x y true
  have e : matvecTrans false A x y = spmvTrans A x y true := rfl
  rw [e]
  refine ⟨by rw [h.1, hy], fun j hj => ?_⟩
  rw [h.2 j (by omega)]; simp

/-- `matvecTrans_no_overwrite(x, y)` for real scalars. -/
theorem matvecTrans_no_overwrite_correct_partial [CommSemiring K] (A : CSR K) (hA : A.Valid)
    (x y : List K) (hy : y.length = A.numCols) :
    (matvecTransNoOverwrite false A x y).length = A.numCols ∧
      ∀ j, j < A.numCols → (matvecTransNoOverwrite false A x y).getD j 0 =
        y.getD j 0 + mulVec A.numRows (fun j i => A.entry i j) x j := by
  have h := spmvTrans_eq A hA x y false
  have e : matvecTransNoOverwrite false A x y = spmvTrans A x y false := rfl
  rw [e]
  refine ⟨by rw [h.1, hy], fun j hj => ?_⟩
  rw [h.2 j (by omega)]; simp

/-- Adjointness: `<v, A x> = <A^T v, x>`. -/
theorem adjoint_partial [CommSemiring K] (A : CSR K) (hA : A.Valid) (x v y z : List K)
    (hy : y.length = A.numRows) (hz : z.length = A.numCols) :
    dot A.numRows v (matvec false A x y) = dot A.numCols (matvecTrans false A v z) x := by
  obtain ⟨_, h1⟩ := matvec_correct false A hA x y hy
  obtain ⟨_, h2⟩ := matvecTrans_correct_partial A hA v z hz
  unfold dot
  have e1 : ∀ i ∈ Finset.range A.numRows, v.getD i 0 * (matvec false A x y).getD i 0 =
      v.getD i 0 * mulVec A.numCols A.entry x i := fun i hi => by rw [h1 i (Finset.mem_range.1 hi)]
  have e2 : ∀ j ∈ Finset.range A.numCols, (matvecTrans false A v z).getD j 0 * x.getD j 0 =
      mulVec A.numRows (fun j i => A.entry i j) v j * x.getD j 0 :=
    fun j hj => by rw [h2 j (Finset.mem_range.1 hj)]
  rw [Finset.sum_congr rfl e1, Finset.sum_congr rfl e2]
  unfold mulVec
  simp only [Finset.mul_sum, Finset.sum_mul]
  rw [Finset.sum_comm]
  refine Finset.sum_congr rfl fun j _ => Finset.sum_congr rfl fun i _ => ?_
  ring

/-- `residual(x, rhs)` is `rhs - A x`. -/
theorem residual_correct [CommRing K] (A : CSR K) (hA : A.Valid) (x rhs r : List K)
    (hr : r.length = A.numRows) :
    (residual A x rhs r false).length = A.numRows ∧ ∀ i, i < A.numRows →
      (residual A x rhs r false).getD i 0 = rhs.getD i 0 - mulVec A.numCols A.entry x i := by
  have hl : A.indptr.length - 1 = A.numRows := by rw [hA.indptr.length]; rfl
  have e : residual A x rhs r false = forRange 0 A.numRows r fun r i =>
      r.set i (rhs.getD i 0 - mulVec A.numCols A.entry x i) := by
    unfold residual spres
    rw [if_neg (by simp), hl]
    apply forRange_congr
    intro s k _ hk
    rw [forRow_eq A hA k hk, foldl_sub, ← rowSum_eq A hA x k hk]
    unfold rowSum
    rw [forRow_eq A hA k hk, foldl_add, zero_add]
  have h := forRange_set r A.numRows (by omega) fun i _ =>
    rhs.getD i 0 - mulVec A.numCols A.entry x i
  rw [e]
  refine ⟨by rw [h.1, hr], fun i hi => ?_⟩
  rw [h.2 i, if_pos hi]

/-! ### A concrete matrix, with an unsorted row and a repeated column

`[[1+4, 0, 2], [0, 3, 0]]` -/

def sample : CSR ℤ where
  indptr := [0, 3, 4]
  indices := [2, 0, 0, 1]
  data := [2, 1, 4, 3]
  numRows := 2
  numCols := 3

theorem sample_valid : sample.Valid where
  indptr := ⟨by decide, by decide, by decide, by decide⟩
  data := by decide
  cols := by decide

example : matvec false sample [1, 2, 3] [7, 7] = [11, 6] := by decide
example : matvecTrans false sample [1, 2] [7, 7, 7] = [5, 6, 2] := by decide

/-- A 2x2 matrix with complex scalars. -/
def sampleSquare : CSR ℤ where
  indptr := [0, 1, 1]
  indices := [1]
  data := [1]
  numRows := 2
  numCols := 2

/-- The full property is false: with complex scalars `matvecTrans` is not the transposed
product (it multiplies by `A` itself). -/
theorem complex_matvecTrans_wrong :
    ∃ (A : CSR ℤ) (x y : List ℤ), A.Valid ∧ y.length = A.numCols ∧
      ∃ j, j < A.numCols ∧
        (matvecTrans true A x y).getD j 0 ≠ mulVec A.numRows (fun j i => A.entry i j) x j := by
  refine ⟨sampleSquare, [1, 0], [0, 0], ⟨⟨by decide, by decide, by decide, by decide⟩, by decide,
    by decide⟩, by decide, 1, by decide, ?_⟩
  decide

end PyNucleus.Props.C08
