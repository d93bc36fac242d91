import Verif.Model.Block
import Verif.Spec.Matrix

/-! # Block matrices -/

namespace PyNucleus.Block

open PyNucleus.Spec

variable {K : Type}

/-- The block applies the matrix `M`, whatever the output held before. -/
def Blk.Is [Semiring K] (B : Blk K) (M : Nat → Nat → K) : Prop :=
  ∀ x y : List K, x.length = B.cols → y.length = B.rows →
    (B.apply x y).length = B.rows ∧ ∀ i, i < B.rows → (B.apply x y).getD i 0 = mulVec B.cols M x i

/-- The operator solves systems with the matrix `M`. -/
def Blk.Solves [Semiring K] (B : Blk K) (M : Nat → Nat → K) : Prop :=
  B.rows = B.cols ∧ ∀ x y : List K, x.length = B.cols → y.length = B.rows →
    (B.apply x y).length = B.rows ∧ ∀ i, i < B.rows → mulVec B.rows M (B.apply x y) i = x.getD i 0

/-- Offset of block `n` if block `k` has size `f k`. -/
def offset (f : Nat → Nat) (n : Nat) : Nat := ∑ k ∈ Finset.range n, f k

/-- Contribution of block `j` of `x` to row `a` of block row `i`. -/
def blockTerm [Semiring K] (c : Nat → Nat) (M : Nat → Nat → Nat → Nat → K) (x : List K) (i j a : Nat) : K :=
  ∑ b ∈ Finset.range (c j), M i j a b * x.getD (offset c j + b) 0

/-- All blocks of a column have the same width and all blocks of a row the same height. -/
structure Rect (blocks : List (List (Blk K))) (nb nc : Nat) (r c : Nat → Nat) : Prop where
  rows : blocks.length = nb
  cols : ∀ row ∈ blocks, row.length = nc
  posRows : 0 < nb
  posCols : 0 < nc
  height : ∀ i j, i < nb → j < nc → ((blocks.getD i []).getD j default).rows = r i
  width : ∀ i j, i < nb → j < nc → ((blocks.getD i []).getD j default).cols = c j

end PyNucleus.Block
