import Verif.Model.Loops
import Mathlib.Algebra.Ring.Defs

/-!
# Model of block operators

/repo/base/PyNucleus_base/linear_operators.pyx, `blockOperator` (825-872), `blockDiagonalOperator`
(895-909), `blockLowerInverse` (956-986) and `blockUpperInverse` (989-1018).

A sub-block is any linear operator: it has a shape, a flag that says whether it is a
`nullOperator`, and a `matvec` that gets the argument and the old contents of the output.  Buffers
inside the sub-blocks are not modelled here (see `Model/OpAlgebra`).
-/

namespace PyNucleus.Block

open PyNucleus.Loops

variable {K : Type}

/-- A sub-block. -/
structure Blk (K : Type) where
  rows : Nat
  cols : Nat
  isNull : Bool
  apply : List K → List K → List K

instance : Inhabited (Blk K) := ⟨⟨0, 0, true, fun _ y => y⟩⟩

/-- `nullOperator(r, c)`, LinearOperator_{SCALAR}.pxi 1006-1019: `y[:num_rows] = 0`. -/
def nullBlk [Zero K] (r c : Nat) : Blk K :=
  ⟨r, c, true, fun _ y => forRange 0 r y fun y i => y.set i 0⟩

/-- The view `v[lo:hi]`. -/
def seg (v : List K) (lo hi : Nat) : List K := (v.drop lo).take (hi - lo)

/-- Write through the view that starts at `lo`. -/
def setSeg (v : List K) (lo : Nat) (w : List K) : List K := v.take lo ++ w ++ v.drop (lo + w.length)

/-- A block operator with the arrays `blockInptrLeft`, `blockInptrRight`. -/
structure BlockOp (K : Type) where
  blocks : List (List (Blk K))
  left : List Nat
  right : List Nat

/-- Block `i, j`. -/
def BlockOp.blk (A : BlockOp K) (i j : Nat) : Blk K := (A.blocks.getD i []).getD j default

/-- Row loop of the constructor, 836-848: `(left, right, M)`. -/
def initRow (blocks : List (List (Blk K))) (nc : Nat) (i : Nat) (s : List Nat × List Nat × Option Nat) :
    Option (List Nat × List Nat × Option Nat) :=
  let row := blocks.getD i []
  if row.length = nc then
    let left := s.1.set (i + 1) (s.1.getD i 0 + (row.getD 0 default).rows)
    let r := forRange 0 nc (s.2.1.set 0 0, 0) fun r j =>
      (r.1.set (j + 1) (r.1.getD j 0 + (row.getD j default).cols), r.2 + (row.getD j default).cols)
    match s.2.2 with
    | some M => if r.2 = M then some (left, r.1, some M) else none
    | none => some (left, r.1, some r.2)
  else none

/-- `blockOperator.__init__`, 826-851. -/
def init (blocks : List (List (Blk K))) : Option (BlockOp K) := do
  let nc := (blocks.getD 0 []).length
  let s ← (List.range blocks.length).foldlM (fun s i => initRow blocks nc i s)
    (List.replicate (blocks.length + 1) 0, List.replicate (nc + 1) 0, none)
  some ⟨blocks, s.1, s.2.1⟩

/-- Rows of block row `i`. -/
def BlockOp.lo (A : BlockOp K) (i : Nat) : Nat := A.left.getD i 0
/-- Columns of block column `j`. -/
def BlockOp.ro (A : BlockOp K) (j : Nat) : Nat := A.right.getD j 0

/-- `lo.matvec(src[right j], temp[left i]); y[k] += temp[k]`, 864-869: result and buffer. -/
def addBlock [Add K] [Zero K] (A : BlockOp K) (i j : Nat) (src : List K) (s : List K × List K) : List K × List K :=
  let temp := setSeg s.2 (A.lo i) ((A.blk i j).apply (seg src (A.ro j) (A.ro (j + 1))) (seg s.2 (A.lo i) (A.lo (i + 1))))
  (forRange (A.lo i) (A.lo (i + 1)) s.1 fun y k => y.set k (y.getD k 0 + temp.getD k 0), temp)

/-- `blockOperator.matvec`, 853-872. -/
def matvec [Add K] [Zero K] (A : BlockOp K) (x y temp : List K) : List K × List K :=
  let y := forRange 0 y.length y fun y k => y.set k 0
  (List.range A.blocks.length).foldl (fun s i =>
    let y := setSeg s.1 (A.lo i) ((A.blk i 0).apply (seg x (A.ro 0) (A.ro 1)) (seg s.1 (A.lo i) (A.lo (i + 1))))
    (List.range' 1 ((A.blocks.getD 0 []).length - 1)).foldl (fun s j => addBlock A i j x s) (y, s.2)) (y, temp)

/-- One block row of a triangular solve, 973-985 and 1006-1018. -/
def solveRow [Ring K] (A : BlockOp K) (dinv : List (Blk K)) (x : List K) (deps : List Nat) (i : Nat) (s : List K × List K) :
    List K × List K :=
  let s := deps.foldl (fun s j => addBlock A i j s.1 s) s
  let temp := forRange (A.lo i) (A.lo (i + 1)) s.2 fun t k => t.set k (x.getD k 0 - s.1.getD k 0)
  (setSeg s.1 (A.lo i) ((dinv.getD i default).apply (seg temp (A.ro i) (A.ro (i + 1))) (seg s.1 (A.lo i) (A.lo (i + 1)))), temp)

/-- Assertion of `blockLowerInverse.__init__`, 962-964. -/
def lowerOK (A : BlockOp K) : Bool :=
  (List.range A.blocks.length).all fun i =>
    (List.range' (i + 1) ((A.blocks.getD 0 []).length - (i + 1))).all fun j => (A.blk i j).isNull

/-- Assertion of `blockUpperInverse.__init__`, 995-997. -/
def upperOK (A : BlockOp K) : Bool :=
  (List.range A.blocks.length).all fun i => (List.range i).all fun j => (A.blk i j).isNull

/-- `blockLowerInverse.matvec`, 967-986. -/
def lowerInverse [Ring K] (A : BlockOp K) (dinv : List (Blk K)) (x y temp : List K) : List K × List K :=
  let y := forRange 0 y.length y fun y k => y.set k 0
  (List.range A.blocks.length).foldl (fun s i => solveRow A dinv x (List.range i) i s) (y, temp)

/-- `blockUpperInverse.matvec`, 1000-1018. -/
def upperInverse [Ring K] (A : BlockOp K) (dinv : List (Blk K)) (x y temp : List K) : List K × List K :=
  let y := forRange 0 y.length y fun y k => y.set k 0
  (List.range A.blocks.length).reverse.foldl
    (fun s i => solveRow A dinv x (List.range' (i + 1) (A.blocks.length - (i + 1))) i s) (y, temp)

/-- `blockDiagonalOperator.__init__`, 896-909. -/
def diagonalBlocks [Zero K] (ds : List (Blk K)) : List (List (Blk K)) :=
  (List.range ds.length).map fun i =>
    (List.range i).map (fun j => nullBlk (ds.getD i default).rows (ds.getD j default).cols) ++ [ds.getD i default] ++
      (List.range' (i + 1) (ds.length - (i + 1))).map fun j => nullBlk (ds.getD i default).rows (ds.getD j default).cols

end PyNucleus.Block
