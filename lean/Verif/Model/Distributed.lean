import Verif.Model.Overlap
import Verif.Model.CSR
import Mathlib.Data.List.Sort

/-!
# Model of the distributed operators

/repo/fem/PyNucleus_fem/distributed_operators_{SCALAR}.pxi.  The synchronous product of `DistributedLinearOperator` (13-84) is a local
product followed by `accumulate`, which is modelled in Model/Overlap; here are the two variants that interleave computation and
communication, `CSR_DistributedLinearOperator` (87-192), and that exchange ghost values, `RowDistributedOperator` (195-333).
Real scalars.  The complex `RowDistributedOperator` cannot be constructed (`super(RowDistributedOperator, self)`, 200).
-/

namespace PyNucleus.Distributed

open PyNucleus.Loops PyNucleus.Spec PyNucleus.CSR PyNucleus.Overlap

variable {K : Type}

/-! ## CSR matrices with interleaved communication -/

/-- First loop, 119-125 and 164-170: rows of the shared dofs; `val i` is `temp` after the inner loop. -/
def overlapRows (ix : List Nat) (val : Nat → K) (w : List K) : List K :=
  forRange 0 ix.length w fun w k => w.set (ix.getD k 0) (val (ix.getD k 0))

/-- Second loop, 128-137 and 173-182: all rows except those that are met in `overlap_indices`. -/
def interiorRows (n : Nat) (ix : List Nat) (val : Nat → K) (w : List K) : List K :=
  (forRange 0 n (w, 0) fun s i =>
    if s.2 < ix.length ∧ ix.getD s.2 0 = i then (s.1, s.2 + 1) else (s.1.set i (val i), s.2)).1

/-- The local vector when it is sent (126, 171), and after the second loop. -/
def csrLocal (n : Nat) (ix : List Nat) (val : Nat → K) (w : List K) : List K × List K :=
  (overlapRows ix val w, interiorRows n ix val (overlapRows ix val w))

/-- `temp` of `residual`, 166-169. -/
def resRow [Ring K] (A : CSR K) (z rhs : List K) (i : Nat) : K :=
  forRow A i (rhs.getD i 0) fun temp j d => temp - d * z.getD j 0

/-- `receive`, 141 and 185: messages are added in the order in which they arrive (algebraicOverlaps.pyx 1200-1219). -/
def receive [Zero K] [Add K] (ov : Nat → Manager) (r : Nat) (order : List Nat) (sent : Nat → List K) (y : List K) : List K :=
  order.foldl (fun v s => accumulateProcess ((ov r).shared s) (gather (sent s) ((ov s).shared r)) v) y

/-- Everything that one rank needs for a product. -/
structure Rank (K : Type) where
  A : CSR K
  ix : List Nat
  order : List Nat
  doDistribute : Bool

/-- `matvec`, 98-142, on all ranks.  `none`: with `doDistribute` the attributes `tempMemory` and `tempMem` (106, 108) do not exist.
`keepDistributedResult` only changes in which array the local vector is kept; `w` are its previous contents. -/
def csrMatvec [Semiring K] (ov : Nat → Manager) (R : Nat → Rank K) (x w : Nat → List K) (r : Nat) : Option (List K) :=
  if (R r).doDistribute then none
  else some (receive ov r (R r).order (fun s => (csrLocal (R s).A.numRows (R s).ix (rowSum (R s).A (x s)) (w s)).1)
    (csrLocal (R r).A.numRows (R r).ix (rowSum (R r).A (x r)) (w r)).2)

/-- `residual`, 144-186, on all ranks, without `doDistribute`. -/
def csrResidual [Ring K] (ov : Nat → Manager) (R : Nat → Rank K) (x rhs w : Nat → List K) (r : Nat) : List K :=
  receive ov r (R r).order (fun s => (csrLocal (R s).A.numRows (R s).ix (resRow (R s).A (x s) (rhs s)) (w s)).1)
    (csrLocal (R r).A.numRows (R r).ix (resRow (R r).A (x r) (rhs r)) (w r)).2

/-! ## Row distribution -/

/-- Number of ranks, `lclR.indices` and `localMat` of each rank. -/
structure RowDist (K : Type) where
  P : Nat
  own : Nat → List Nat
  mat : Nat → CSR K

variable (D : RowDist K)

/-- `dof_owner`, 226-228. -/
def RowDist.owner (g : Nat) : Nat := (List.range D.P).foldl (fun m r => max m (if g ∈ D.own r then r else 0)) 0

/-- `remoteReceives_list[p]` on rank `q`, 232-239, as a list with repetitions. -/
def RowDist.wanted (q p : Nat) : List Nat :=
  (((List.range (D.mat q).numRows).filter fun dof => D.owner dof = q).flatMap fun dof => ((D.mat q).row dof).map Prod.fst).filter
    fun J => D.owner J = p

/-- The part of `remoteReceives` for rank `p`, 242.  The flat arrays with counters and offsets are modelled as one list for each rank. -/
def RowDist.receives (q p : Nat) : List Nat := (D.wanted q p).dedup.insertionSort (· ≤ ·)

/-- `remoteReceives`, 242. -/
def RowDist.ghosts (q : Nat) : List Nat := (List.range D.P).flatMap (D.receives q)

/-- Assignment to a key of a dictionary. -/
def put (d : Nat → Option Nat) (k v : Nat) : Nat → Option Nat := fun g => if g = k then some v else d g

/-- `global_to_local` after 261-264. -/
def RowDist.ownIndex (p : Nat) : Nat → Option Nat :=
  forRange 0 (D.own p).length (fun _ => none) fun d l => put d ((D.own p).getD l 0) l

/-- `near_remoteSends` of rank `p` for rank `q`, 265-268, after the exchange 249. -/
def RowDist.sendIdx (p q : Nat) : List Nat := (D.receives q p).map fun g => (D.ownIndex p g).getD 0

/-- `colIdx`, 271. -/
def RowDist.colIdx (q : Nat) : List Nat := D.own q ++ D.ghosts q

/-- `global_to_local` after 277-280. -/
def RowDist.colIndex (q : Nat) : Nat → Option Nat :=
  forRange (D.own q).length ((D.own q).length + (D.ghosts q).length) (D.ownIndex q) fun d l => put d ((D.colIdx q).getD l 0) l

/-- Inner loop, 290-294. -/
def RowDist.fillRow [Zero K] (q g : Nat) (s : Nat × List Nat × List K) : Nat × List Nat × List K :=
  forRow (D.mat q) g s fun s J d => (s.1 + 1, s.2.1.set s.1 ((D.colIndex q J).getD 0), s.2.2.set s.1 d)

/-- One row, 286-294; the state is `new_indptr`, `new_indices`, `new_data`. -/
def RowDist.rowStep [Zero K] (q : Nat) (s : List Nat × List Nat × List K) (l : Nat) : List Nat × List Nat × List K :=
  let g := (D.own q).getD l 0
  let p := s.1.set (l + 1) (s.1.getD l 0 + (D.mat q).indptr.getD (g + 1) 0 - (D.mat q).indptr.getD g 0)
  (p, (D.fillRow q g (p.getD l 0, s.2.1, s.2.2)).2)

/-- The new `localMat`, 282-299; `p`, `u`, `v` are the uninitialised arrays. -/
def RowDist.localMat [Zero K] (q : Nat) (p u : List Nat) (v : List K) : CSR K :=
  let s := forRange 0 (D.own q).length (p.set 0 0, u, v) (D.rowStep q)
  ⟨s.1, s.2.1, s.2.2, (D.own q).length, (D.colIdx q).length⟩

/-- `communicateNear`, 301-312: `near_dataReceives` of rank `q`. -/
def RowDist.dataReceives [Zero K] (q : Nat) (x : Nat → List K) : List K :=
  (List.range D.P).flatMap fun p => (D.sendIdx p q).map fun l => (x p).getD l 0

/-- `xTemp`, 318-320; `t` is the uninitialised part. -/
def RowDist.xTemp [Zero K] (q : Nat) (x : Nat → List K) (t : List K) : List K :=
  forRange 0 (D.ghosts q).length (x q ++ t) fun z i => z.set ((D.own q).length + i) ((D.dataReceives q x).getD i 0)

/-- `matvec`, 314-321. -/
def RowDist.matvec [Semiring K] (q : Nat) (p u : List Nat) (v t : List K) (x : Nat → List K) (y : List K) : List K :=
  CSR.matvec false (D.localMat q p u v) (D.xTemp q x t) y

/-- `matvec_no_overwrite`, 323-330. -/
def RowDist.matvecNoOverwrite [Semiring K] (q : Nat) (p u : List Nat) (v t : List K) (x : Nat → List K) (y : List K) : List K :=
  CSR.matvecNoOverwrite false (D.localMat q p u v) (D.xTemp q x t) y

/-- `diagonal`, 332-334. -/
def RowDist.diagonal [Zero K] (q : Nat) (p u : List Nat) (v : List K) : List K := getDiagonal (D.localMat q p u v)

end PyNucleus.Distributed
