import Verif.Model.DoFMap
import Verif.Model.SparsityPattern
import Verif.Model.Cuthill
import Verif.Spec.CSR

/-!
# Model of the sparsity patterns of finite element matrices

/repo/fem/PyNucleus_fem/DoFMaps.pyx 392-532.  A table of dofs is the list of its rows.  The values of the matrix are zero and left out;
the rows of the pattern are sorted already, so that the final `sort_indices` (C12) has no effect and is left out.
-/

namespace PyNucleus.AssemblyPattern

open PyNucleus.SparsityPattern PyNucleus.DoFMap

/-- Calls `sPat.add(I, J)` for one cell, 430-438 and 441-449: dofs of the rows and of the columns. -/
def cellCalls (symmetric : Bool) (rowI rowJ : List Int) : List (Nat × Int) :=
  rowI.flatMap fun I =>
    if I < 0 then []
    else rowJ.flatMap fun J => if J < 0 ∨ (symmetric = true ∧ I ≤ J) then [] else [(I.toNat, J)]

/-- Calls for the cells `start, …, stop - 1`. -/
def calls (symmetric : Bool) (dofsI dofsJ : List (List Int)) (start stop : Nat) : List (Nat × Int) :=
  (List.range' start (stop - start)).flatMap fun i => cellCalls symmetric (dofsI.getD i []) (dofsJ.getD i [])

/-- New pattern with the given calls; `none`: access outside of allocated memory.  Initial length 9: sparsityPattern.pyx 16. -/
def pattern (numDofs : Nat) (cs : List (Nat × Int)) : Option (List Nat × List Int) := ((SP.init numDofs 9).addAll cs).map SP.freeze

/-- 457-461: inverse permutation, `iperm` uninitialised before. -/
def inverse (perm : List Nat) (iperm : List Nat) : List Nat :=
  Loops.forRange 0 perm.length iperm fun iperm i => iperm.set (perm.getD i 0) i

/-- Calls after reordering, 464-479. -/
def reorderCalls (symmetric : Bool) (perm iperm : List Nat) (p : List Nat × List Int) : List (Nat × Int) :=
  (List.range perm.length).flatMap fun i =>
    (Spec.csrRow p.1 p.2 (perm.getD i 0)).flatMap fun J =>
      let j := iperm.getD J.toNat 0
      if symmetric then if j < i then [(i, (j : Int))] else if i < j then [(j, (i : Int))] else []
      else [(i, (j : Int))]

/-- The graph passed to `cuthill_mckee`, 455. -/
def graph (p : List Nat × List Int) : CSR.Graph := ⟨p.1, p.2.map Int.toNat, p.1.length - 1, p.1.length - 1⟩

/-- `buildSparsityPattern`, 401-491: pattern and table of dofs.  `start`, `stop` after the default values are inserted (418-421).  `reorder`
is false if the map is reordered already (415).  `perm` is the result of `cuthill_mckee(graph, perm)`. -/
def build (dofs : List (List Int)) (numDofs start stop : Nat) (symmetric reorder : Bool) (perm : CSR.Graph → List Nat) (iperm : List Nat) :
    Option ((List Nat × List Int) × List (List Int)) :=
  if reorder then
    (pattern numDofs (calls false dofs dofs start stop)).bind fun p =>
      let pm := perm (graph p)
      let ip := inverse pm iperm
      (pattern numDofs (reorderCalls symmetric pm ip p)).map fun q => (q, DoFMap.reorder dofs (ip.map fun k : Nat => (k : Int)))
  else (pattern numDofs (calls symmetric dofs dofs start stop)).map fun p => (p, dofs)

/-- `buildNonSymmetricSparsityPattern`, 493-532. -/
def buildNonSymmetric (dofs dofsOther : List (List Int)) (numDofs start stop : Nat) : Option (List Nat × List Int) :=
  pattern numDofs (calls false dofs dofsOther start stop)

end PyNucleus.AssemblyPattern
