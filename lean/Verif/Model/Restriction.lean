import Verif.Model.RestrictionTables
import Verif.Model.AssemblyPattern
import Verif.Model.Entries
import Verif.Model.Transpose
import Mathlib.Data.Rat.Cast.Defs

/-!
# Model of `buildRestrictionProlongation`

/repo/multilevelSolver/PyNucleus_multilevelSolver/restrictionProlongation.pyx and the included files restriction_*.pxi, which differ only in their tables.  A dof
map is its table of dofs and the number of dofs.  Decimal constants are exact.
-/

namespace PyNucleus.Restriction

open PyNucleus.Spec

variable {K : Type}

/-- `cell2dof`. -/
def cell2dof (dofs : List (List Int)) (c I : Nat) : Int := (dofs.getD c []).getD I 0

/-- The conditions on the fine mesh, e.g. restriction_3D_P0.pxi 35, 36, 43, 50. -/
def caseOf (fineCells : List (List Nat)) (c : Nat) : Nat :=
  let first q := (fineCells.getD (8 * c + q) []).getD 0 0
  if first 4 = first 5 then if first 4 = first 6 then 0 else 1 else 2

/-- Groups of a cell. -/
def Table.patternOf (t : Table) (k : Nat) : List (Nat × List (Nat × Nat)) := t.pattern ++ t.patternCase k
def Table.dataOf (t : Table) (k : Nat) : List (Nat × List (Nat × Nat × Int)) := t.data ++ t.dataCase k

/-- `add` (restrictionProlongation.pyx 100-104) for the groups of cell `c`. -/
def addCalls (t : Table) (fineCells : List (List Nat)) (cdofs fdofs : List (List Int)) (c : Nat) : List (Nat × Int) :=
  (t.patternOf (caseOf fineCells c)).flatMap fun g =>
    let dof := cell2dof cdofs c g.1
    if 0 ≤ dof then g.2.flatMap fun e =>
      let dofF := cell2dof fdofs (t.sub * c + e.1) e.2
      if 0 ≤ dofF then [(dof.toNat, dofF)] else []
    else []

/-- `enterData` (107-112) for the groups of cell `c`. -/
def writes (t : Table) (fineCells : List (List Nat)) (cdofs fdofs : List (List Int)) (c : Nat) : List (Nat × Int × ℚ) :=
  (t.dataOf (caseOf fineCells c)).flatMap fun g =>
    let dof := cell2dof cdofs c g.1
    if 0 ≤ dof then g.2.flatMap fun e =>
      let dofF := cell2dof fdofs (t.sub * c + e.1) e.2.1
      if 0 ≤ dofF then [(dof.toNat, dofF, (e.2.2 : ℚ) / 10 ^ t.digits)] else []
    else []

/-- `R.setEntry` one after the other; `none`: `IndexError`. -/
def setEntries [RatCast K] : CSR K → List (Nat × Int × ℚ) → Option (CSR K)
  | A, [] => some A
  | A, w :: l => (CSR.setEntry A w.1 w.2.1.toNat (w.2.2 : K)).bind fun B => setEntries B l

/-- `buildRestriction_*`; `data n` are the contents of the uninitialised array of length `n`. -/
def restriction [RatCast K] (t : Table) (numCells : Nat) (fineCells : List (List Nat)) (cdofs fdofs : List (List Int)) (numCoarse numFine : Nat)
    (data : Nat → List K) : Option (CSR K) :=
  (AssemblyPattern.pattern numCoarse ((List.range numCells).flatMap (addCalls t fineCells cdofs fdofs))).bind fun p =>
    setEntries ⟨p.1, p.2.map Int.toNat, data p.2.length, numCoarse, numFine⟩ ((List.range numCells).flatMap (writes t fineCells cdofs fdofs))

/-- `buildRestrictionProlongation`, 17-97: both matrices; `newindices`, `newdata` are the uninitialised arrays of the transpose. -/
def restrictionProlongation [RatCast K] [Zero K] (pc pf dim numCells : Nat) (fineCells : List (List Nat)) (cdofs fdofs : List (List Int)) (numCoarse numFine : Nat)
    (data newdata : Nat → List K) (newindices : Nat → List Nat) : Option (CSR K × CSR K) :=
  (select pc pf dim).bind fun t =>
    (restriction t numCells fineCells cdofs fdofs numCoarse numFine data).map fun R => (R, CSR.transpose R (newindices R.indices.length) (newdata R.indices.length))

end PyNucleus.Restriction
