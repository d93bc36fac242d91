import Verif.Model.AssemblyPattern
import Verif.Model.SSS

/-!
# Model of the assembly of matrices and of matrix-free operators

/repo/fem/PyNucleus_fem/femCy.pyx 2173-2600 and 3403-3487.  The vertices of cell `i` and the call `local_matrix.eval` are replaced by the
array `loc i` of values that `eval` writes (`setCell` is contained in it).  The dofs of cell `i` are the row `dofs i` of the table, `n` is
`dofs_per_element`.  An operator is a state `σ` with the operation `addToEntry`; below it is a CSR or SSS matrix.  `start_idx` and `end_idx` have
their default values inserted.
-/

namespace PyNucleus.Assembly

open PyNucleus.Loops PyNucleus.Spec

variable {K σ : Type}

/-- One cell without boundary data, 2258-2275: the counter `s` and the operator. -/
def symCell (add : σ → Nat → Nat → K → σ) [Zero K] (n : Nat) (dofs : List Int) (loc : List K) (A : σ) : σ :=
  (forRange 0 n (0, A) fun r j =>
    let I := dofs.getD j 0
    if I < 0 then (r.1 + (n - j), r.2)
    else forRange j n r fun r k =>
      let J := dofs.getD k 0
      if J < 0 then (r.1 + 1, r.2)
      else if I = J then (r.1 + 1, add r.2 I.toNat I.toNat (loc.getD r.1 0))
      else (r.1 + 1, add (add r.2 I.toNat J.toNat (loc.getD r.1 0)) J.toNat I.toNat (loc.getD r.1 0))).2

/-- One cell with boundary data, 2311-2336: the operator and `rhs_contribution`. -/
def symCellBoundary (add : σ → Nat → Nat → K → σ) [Ring K] (n : Nat) (bdata : List K) (dofs : List Int) (loc : List K) (A : σ × List K) : σ × List K :=
  (forRange 0 n (0, A) fun r j =>
    let I := dofs.getD j 0
    forRange j n r fun r k =>
      let J := dofs.getD k 0
      (r.1 + 1,
        if 0 ≤ I then
          if 0 ≤ J then
            if I = J then (add r.2.1 I.toNat I.toNat (loc.getD r.1 0), r.2.2)
            else (add (add r.2.1 I.toNat J.toNat (loc.getD r.1 0)) J.toNat I.toNat (loc.getD r.1 0), r.2.2)
          else (r.2.1, r.2.2.modify I.toNat (· - loc.getD r.1 0 * bdata.getD (-J - 1).toNat 0))
        else if 0 ≤ J then (r.2.1, r.2.2.modify J.toNat (· - loc.getD r.1 0 * bdata.getD (-I - 1).toNat 0))
        else r.2)).2

/-- One cell in symmetric storage without boundary data, 2380-2397. -/
def sssCell (add : σ → Nat → Nat → K → σ) [Zero K] (n : Nat) (dofs : List Int) (loc : List K) (A : σ) : σ :=
  (forRange 0 n (0, A) fun r j =>
    let I := dofs.getD j 0
    if I < 0 then (r.1 + (n - j), r.2)
    else forRange (j + 1) n (r.1 + 1, add r.2 I.toNat I.toNat (loc.getD r.1 0)) fun r k =>
      let J := dofs.getD k 0
      if J < 0 then (r.1 + 1, r.2)
      else if I < J then (r.1 + 1, add r.2 J.toNat I.toNat (loc.getD r.1 0))
      else (r.1 + 1, add r.2 I.toNat J.toNat (loc.getD r.1 0))).2

/-- One cell in symmetric storage with boundary data, 2405-2426. -/
def sssCellBoundary (add : σ → Nat → Nat → K → σ) [Ring K] (n : Nat) (bdata : List K) (dofs : List Int) (loc : List K) (A : σ × List K) : σ × List K :=
  (forRange 0 n (0, A) fun r j =>
    let I := dofs.getD j 0
    forRange j n r fun r k =>
      let J := dofs.getD k 0
      (r.1 + 1,
        if 0 ≤ I then
          if 0 ≤ J then
            if I = J then (add r.2.1 I.toNat I.toNat (loc.getD r.1 0), r.2.2)
            else if I < J then (add r.2.1 J.toNat I.toNat (loc.getD r.1 0), r.2.2)
            else (add r.2.1 I.toNat J.toNat (loc.getD r.1 0), r.2.2)
          else (r.2.1, r.2.2.modify I.toNat (· - loc.getD r.1 0 * bdata.getD (-J - 1).toNat 0))
        else if 0 ≤ J then (r.2.1, r.2.2.modify J.toNat (· - loc.getD r.1 0 * bdata.getD (-I - 1).toNat 0))
        else r.2)).2

/-- One cell of `assembleNonSymMatrix_CSR`, 2486-2500 (2523-2537 and, with `setEntry`, 2561-2575, 2589-2603). -/
def nonsymCell (put : σ → Nat → Nat → K → σ) [Zero K] (n1 n2 : Nat) (dofs1 dofs2 : List Int) (loc : List K) (A : σ) : σ :=
  (forRange 0 n1 (0, A) fun r j =>
    let I := dofs1.getD j 0
    if I < 0 then (r.1 + n2, r.2)
    else forRange 0 n2 r fun r k =>
      let J := dofs2.getD k 0
      if J < 0 then (r.1 + 1, r.2)
      else (r.1 + 1, put r.2 I.toNat J.toNat (loc.getD r.1 0))).2

/-- `symLocalMatrix`: the full array `contrib` from the upper triangle, 2475-2482; `contrib` keeps its values from the cell before. -/
def fullLocal [Zero K] (n1 n2 : Nat) (sym contrib : List K) : List K :=
  (forRange 0 n1 (0, contrib) fun r j =>
    forRange j n2 r fun r k => (r.1 + 1, (r.2.set (j * n1 + k) (sym.getD r.1 0)).set (k * n1 + j) (sym.getD r.1 0))).2

/-- `assembleSymMatrix_CSR` with a matrix `A`, loops over `range(start_idx, end_idx)` or over `cellIndices`. -/
def symCSR [AddCommMonoid K] (n : Nat) (dofs : List (List Int)) (loc : Nat → List K) (cells : List Nat) (A : CSR K) : CSR K :=
  cells.foldl (fun A i => symCell CSR.addToEntry n (dofs.getD i []) (loc i) A) A
def symCSRBoundary [Ring K] (n : Nat) (bdata : List K) (dofs : List (List Int)) (loc : Nat → List K) (cells : List Nat) (A : CSR K × List K) : CSR K × List K :=
  cells.foldl (fun A i => symCellBoundary CSR.addToEntry n bdata (dofs.getD i []) (loc i) A) A

/-- `assembleSymMatrix_SSS` with a matrix `A`. -/
def symSSS [AddCommMonoid K] (n : Nat) (dofs : List (List Int)) (loc : Nat → List K) (cells : List Nat) (A : SSS K) : SSS K :=
  cells.foldl (fun A i => sssCell SSS.addToEntry n (dofs.getD i []) (loc i) A) A
def symSSSBoundary [Ring K] (n : Nat) (bdata : List K) (dofs : List (List Int)) (loc : Nat → List K) (cells : List Nat) (A : SSS K × List K) : SSS K × List K :=
  cells.foldl (fun A i => sssCellBoundary SSS.addToEntry n bdata (dofs.getD i []) (loc i) A) A

/-- `assembleNonSymMatrix_CSR` with a matrix `A` and `additiveAssembly`. -/
def nonsymCSR [AddCommMonoid K] (n1 n2 : Nat) (dofs1 dofs2 : List (List Int)) (loc : Nat → List K) (cells : List Nat) (A : CSR K) : CSR K :=
  cells.foldl (fun A i => nonsymCell CSR.addToEntry n1 n2 (dofs1.getD i []) (dofs2.getD i []) (loc i) A) A

/-- The same with `symLocalMatrix`: `contrib` is shared by all cells. -/
def nonsymCSRfull [AddCommMonoid K] (n1 n2 : Nat) (dofs1 dofs2 : List (List Int)) (sym : Nat → List K) (cells : List Nat) (contrib : List K) (A : CSR K) : CSR K :=
  (cells.foldl (fun r i =>
    let contrib := fullLocal n1 n2 (sym i) r.1
    (contrib, nonsymCell CSR.addToEntry n1 n2 (dofs1.getD i []) (dofs2.getD i []) contrib r.2)) (contrib, A)).2

/-- `assembleNonSymMatrix_CSR` without `additiveAssembly`; `none`: `IndexError`. -/
def setCSR [AddCommMonoid K] (n1 n2 : Nat) (dofs1 dofs2 : List (List Int)) (loc : Nat → List K) (cells : List Nat) (A : CSR K) : Option (CSR K) :=
  cells.foldl (fun A i => nonsymCell (fun A I J v => A.bind fun A => CSR.setEntry A I J v) n1 n2 (dofs1.getD i []) (dofs2.getD i []) (loc i) A) (some A)

/-- Zero matrices with a given pattern, DoFMaps.pyx 482-491. -/
def zeroCSR [Zero K] (numRows numCols : Nat) (p : List Nat × List Int) : CSR K := ⟨p.1, p.2.map Int.toNat, List.replicate p.2.length 0, numRows, numCols⟩
def zeroSSS [Zero K] (n : Nat) (p : List Nat × List Int) : SSS K := ⟨p.1, p.2.map Int.toNat, List.replicate p.2.length 0, List.replicate n 0, n⟩

/-- `assembleMatrix(A=None, sss_format=False)` without boundary data: pattern, then assembly with the possibly renumbered dofs. -/
def assembleCSR [AddCommMonoid K] (n : Nat) (dofs : List (List Int)) (numDofs start stop : Nat) (reorder : Bool) (perm : CSR.Graph → List Nat) (iperm : List Nat)
    (loc : Nat → List K) : Option (CSR K × List (List Int)) :=
  (AssemblyPattern.build dofs numDofs start stop false reorder perm iperm).map fun p =>
    (symCSR n p.2 loc (List.range' start (stop - start)) (zeroCSR numDofs numDofs p.1), p.2)

/-- `assembleMatrix(A=None, sss_format=True)`. -/
def assembleSSS [AddCommMonoid K] (n : Nat) (dofs : List (List Int)) (numDofs start stop : Nat) (reorder : Bool) (perm : CSR.Graph → List Nat) (iperm : List Nat)
    (loc : Nat → List K) : Option (SSS K × List (List Int)) :=
  (AssemblyPattern.build dofs numDofs start stop true reorder perm iperm).map fun p =>
    (symSSS n p.2 loc (List.range' start (stop - start)) (zeroSSS numDofs p.1), p.2)

/-- `assembleNonSymMatrix_CSR(A=None)`. -/
def assembleNonSym [AddCommMonoid K] (n1 n2 : Nat) (dofs1 dofs2 : List (List Int)) (num1 num2 start stop : Nat) (loc : Nat → List K) : Option (CSR K) :=
  (AssemblyPattern.buildNonSymmetric dofs1 dofs2 num1 start stop).map fun p =>
    nonsymCSR n1 n2 dofs1 dofs2 loc (List.range' start (stop - start)) (zeroCSR num1 num2 p)

/-- `matrixFreeOperator.matvec_no_overwrite`, 3428-3461. -/
def matrixFree [Ring K] (n : Nat) (dofs : List (List Int)) (loc : Nat → List K) (numCells : Nat) (x y : List K) : List K :=
  forRange 0 numCells y fun y i =>
    symCell (fun y I J v => y.modify I (· + v * x.getD J 0)) n (dofs.getD i []) (loc i) y

/-- `matrixFreeOperator.matvec`, 3418-3426. -/
def matrixFreeMatvec [Ring K] (n : Nat) (dofs : List (List Int)) (loc : Nat → List K) (numCells numDofs : Nat) (x y : List K) : List K :=
  matrixFree n dofs loc numCells x (forRange 0 numDofs y fun y i => y.set i 0)

/-- `matrixFreeOperator.get_diagonal`, 3463-3485: only the case `I == J` of the loop adds. -/
def matrixFreeDiagonal [Ring K] (n : Nat) (dofs : List (List Int)) (loc : Nat → List K) (numCells numDofs : Nat) : List K :=
  forRange 0 numCells (List.replicate numDofs 0) fun d i =>
    symCell (fun d I J v => if I = J then d.modify I (· + v) else d) n (dofs.getD i []) (loc i) d

end PyNucleus.Assembly
