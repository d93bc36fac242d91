import Verif.Model.Loops

/-!
# Model of the assembly of nonlocal operators

/repo/nl/PyNucleus_nl/nonlocalAssembly_{SCALAR}.pxi and nonlocalAssembly.pyx.  The operator that is assembled is a state `σ` with the operation
`addToEntry`.  The call `local_matrix.eval` is replaced by the array of values that it writes for the current pair of cells of the local matrix
object, and `getPanelType() == IGNORED` by a predicate of that pair.  `n` is `dofs_per_element`.  Masks are bit sets; here they are natural
numbers, so the fixed size of the C++ bit sets is not modelled.
-/

namespace PyNucleus.NonlocalAssembly

open PyNucleus.Loops

variable {K σ : Type}

/-- `addToMatrixElemSym`, 152-168 (`n = dofs_per_element`), and `addToMatrixElemElemSym`, 204-221 (`n = 2*dofs_per_element`). -/
def addSym [Zero K] [Mul K] (add : σ → Nat → Nat → K → σ) (n : Nat) (dofs : List Int) (contrib : List K) (fac : K) (A : σ) : σ :=
  (forRange 0 n (0, A) fun r p =>
    let I := dofs.getD p 0
    if 0 ≤ I then
      forRange (p + 1) n (r.1 + 1, add r.2 I.toNat I.toNat (fac * contrib.getD r.1 0)) fun r q =>
        let J := dofs.getD q 0
        if 0 ≤ J then (r.1 + 1, add (add r.2 I.toNat J.toNat (fac * contrib.getD r.1 0)) J.toNat I.toNat (fac * contrib.getD r.1 0))
        else (r.1 + 1, r.2)
    else (r.1 + (n - p), r.2)).2

/-- `addToMatrixElem`, 170-183 (`n = dofs_per_element`), and `addToMatrixElemElem`, 239-253 (`n = 2*dofs_per_element`). -/
def addGen [Zero K] [Mul K] (add : σ → Nat → Nat → K → σ) (n : Nat) (dofs : List Int) (contrib : List K) (fac : K) (A : σ) : σ :=
  (forRange 0 n (0, A) fun r p =>
    let I := dofs.getD p 0
    if 0 ≤ I then
      forRange 0 n r fun r q =>
        let J := dofs.getD q 0
        if 0 ≤ J then (r.1 + 1, add r.2 I.toNat J.toNat (fac * contrib.getD r.1 0)) else (r.1 + 1, r.2)
    else (r.1 + n, r.2)).2

/-- `addToSparsityElemElemSym`, 185-202; the counter `k` is not used there. -/
def sparsitySym (add : σ → Nat → Nat → σ) (n : Nat) (dofs : List Int) (A : σ) : σ :=
  forRange 0 n A fun A p =>
    let I := dofs.getD p 0
    if 0 ≤ I then
      forRange (p + 1) n (add A I.toNat I.toNat) fun A q =>
        let J := dofs.getD q 0
        if 0 ≤ J then add (add A I.toNat J.toNat) J.toNat I.toNat else A
    else A

/-- `addToSparsityElemElem`, 223-237. -/
def sparsityGen (add : σ → Nat → Nat → σ) (n : Nat) (dofs : List Int) (A : σ) : σ :=
  forRange 0 n A fun A p =>
    let I := dofs.getD p 0
    if 0 ≤ I then
      forRange 0 n A fun A q =>
        let J := dofs.getD q 0
        if 0 ≤ J then add A I.toNat J.toNat else A
    else A

/-- `getDoFsElemElem`, 138-150: the local dofs. -/
def pairDofs (cell2dof : Nat → List Int) (c : Nat × Nat) : List Int := cell2dof c.1 ++ cell2dof c.2

/-- `getDoFsElemElem`, 138-150: the returned flag. -/
def canSkip (cell2dof : Nat → List Int) (c : Nat × Nat) : Bool :=
  (cell2dof c.2).foldl (fun s dof => s && decide (dof < 0)) ((cell2dof c.1).foldl (fun s dof => s && decide (dof < 0)) true)

/-- The loop over pairs of cells of `getDense`, 1303-1334 (sparsity pattern) and 1390-1430 (matrix).  The state is the operator and the pair of cells
of the local matrix object (`setCell1`, `setCell2`, `swapCells`).  `visit A c l twice` adds the contribution of the local matrix for its pair
`l` to the dofs of the cells `c`. -/
def sweep (symCells : Bool) (cell2dof : Nat → List Int) (nc start stop : Nat) (ignored : Nat × Nat → Bool)
    (visit : σ → Nat × Nat → Nat × Nat → Bool → σ) (A : σ) : σ :=
  (forRange start stop (A, ((0, 0) : Nat × Nat)) fun st c1 =>
    forRange c1 nc (st.1, (c1, st.2.2)) fun st c2 =>
      let l := (st.2.1, c2)
      if canSkip cell2dof (c1, c2) then (st.1, l)
      else if c1 = c2 then
        if ignored l then (st.1, l) else (visit st.1 (c1, c2) l false, l)
      else if symCells then
        if ignored l then (st.1, l) else (visit st.1 (c1, c2) l true, l)
      else
        let A := if ignored l then st.1 else visit st.1 (c1, c2) l false
        let l := (l.2, l.1)
        if ignored l then (A, (l.2, l.1))
        else if canSkip cell2dof (c2, c1) then (A, l)
        else (visit A (c2, c1) l false, (l.2, l.1))).1

/-- Adding the local matrix, 1400-1403 and the like. -/
def addPair [Zero K] [One K] [Add K] [Mul K] (add : σ → Nat → Nat → K → σ) (symLocal : Bool) (n : Nat) (cell2dof : Nat → List Int)
    (eval : Nat × Nat → List K) (A : σ) (c l : Nat × Nat) (twice : Bool) : σ :=
  let fac : K := if twice then 1 + 1 else 1
  if symLocal then addSym add (2 * n) (pairDofs cell2dof c) (eval l) fac A else addGen add (2 * n) (pairDofs cell2dof c) (eval l) fac A

/-- Adding to the sparsity pattern, 1311-1314 and the like. -/
def sparsityPair (add : σ → Nat → Nat → σ) (symLocal : Bool) (n : Nat) (cell2dof : Nat → List Int) (A : σ) (c _l : Nat × Nat) (_twice : Bool) : σ :=
  if symLocal then sparsitySym add (2 * n) (pairDofs cell2dof c) A else sparsityGen add (2 * n) (pairDofs cell2dof c) A

/-- Contributions of the exterior, 1433-1449: pairs of a cell and a cell of the surface.  The mask given to `eval` only tells which entries
are needed. -/
def exterior [Zero K] [One K] [Mul K] (add : σ → Nat → Nat → K → σ) (n : Nat) (cell2dof : Nat → List Int) (ns start stop : Nat)
    (evalExt : Nat × Nat → List K) (A : σ) : σ :=
  forRange start stop A fun A c1 => forRange 0 ns A fun A c2 => addSym add n (cell2dof c1) (evalExt (c1, c2)) 1 A

/-- `getDense`, 1262-1473, for one rank: `start` and `end`, 1280-1285, and the two loops. -/
def assemble [Zero K] [One K] [Add K] [Mul K] (add : σ → Nat → Nat → K → σ) (symCells symLocal zeroExterior : Bool) (n : Nat) (cell2dof : Nat → List Int)
    (nc ns start stop : Nat) (ignored : Nat × Nat → Bool) (eval evalExt : Nat × Nat → List K) (A : σ) : σ :=
  let A := sweep symCells cell2dof nc start stop ignored (addPair add symLocal n cell2dof eval) A
  if zeroExterior then exterior add n cell2dof ns start stop evalExt A else A

/-- `np.ceil(num_cells*rank/size)`, 1281-1282. -/
def rankStart (nc size rank : Nat) : Nat := (nc * rank + size - 1) / size

/-- `Dense_LinearOperator.addToEntry` on a matrix given by its entries. -/
def denseAdd [Add K] (A : Nat → Nat → K) (I J : Nat) (v : K) : Nat → Nat → K := fun i j => if i = I ∧ j = J then A i j + v else A i j

/-- `getElemElemSymMask`, 408-423 (`n = 2*dofs_per_element`), and `getElemSymMask`, 442-457, with both conditions `localDoFs[p] >= 0`: the bit `k` and the mask. -/
def symMask (n : Nat) (m1 m2 : Nat → Bool) : Nat :=
  (forRange 0 n (1, 0) fun r p =>
    if m1 p then forRange p n r fun r q => (r.1 <<< 1, if m2 q then r.2 ||| r.1 else r.2)
    else (r.1 <<< (n - p), r.2)).2

/-- `getElemElemMask`, 425-440. -/
def genMask (n : Nat) (m1 m2 : Nat → Bool) : Nat :=
  (forRange 0 n (1, 0) fun r p =>
    if m1 p then forRange 0 n r fun r q => (r.1 <<< 1, if m2 q then r.2 ||| r.1 else r.2)
    else (r.1 <<< n, r.2)).2

/-- `getElemSymMask` and `getElemElemSymMask`, nonlocalAssembly.pyx 91-129: the entries with the global numbers `I` and `J`. -/
def entryMask (n : Nat) (dofs : List Int) (I J : Int) : Nat :=
  (forRange 0 n (1, 0) fun r p =>
    forRange p n r fun r q =>
      (r.1 <<< 1, if (I = dofs.getD p 0 ∧ J = dofs.getD q 0) ∨ (J = dofs.getD p 0 ∧ I = dofs.getD q 0) then r.2 ||| r.1 else r.2)).2

/-- `addToMatrixElemElemSymMasked`, 506-524, and `addToMatrixElemSymMasked`, 540-554. -/
def addSymMasked [Zero K] [Mul K] (add : σ → Nat → Nat → K → σ) (n : Nat) (dofs : List Int) (contrib : List K) (fac : K) (mask : Nat) (A : σ) : σ :=
  (forRange 0 n (0, A) fun r p =>
    let I := dofs.getD p 0
    forRange (p + 1) n (r.1 + 1, if mask.testBit r.1 then add r.2 I.toNat I.toNat (fac * contrib.getD r.1 0) else r.2) fun r q =>
      let J := dofs.getD q 0
      (r.1 + 1, if mask.testBit r.1 then add (add r.2 I.toNat J.toNat (fac * contrib.getD r.1 0)) J.toNat I.toNat (fac * contrib.getD r.1 0) else r.2)).2

/-- `addToMatrixElemElemMasked`, 526-538, and `addToMatrixElemMasked`, 556-566. -/
def addGenMasked [Zero K] [Mul K] (add : σ → Nat → Nat → K → σ) (n : Nat) (dofs : List Int) (contrib : List K) (fac : K) (mask : Nat) (A : σ) : σ :=
  (forRange 0 n (0, A) fun r p =>
    let I := dofs.getD p 0
    forRange 0 n r fun r q =>
      let J := dofs.getD q 0
      (r.1 + 1, if mask.testBit r.1 then add r.2 I.toNat J.toNat (fac * contrib.getD r.1 0) else r.2)).2

/-- `extractElemSymMasked`, 632-643, and `extractElemElemSymMasked`, 646-657. -/
def extract [Zero K] [Add K] [Mul K] (n : Nat) (contrib : List K) (fac : K) (mask : Nat) : K :=
  (forRange 0 n ((0, 0) : Nat × K) fun r p =>
    forRange p n r fun r _ => (r.1 + 1, if mask.testBit r.1 then r.2 + fac * contrib.getD r.1 0 else r.2)).2

/-- `cellsUnion`, 1550: the cells that contain one of the two dofs, in increasing order (`d2c` is the inverse of the table of dofs). -/
def unionCells (cell2dof : Nat → List Int) (nc I J : Nat) : List Nat :=
  (List.range nc).filter fun c => decide ((I : Int) ∈ cell2dof c) || decide ((J : Int) ∈ cell2dof c)

/-- The first loop of `getEntry`, 1555-1600, for a symmetric local matrix (it raises an error otherwise): the entry and the pair of cells of the local matrix object. -/
def entryNear [Zero K] [One K] [Add K] [Mul K] (symCells : Bool) (n : Nat) (cell2dof : Nat → List Int) (ignored : Nat × Nat → Bool) (eval : Nat × Nat → List K)
    (I J : Nat) (U : List Nat) (entry : K) : K :=
  (U.foldl (fun st c1 =>
    U.foldl (fun st c2 =>
      if c2 < c1 then st
      else
        let mask := entryMask (2 * n) (pairDofs cell2dof (c1, c2)) I J
        if mask = 0 then st
        else
          let l := (st.2.1, c2)
          if c1 = c2 then (st.1 + extract (2 * n) (eval l) 1 mask, l)
          else if symCells then
            if ignored l then (st.1, l) else (st.1 + extract (2 * n) (eval l) (1 + 1) mask, l)
          else
            let entry := if ignored l then st.1 else st.1 + extract (2 * n) (eval l) 1 mask
            let l := (l.2, l.1)
            let mask := entryMask (2 * n) (pairDofs cell2dof (c2, c1)) I J
            if ignored l then (entry, l) else (entry + extract (2 * n) (eval l) 1 mask, l)) (st.1, (c1, st.2.2)))
    (entry, ((0, 0) : Nat × Nat))).1

/-- The second loop of `getEntry` for variable kernels, 1623-1638. -/
def entryFar [Zero K] [One K] [Add K] [Mul K] (n : Nat) (cell2dof : Nat → List Int) (nc : Nat) (ignored : Nat × Nat → Bool) (eval : Nat × Nat → List K)
    (I J : Nat) (U : List Nat) (entry : K) : K :=
  U.foldl (fun entry c1 =>
    ((List.range nc).filter fun c => !U.contains c).foldl (fun entry c2 =>
      let mask := entryMask (2 * n) (pairDofs cell2dof (c1, c2)) I J
      if ignored (c1, c2) then entry else entry + extract (2 * n) (eval (c1, c2)) 1 mask) entry) entry

/-- `getEntry`, 1539-1661, without the exterior (`zeroExterior = False`). -/
def getEntry [Zero K] [One K] [Add K] [Mul K] (symCells variableKernel : Bool) (n : Nat) (cell2dof : Nat → List Int) (nc : Nat) (ignored : Nat × Nat → Bool)
    (eval : Nat × Nat → List K) (I J : Nat) : K :=
  let U := unionCells cell2dof nc I J
  let entry := entryNear symCells n cell2dof ignored eval I J U 0
  if variableKernel then entryFar n cell2dof nc ignored eval I J U entry else entry

end PyNucleus.NonlocalAssembly
