import Verif.Model.NonlocalAssembly

/-!
# Model of the assembly of the near field

/repo/nl/PyNucleus_nl/nonlocalAssembly_{SCALAR}.pxi, 254-390 and 1663-1900, and nonlocalAssembly.pyx 375-393.  The conventions are those of
`Verif.Model.NonlocalAssembly`.  The dictionary `tupleDictMASK` (bitset.pyx) is a list of keys with masks; its order of iteration is not modelled, since only
sums are computed.  (The table itself is a copy of `tupleDict`, see `Verif.Model.TupleDict`.)  Sets of dofs and of cells are lists.
-/

namespace PyNucleus.NearField

open PyNucleus.Loops PyNucleus.NonlocalAssembly

variable {K σ : Type}

/-- `nearFieldClusterPair`: the dofs and cells of the two nodes, and `cellsUnion` and `cellsInter`, nonlocalAssembly.pyx 382-392. -/
structure Cluster where
  dofs1 : List Nat
  dofs2 : List Nat
  cells1 : List Nat
  cells2 : List Nat
  union : List Nat
  inter : List Nat

/-- `mask1` and `mask2` of a cell, 288-298. -/
def cellMask (n : Nat) (dofs : List Nat) (row : List Int) : Nat :=
  (forRange 0 n (1, 0) fun r p =>
    let I := row.getD p 0
    (r.1 <<< 1, if 0 ≤ I ∧ I.toNat ∈ dofs then r.2 ||| r.1 else r.2)).2

/-- `cellMasks1` and `cellMasks2`, 279-300: the maps are overwritten for the cells of the union. -/
def cellMasks (n : Nat) (cell2dof : Nat → List Int) (C : Cluster) (m : Nat → Nat × Nat) : Nat → Nat × Nat :=
  C.union.foldl (fun m c x => if x = c then (cellMask n C.dofs1 (cell2dof c), cellMask n C.dofs2 (cell2dof c)) else m x) m

/-- `enterValue` with `deleteHits=False` and `logicalAndHits=True`, bitset.pyx 112-145. -/
def enter (masks : List ((Nat × Nat) × Nat)) (c : Nat × Nat) (mask : Nat) : List ((Nat × Nat) × Nat) :=
  if c ∈ masks.map Prod.fst then masks.map fun e => if e.1 = c then (c, e.2 ||| mask) else e else masks ++ [(c, mask)]

/-- The body of the loops over pairs of cells, 317-336 and 353-384, for the pair that is entered. -/
def enterPair (symLocal : Bool) (n : Nat) (m : Nat → Nat × Nat) (masks : List ((Nat × Nat) × Nat)) (c : Nat × Nat) : List ((Nat × Nat) × Nat) :=
  let m1 := (m c.1).1 ||| (m c.2).1 <<< n
  let m2 := (m c.1).2 ||| (m c.2).2 <<< n
  if m1 = 0 ∨ m2 = 0 then masks
  else enter masks c (if symLocal then symMask (2 * n) m1.testBit m2.testBit else genMask (2 * n) m1.testBit m2.testBit)

/-- The loops of one cluster pair, 302-384. -/
def enterCluster (symCells symLocal : Bool) (n : Nat) (m : Nat → Nat × Nat) (C : Cluster) (masks : List ((Nat × Nat) × Nat)) : List ((Nat × Nat) × Nat) :=
  if symCells then
    C.cells1.foldl (fun masks c1 => C.cells2.foldl (fun masks c2 => enterPair symLocal n m masks (if c2 < c1 then (c2, c1) else (c1, c2))) masks) masks
  else C.union.foldl (fun masks c1 => C.union.foldl (fun masks c2 => enterPair symLocal n m masks (c1, c2)) masks) masks

/-- The loop over the clusters, 274-388: the masks, and the clusters that are left (`clusterList[startCluster:]`). -/
def buildLoop (symCells symLocal : Bool) (n : Nat) (cell2dof : Nat → List Int) (maxNNZ : Nat) :
    List Cluster → (Nat → Nat × Nat) → List ((Nat × Nat) × Nat) → List ((Nat × Nat) × Nat) × List Cluster
  | [], _, masks => (masks, [])
  | C :: Cs, m, masks =>
    let m := cellMasks n cell2dof C m
    let masks := enterCluster symCells symLocal n m C masks
    if maxNNZ < masks.length then (masks, Cs) else buildLoop symCells symLocal n cell2dof maxNNZ Cs m masks

/-- `buildMasksForClusters`, 260-390. -/
def buildMasks (symCells symLocal : Bool) (n : Nat) (cell2dof : Nat → List Int) (maxNNZ : Nat) (Cs : List Cluster) : List ((Nat × Nat) × Nat) × List Cluster :=
  buildLoop symCells symLocal n cell2dof maxNNZ Cs (fun _ => (0, 0)) []

theorem buildLoop_length (symCells symLocal : Bool) (n : Nat) (cell2dof : Nat → List Int) (maxNNZ : Nat) : ∀ (Cs : List Cluster) (m : Nat → Nat × Nat)
    (masks : List ((Nat × Nat) × Nat)), Cs ≠ [] → (buildLoop symCells symLocal n cell2dof maxNNZ Cs m masks).2.length < Cs.length := by
  intro Cs
  induction Cs with
  | nil => intro m masks h; exact absurd rfl h
  | cons C Cs ih =>
    intro m masks _
    unfold buildLoop
    dsimp only
    split
    · simp
    · cases Cs with
      | nil => simp [buildLoop]
      | cons D Ds => exact Nat.lt_trans (ih _ _ (by simp)) (by simp)

/-- The factor, 1828-1831. -/
def factor [One K] [Add K] (symCells : Bool) (c : Nat × Nat) : K := if symCells && decide (c.1 ≠ c.2) then 1 + 1 else 1

/-- The loop over the masks, 1818-1839. -/
def addMasks [Zero K] [One K] [Add K] [Mul K] (add : σ → Nat → Nat → K → σ) (symCells symLocal : Bool) (n : Nat) (cell2dof : Nat → List Int) (ignored : Nat × Nat → Bool)
    (eval : Nat × Nat → List K) (masks : List ((Nat × Nat) × Nat)) (A : σ) : σ :=
  masks.foldl (fun A e =>
    if ignored e.1 then A
    else if canSkip cell2dof e.1 then A
    else if symLocal then addSymMasked add (2 * n) (pairDofs cell2dof e.1) (eval e.1) (factor symCells e.1) e.2 A
    else addGenMasked add (2 * n) (pairDofs cell2dof e.1) (eval e.1) (factor symCells e.1) e.2 A) A

/-- The loop over batches of clusters, 1797-1840. -/
def assembleMasked [Zero K] [One K] [Add K] [Mul K] (add : σ → Nat → Nat → K → σ) (symCells symLocal : Bool) (n : Nat) (cell2dof : Nat → List Int) (ignored : Nat × Nat → Bool)
    (eval : Nat × Nat → List K) (maxNNZ : Nat) (Cs : List Cluster) (A : σ) : σ :=
  if h : Cs = [] then A
  else
    let r := buildMasks symCells symLocal n cell2dof maxNNZ Cs
    have : r.2.length < Cs.length := buildLoop_length symCells symLocal n cell2dof maxNNZ Cs _ _ h
    assembleMasked add symCells symLocal n cell2dof ignored eval maxNNZ r.2 (addMasks add symCells symLocal n cell2dof ignored eval r.1 A)
termination_by Cs.length

/-- `FilteredAssemblyOperator.addToEntry`, 3351-3353. -/
def filterAdd (add : σ → Nat → Nat → K → σ) (C : Cluster) (A : σ) (I J : Nat) (v : K) : σ := if I ∈ C.dofs1 ∧ J ∈ C.dofs2 then add A I J v else A

/-- The loops without masks, 1753-1789. -/
def assembleFiltered [Zero K] [One K] [Add K] [Mul K] (add : σ → Nat → Nat → K → σ) (symCells symLocal : Bool) (n : Nat) (cell2dof : Nat → List Int) (ignored : Nat × Nat → Bool)
    (eval : Nat × Nat → List K) (Cs : List Cluster) (A : σ) : σ :=
  Cs.foldl (fun A C => C.union.foldl (fun A c1 => C.union.foldl (fun A c2 =>
    if ignored (c1, c2) then A
    else if canSkip cell2dof (c1, c2) then A
    else if symLocal then addSym (filterAdd add C) (2 * n) (pairDofs cell2dof (c1, c2)) (eval (c1, c2)) (factor symCells (c1, c2)) A
    else addGen (filterAdd add C) (2 * n) (pairDofs cell2dof (c1, c2)) (eval (c1, c2)) (factor symCells (c1, c2)) A) A) A) A

/-- `getElemSymMaskCluster`, 463-478. -/
def clusterMask (n : Nat) (C : Cluster) (row : List Int) : Nat :=
  symMask n (fun p => decide (0 ≤ row.getD p 0 ∧ (row.getD p 0).toNat ∈ C.dofs1)) fun p => decide (0 ≤ row.getD p 0 ∧ (row.getD p 0).toNat ∈ C.dofs2)

/-- The loop `cluster zeroExterior`, 1842-1889.  `ns U` is the number of cells of the surface
of the union `U`, and `evalExt U` are the local matrices of a cell and a cell of this surface. -/
def clusterExterior [Zero K] [One K] [Mul K] (add : σ → Nat → Nat → K → σ) (n : Nat) (cell2dof : Nat → List Int) (ns : List Nat → Nat) (evalExt : List Nat → Nat × Nat → List K)
    (Cs : List Cluster) (A : σ) : σ :=
  Cs.foldl (fun A C =>
    if C.inter.length = 0 then A
    else C.inter.foldl (fun A c1 => forRange 0 (ns C.union) A fun A c2 => addSymMasked add n (cell2dof c1) (evalExt C.union (c1, c2)) 1 (clusterMask n C (cell2dof c1)) A) A) A

end PyNucleus.NearField
