import Verif.Model.Loops
import Mathlib.Logic.Function.Basic

/-!
# Model of the degree of freedom maps

/repo/fem/PyNucleus_fem/DoFMaps.pyx, constructor (69-325) and renumbering.

A mesh is the list of its cells; a cell is the list of its vertices.  The array `vertices` (159), `tupleDictINDEX` with
`deleteHits=False` and `faceVals` with `deleteHits=True` (meshCy.pyx 2025-2103) are modelled by one partial map from mesh entities to
numbers (that tupleDictINDEX is such a map is C03).  The boundary entities with the given tag are inputs.  `INDEX_t` is `Int`.
-/

namespace PyNucleus.DoFMap

open PyNucleus.Loops

/-- Mesh entities: edges and faces with sorted vertices. -/
inductive Key
  | vertex (v : Nat)
  | edge (a b : Nat)
  | face (a b c : Nat)
  | cell (i : Nat)
  deriving DecidableEq

/-- `dofs_per_vertex`, `dofs_per_edge`, `dofs_per_face`, `dofs_per_cell`. -/
structure Element where
  perVertex : Nat
  perEdge : Nat
  perFace : Nat
  perCell : Nat

/-- Number of dofs on an entity. -/
def Element.count (E : Element) : Key → Nat
  | .vertex _ => E.perVertex
  | .edge _ _ => E.perEdge
  | .face _ _ _ => E.perFace
  | .cell _ => E.perCell

/-- `sortEdge`, meshCy.pyx 812-816. -/
def sortEdge (c0 c1 : Nat) : Key := if c0 < c1 then .edge c0 c1 else .edge c1 c0

/-- `sortFace`, meshCy.pyx 839-856. -/
def sortFace (c0 c1 c2 : Nat) : Key :=
  if c0 < c1 then
    if c0 < c2 then
      if c1 < c2 then .face c0 c1 c2 else .face c0 c2 c1
    else .face c2 c0 c1
  else
    if c1 < c2 then
      if c0 < c2 then .face c1 c0 c2 else .face c1 c2 c0
    else .face c2 c1 c0

/-- Local edges in the direction in which their dofs are listed, 228-243. -/
def localEdges : Nat → List (Nat × Nat)
  | 2 => [(0, 1), (1, 2), (2, 0)]
  | 3 => [(0, 1), (1, 2), (2, 0), (0, 3), (1, 3), (2, 3)]
  | _ => []

/-- Local faces, 289-293. -/
def localFaces : Nat → List (Nat × Nat × Nat)
  | 3 => [(0, 1, 2), (0, 1, 3), (1, 2, 3), (0, 2, 3)]
  | _ => []

/-- The entities of cell `i` in the order of the constructor; the flag is `edgeOrientations[k] < 0`. -/
def entities (dim i : Nat) (c : List Nat) : List (Key × Bool) :=
  (List.range (dim + 1)).map (fun k => (Key.vertex (c.getD k 0), false)) ++
  (localEdges dim).map (fun e => (sortEdge (c.getD e.1 0) (c.getD e.2 0), decide (c.getD e.2 0 < c.getD e.1 0))) ++
  (localFaces dim).map (fun f => (sortFace (c.getD f.1 0) (c.getD f.2.1 0) (c.getD f.2.2 0), false)) ++ [(Key.cell i, false)]

/-- Entities with dofs: the other loops are not executed (201, 227, 288). -/
def Element.entities (E : Element) (dim i : Nat) (c : List Nat) : List (Key × Bool) :=
  (DoFMap.entities dim i c).filter fun e => decide (0 < E.count e.1)

/-- `-MAX_INT`, 147. -/
def unset : Int := -(2 ^ 31 - 1)

/-- State of the constructor: numbers of entities, `numDoFs`. -/
structure State where
  table : Key → Option Int
  num : Nat

/-- Dofs of an entity that has just got the number `dof`: 216-222, 248-258, 299-302, 321-325. -/
def expandNew (n : Nat) (k : Key) (rev : Bool) (dof : Int) : List Int :=
  match k, rev with
  | .edge _ _, true => (List.range n).map fun j : Nat => dof + (n - 1) - j
  | _, _ => (List.range n).map fun j : Nat => dof + j

/-- Dofs of an entity that had the number `dof` before: 204-213, 263-283, 310-319. -/
def expandOld (n : Nat) (k : Key) (rev : Bool) (dof : Int) : List Int :=
  match k, rev with
  | .edge _ _, true => if 0 ≤ dof then (List.range n).map fun j : Nat => dof + (n - 1) - j else (List.range n).map fun j : Nat => dof + (n - 1) + j
  | .face _ _ _, _ => if 0 ≤ dof then (List.range n).map fun j : Nat => dof + (n - 1) - j else (List.range n).map fun j : Nat => dof - j
  | _, _ => if 0 ≤ dof then (List.range n).map fun j : Nat => dof + j else (List.range n).map fun j : Nat => dof - j

/-- Faces are deleted when they are met again (`deleteHits=True`, 180). -/
def Key.isFace : Key → Bool
  | .face _ _ _ => true
  | _ => false

/-- One entity of a cell.  `skip`: the cell number is not below `skipCellsAfter`; then nothing new is entered (215, 251, 259, 298;
a new face stays in the table with the value `numDoFs`, 305, which has the same effect as not being there).  The number of a cell is never
looked up again. -/
def visit (E : Element) (skip : Bool) (s : State) (e : Key × Bool) : List Int × State :=
  match s.table e.1 with
  | some dof => (expandOld (E.count e.1) e.1 e.2 dof, { s with table := if e.1.isFace then Function.update s.table e.1 none else s.table })
  | none =>
    if skip then (List.replicate (E.count e.1) unset, s)
    else (expandNew (E.count e.1) e.1 e.2 s.num, ⟨Function.update s.table e.1 (some (s.num : Int)), s.num + E.count e.1⟩)

/-- Entities one after the other. -/
def visits (E : Element) : State → List (Bool × Key × Bool) → List (List Int) × State
  | s, [] => ([], s)
  | s, e :: l =>
    let r := visit E e.1 s e.2
    let q := visits E r.2 l
    (r.1 :: q.1, q.2)

/-- Entities of cell `i`, with the flag for skipped cells. -/
def Element.cellVisits (E : Element) (dim skipAfter i : Nat) (c : List Nat) : List (Bool × Key × Bool) :=
  (E.entities dim i c).map fun e => (decide (skipAfter ≤ i), e)

/-- Loop over the cells, 199-325: the rows of `dofs`. -/
def cellLoop (E : Element) (dim skipAfter : Nat) : Nat → State → List (List Nat) → List (List Int) × State
  | _, s, [] => ([], s)
  | i, s, c :: cells =>
    let r := visits E s (E.cellVisits dim skipAfter i c)
    let q := cellLoop E dim skipAfter (i + 1) r.2 cells
    (r.1.flatten :: q.1, q.2)

/-- One boundary entity, 163-189: vertices overwrite, edges and faces keep a number they have (deleting faces that
occur twice is not modelled). -/
def bstep (E : Element) (s : (Key → Option Int) × Int) (k : Key) : (Key → Option Int) × Int :=
  (if (s.1 k).isSome then s.1 else Function.update s.1 k (some s.2), s.2 - E.count k)

/-- Numbers of the boundary entities, 163-189. -/
def boundaryTable (E : Element) (keys : List Key) : (Key → Option Int) × Int := keys.foldl (bstep E) (fun _ => none, -1)

/-- Result of the constructor. -/
structure Map where
  dofs : List (List Int)
  numDofs : Nat
  numBoundaryDofs : Int
  deriving DecidableEq

/-- `__init__`, 69-325, for the boundary entities `bnd` (vertices, edges, faces). -/
def build (E : Element) (dim : Nat) (cells : List (List Nat)) (bnd : List Key) (skipAfter : Nat) : Map :=
  let b := boundaryTable E (bnd.filter fun k => decide (0 < E.count k))
  let r := cellLoop E dim skipAfter 0 ⟨b.1, 0⟩ cells
  ⟨r.1, r.2.num, -b.2 - 1⟩

/-! ## Renumbering -/

/-- `reorder`, 392-400. -/
def reorder (dofs : List (List Int)) (perm : List Int) : List (List Int) :=
  dofs.map fun row => row.map fun dof => if 0 ≤ dof then perm.getD dof.toNat 0 else dof

/-- State of `resetUsingFEVector`: `old2new`, `dofNew`, `dofNewBoundary`. -/
structure Reset where
  old2new : Int → Option Int
  dofNew : Int
  dofNewBoundary : Int

/-- 365-377. -/
def resetOne (ind : Int → Bool) (s : Reset) (dofOld : Int) : Int × Reset :=
  match s.old2new dofOld with
  | some d => (d, s)
  | none =>
    if 0 ≤ dofOld ∧ ind dofOld = true then (s.dofNew, ⟨Function.update s.old2new dofOld (some s.dofNew), s.dofNew + 1, s.dofNewBoundary⟩)
    else (s.dofNewBoundary, ⟨Function.update s.old2new dofOld (some s.dofNewBoundary), s.dofNew, s.dofNewBoundary - 1⟩)

/-- All dofs of all cells, one after the other. -/
def resetAll (ind : Int → Bool) : Reset → List Int → List Int × Reset
  | s, [] => ([], s)
  | s, d :: l =>
    let r := resetOne ind s d
    let q := resetAll ind r.2 l
    (r.1 :: q.1, q.2)

/-- Row after row. -/
def resetRows (ind : Int → Bool) : Reset → List (List Int) → List (List Int) × Reset
  | s, [] => ([], s)
  | s, row :: l =>
    let r := resetAll ind s row
    let q := resetRows ind r.2 l
    (r.1 :: q.1, q.2)

/-- `resetUsingFEVector`, 358-380; `ind d` is `ind[d] > 0`. -/
def resetUsingFEVector (dofs : List (List Int)) (ind : Int → Bool) : Map :=
  let r := resetRows ind ⟨fun _ => none, 0, -1⟩ dofs
  ⟨r.1, r.2.dofNew.toNat, -r.2.dofNewBoundary - 1⟩

/-! ## Complement, combination and product -/

/-- `getComplementDoFMap`, 1170-1184: the numbers. -/
def complement (m : Map) : Map :=
  ⟨m.dofs.map fun row => row.map fun d => -d - 1, m.numBoundaryDofs.toNat, m.numDofs⟩

/-- `combine`, 1563-1588; `none`: an assertion or `NotImplementedError` (the checks of type and mesh are not modelled). -/
def combineOne (n : Nat) (d1 d2 : Int) : Option Int :=
  if 0 ≤ d1 ∧ d2 < 0 then some d1 else if d1 < 0 ∧ 0 ≤ d2 then some (n + d2) else none

/-- One row of `combine`. -/
def combineRow (n : Nat) (r1 r2 : List Int) : Option (List Int) := (r1.zip r2).mapM fun p => combineOne n p.1 p.2

/-- `combine`, 1563-1588. -/
def combine (m1 m2 : Map) : Option Map :=
  if (m1.numDofs : Int) = m2.numBoundaryDofs ∧ m1.numBoundaryDofs = m2.numDofs then
    ((m1.dofs.zip m2.dofs).mapM fun p => combineRow m1.numDofs p.1 p.2).map fun dofs => ⟨dofs, m1.numDofs + m2.numDofs, 0⟩
  else none

/-- `Product_DoFMap.__init__`, 2519-2524, one scalar dof. -/
def productDofs (n : Nat) (s : Int) : List Int :=
  if 0 ≤ s then (List.range n).map fun j : Nat => n * s + j else (List.range n).map fun j : Nat => n * (s + 1) - j - 1

/-- `Product_DoFMap.__init__`, 2516-2526. -/
def product (m : Map) (n : Nat) : Map :=
  ⟨m.dofs.map fun row => row.flatMap (productDofs n), n * m.numDofs, n * m.numBoundaryDofs⟩

/-! ## Copies

`getComplementDoFMap` and `combine` start from `deepcopy(self)`, which creates an object with all C fields zero and calls `__setstate__`
with the result of `__getstate__`. -/

/-- Attributes of a map.  `table` are `dofs`, `num_dofs`, `num_boundary_dofs`; `tag` and the shape functions are left out. -/
structure Object (N : Type) where
  table : Map
  element : Element
  dofsPerElement : Nat
  nodes : List N
  polynomialOrder : Nat
  dim : Nat

/-- `__getstate__`, 949-962. -/
def Object.getstate {N : Type} (o : Object N) : Map × Element × Nat × List N := (o.table, o.element, o.dofsPerElement, o.nodes)

/-- `__setstate__`, 964-977, of a new object. -/
def Object.setstate {N : Type} (s : Map × Element × Nat × List N) : Object N := ⟨s.1, s.2.1, s.2.2.1, s.2.2.2, 0, 0⟩

/-- `deepcopy`. -/
def Object.deepcopy {N : Type} (o : Object N) : Object N := Object.setstate o.getstate

/-- `getComplementDoFMap`, 1170-1184. -/
def Object.complement {N : Type} (o : Object N) : Object N := { o.deepcopy with table := DoFMap.complement o.table }

/-- `combine`, 1563-1588. -/
def Object.combine {N : Type} (o1 o2 : Object N) : Option (Object N) := (DoFMap.combine o1.table o2.table).map fun t => { o1.deepcopy with table := t }

/-! ## Restrictions -/

/-- One dof of the loop of `getFullDoFMap`, 1277-1281: `dof` and `dof2`. -/
def fullStep (s : List Int × List Int) (p : Int × Int) : List Int × List Int :=
  if 0 ≤ p.1 then (s.1.set p.1.toNat p.2, s.2) else (s.1, s.2.set (-p.1 - 1).toNat p.2)

/-- `getFullDoFMap`, 1256-1287: `indices` and `indices_bc`; the rows of `R` and `R_bc` have one entry one each, in these columns. -/
def fullIndices (m full : Map) : List Int × List Int :=
  (m.dofs.flatten.zip full.dofs.flatten).foldl fullStep (List.replicate m.numDofs 0, List.replicate m.numBoundaryDofs.toNat 0)

/-- One dof of the loop of `augmentWithBoundaryData`, 1226-1231. -/
def augmentStep {K : Type} [Zero K] (x b : List K) (y : List K) (p : Int × Int) : List K :=
  if 0 ≤ p.1 then y.set p.2.toNat (x.getD p.1.toNat 0) else y.set p.2.toNat (b.getD (-p.1 - 1).toNat 0)

/-- `augmentWithBoundaryData`, 1205-1254; `y` is uninitialised.  `augmentWithZero` (1186-1203) is the case `b = 0`. -/
def augment {K : Type} [Zero K] (m full : Map) (x b y : List K) : List K :=
  (m.dofs.flatten.zip full.dofs.flatten).foldl (augmentStep x b) y

/-- One dof of the loop of `Product_DoFMap.getRestrictionProlongation`, 2558-2563: scalar dof and dof. -/
def componentStep (s : List Int) (p : Int × Int) : List Int := if 0 ≤ p.2 then s.set p.1.toNat p.2 else s

/-- Scalar dof and dof of the component, for all local dofs of all cells. -/
def componentPairs (m : Map) (n component : Nat) : List (Int × Int) :=
  (m.dofs.zip (product m n).dofs).flatMap fun r => (List.range r.1.length).map fun l => (r.1.getD l 0, r.2.getD (l * n + component) 0)

/-- `Product_DoFMap.getRestrictionProlongation`, 2548-2569: `indices`, uninitialised before; the rows of `R` have one entry one each. -/
def componentIndices (m : Map) (n component : Nat) (init : List Int) : List Int :=
  (componentPairs m n component).foldl componentStep init

end PyNucleus.DoFMap
