import Verif.Model.CellFinder
import Verif.Model.DoFMap
import Verif.Model.Transpose

/-!
# Model of splitting a mesh and its degrees of freedom

/repo/fem/PyNucleus_fem/splitting.pyx, `getSubMapRestrictionProlongation` and `getSubMapRestrictionProlongation2` of DoFMaps.pyx
(2340-2408), the tags in `getSubmesh` of meshCy.pyx (2548-2637).

A map is the table `dofs` (one row for each cell) with `num_dofs` and `num_boundary_dofs`. The dictionaries `submeshes`, `submaps`,
`selectedCells` only keep results and are not modelled; the plots are not modelled.
-/

namespace PyNucleus.Splitting

open PyNucleus.DoFMap PyNucleus.Spec

/-- Cells with a degree of freedom that is not on the boundary, splitting.pyx 42-48 (for the piecewise constant functions on the
indicator) and 199-206. -/
def selected (dofs : List (List Int)) : List Nat :=
  (List.range dofs.length).filter fun c => (dofs.getD c []).any fun d => decide (0 ≤ d)

/-- The rows of the selected cells. -/
def rowsOf (dofs : List (List Int)) (sel : List Nat) : List (List Int) := sel.map fun c => dofs.getD c []

/-- Empty dictionary, `sub_dof = 0`, `sub_boundary_dof = -1` (splitting.pyx 59-61, 82-84). -/
def start : Reset := ⟨fun _ => none, 0, -1⟩

/-- `meshSplitter.getSubMap`, splitting.pyx 56-78. Lines 64-75 are those of `resetUsingFEVector` with an indicator that is
positive everywhere. -/
def getSubMap (dofs : List (List Int)) (sel : List Nat) : Map :=
  let r := resetRows (fun _ => true) start (rowsOf dofs sel)
  ⟨r.1, r.2.dofNew.toNat, -r.2.dofNewBoundary - 1⟩

/-- `meshSplitter.getSubMapOnFullMesh`, splitting.pyx 80-110. The second loop (99-107) writes all entries, so only the dictionary and
the counters of the first loop (85-98) are kept; it takes new degrees of freedom to the boundary, as `resetUsingFEVector` does with
an indicator that is positive nowhere. -/
def getSubMapOnFullMesh (dofs : List (List Int)) (sel : List Nat) : Map :=
  let r := resetRows (fun _ => true) start (rowsOf dofs sel)
  let q := resetRows (fun _ => false) r.2 dofs
  ⟨q.1, q.2.dofNew.toNat, -q.2.dofNewBoundary - 1⟩

/-- `cellIndices`, splitting.pyx 113-115. -/
def cellIndices (numCells : Nat) (sel : List Nat) : List Int :=
  sel.zipIdx.foldl (fun l p => l.set p.1 (p.2 : Int)) (List.replicate numCells (-1))

/-- The matrix with one entry 1 in each row (DoFMaps.pyx 2368-2369, 2381-2382 and 2403-2407). -/
def pick {K : Type} [One K] (n numColumns : Nat) (indices : List Int) : CSR K :=
  ⟨List.range (n + 1), indices.map Int.toNat, List.replicate indices.length 1, n, numColumns⟩

/-- One local degree of freedom, DoFMaps.pyx 2398-2401: `p` is (`dofNew`, `dof`). -/
def writeIndex (mem : List Int) (p : Int × Int) : List Int := if 0 ≤ p.1 then mem.set p.1.toNat p.2 else mem

/-- `indices` in `getSubMapRestrictionProlongation2`, DoFMaps.pyx 2393-2401; `mem` is the content of the new array. -/
def indices2 (mem : List Int) (dofs sub : List (List Int)) (newCellIndices : List Int) : List Int :=
  (List.range dofs.length).foldl (fun mem c =>
    let new := newCellIndices.getD c (-1)
    if 0 ≤ new then ((sub.getD new.toNat []).zip (dofs.getD c [])).foldl writeIndex mem else mem) mem

/-- `meshSplitter.getRestrictionProlongation`, splitting.pyx 112-118. -/
def restriction2 {K : Type} [One K] (mem : List Int) (dm sub : Map) (sel : List Nat) : CSR K :=
  pick sub.numDofs dm.numDofs (indices2 mem dm.dofs sub.dofs (cellIndices dm.dofs.length sel))

/-- DoFMaps.pyx 2363-2367: the number of different `dofSub`; `p` is (`dof`, `dofSub`). -/
def countOne (s : List Int × Nat) (p : Int × Int) : List Int × Nat :=
  if 0 ≤ p.1 ∧ 0 ≤ p.2 ∧ p.2 ∉ s.1 then (p.2 :: s.1, s.2 + 1) else s

/-- DoFMaps.pyx 2375-2380. An index beyond the end of the array raises `IndexError`. -/
def indexOne (s : List Int × List Int) (p : Int × Int) : Option (List Int × List Int) :=
  if 0 ≤ p.1 ∧ 0 ≤ p.2 ∧ p.2 ∉ s.1 then
    if p.2.toNat < s.2.length then some (p.2 :: s.1, s.2.set p.2.toNat p.1) else none
  else some s

/-- The pairs (`dof`, `dofSub`) in the order of the loops. -/
def pairs (dofs sub : List (List Int)) : List (Int × Int) := (dofs.zip sub).flatMap fun r => r.1.zip r.2

/-- `getSubMapRestrictionProlongation` without `indicator`, DoFMaps.pyx 2356-2382. -/
def restriction1 {K : Type} [One K] (dm sub : Map) : Option (CSR K) := do
  let k := ((pairs dm.dofs sub.dofs).foldl countOne ([], 0)).2
  let s ← (pairs dm.dofs sub.dofs).foldlM indexOne ([], List.replicate k 0)
  some (pick sub.numDofs dm.numDofs s.2)

/-- `getSubMapRestrictionProlongation` with `indicator`, DoFMaps.pyx 2347-2355; `none` is `IndexError`. -/
def restrictionIndicator {K : Type} [One K] (dm sub : Map) (ind : Nat → Bool) : Option (CSR K) := do
  let s ← (List.range dm.numDofs).foldlM (fun (s : Nat × List Int) i =>
    if ind i then (if s.1 < s.2.length then some (s.1 + 1, s.2.set s.1 (i : Int)) else none) else some s) (0, List.replicate sub.numDofs 0)
  some (pick sub.numDofs dm.numDofs s.2)

/-- The subdomains, splitting.pyx 145-175: `cell2subdomain` are the rounded values; `none` are the assertions (and the error of `min` for
an empty mesh). The loops over the cells are those of the cell finder. -/
def createSubdomains (cell2subdomain : List Int) : Option CellFinder.Graph :=
  let subdomains := cell2subdomain.dedup
  if subdomains.min? = some 0 ∧ subdomains.max? = some ((subdomains.length : Int) - 1) then
    some (CellFinder.bucketGraph subdomains.length ((cell2subdomain.map Int.toNat).zip (List.range cell2subdomain.length)))
  else none

/-- One degree of freedom of `dofmapSplitter.getSubMapOnSubMesh`, splitting.pyx 219-227. -/
def keepOne (s : Reset) (dof : Int) : Int × Reset :=
  if dof < 0 then
    match s.old2new dof with
    | some d => (d, s)
    | none => (s.dofNewBoundary, ⟨Function.update s.old2new dof (some s.dofNewBoundary), s.dofNew, s.dofNewBoundary - 1⟩)
  else (dof, s)

/-- One cell. -/
def keepAll : Reset → List Int → List Int × Reset
  | s, [] => ([], s)
  | s, d :: l =>
    let r := keepOne s d
    let q := keepAll r.2 l
    (r.1 :: q.1, q.2)

/-- Cell after cell. -/
def keepRows : Reset → List (List Int) → List (List Int) × Reset
  | s, [] => ([], s)
  | s, row :: l =>
    let r := keepAll s row
    let q := keepRows r.2 l
    (r.1 :: q.1, q.2)

/-- `dofmapSplitter.getSubMapOnSubMesh`, splitting.pyx 211-230, for the map of the splitter with the label. -/
def getSubMapOnSubMesh (m : Map) : Map :=
  let r := keepRows start (rowsOf m.dofs (selected m.dofs))
  ⟨r.1, m.numDofs, -r.2.dofNewBoundary - 1⟩

/-! ### Tags of the boundary -/

/-- The dictionary `lookup` for a kind of entities with tags, meshCy.pyx 2583-2586 and similarly for edges and faces: the tag that was
entered last. -/
def tagTable {κ : Type} [DecidableEq κ] (old : List (κ × Int)) : κ → Option Int :=
  old.foldl (fun t e => Function.update t e.1 (some e.2)) fun _ => none

/-- `lookup.pop`, meshCy.pyx 2589-2593; `new` are the keys and tags of the boundary of the new mesh. -/
def popTags {κ : Type} [DecidableEq κ] : (κ → Option Int) → List (κ × Int) → List Int
  | _, [] => []
  | t, e :: l =>
    match t e.1 with
    | some tag => tag :: popTags (Function.update t e.1 none) l
    | none => e.2 :: popTags t l

/-- New tags of the boundary vertices (2582-2594) and edges (2596-2614); the key of an edge are its sorted vertices (that the encoding
is injective is C02). -/
def copyTags {κ : Type} [DecidableEq κ] (old new : List (κ × Int)) : List Int := popTags (tagTable old) new

/-- New tags of the boundary faces (2616-2634). The key is computed from the array `e` of the last edge instead of `f`, and from the
memory behind it: `beyond f` is its value while the face `f` is handled. -/
def copyFaceTags (e : Nat × Nat) (beyond : Nat → Nat) (old new : List ((Nat × Nat × Nat) × Int)) : List Int :=
  copyTags (old.map fun f => ((e.1, e.2, beyond f.1.1), f.2)) (new.map fun f => ((e.1, e.2, beyond f.1.1), f.2))

end PyNucleus.Splitting
