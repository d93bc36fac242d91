import Verif.Model.ExtendOverlap

/-!
# Model of the stitching of subdomains

/repo/fem/PyNucleus_fem/mesh.py 3080-3165 (`stitchOverlappingMeshes`), 3168-3398 (`stitchNonoverlappingMeshes`), 3401-3419 (`stitchSolutions`),
3440-3451 (the loop of `getMappingToGlobalDoFMap`).  `α` is the type of points.  Messages are not modelled: all meshes are arguments.
-/

namespace PyNucleus.Stitch

open PyNucleus.SharedMesh PyNucleus.ExtendOverlap

/-- Part of a subdomain mesh that is read; boundary entities come with their tags. -/
structure SubMesh (α : Type) where
  vertices : List α
  cells : List (List Nat)
  bverts : List (Nat × Int)
  bedges : List ((Nat × Nat) × Int)
  bfaces : List ((Nat × Nat × Nat) × Int)

/-- The local variables.  `done` are the cells of the meshes that were treated, which 3109-3111, 3320-3322 overwrite by global numbers; the keys of `localCellLookup`
are `0, 1, 2, …`, so it is a list here; `cellNos` is `globalCellLookup`; the dictionaries of boundary entities are association lists. -/
structure State (α : Type) where
  vertices : List α
  cells : List (List Nat)
  done : List (List (List Nat))
  lookup : List (List (Nat × Nat))
  cellNos : List (List Nat)
  bverts : List (Nat × List Int)
  bedges : List ((Nat × Nat) × List Int)
  bfaces : List ((Nat × Nat × Nat) × List Int)

/-- `translate` after the loops over the subdomains that were treated, 3093-3101, 3178-3313; the pairs are the assignments; `none` is -1. -/
def known (n : Nat) (pairs : List (Nat × Nat)) : List (Option Nat) := pairs.foldl (fun t p => t.set p.1 (some p.2)) (List.replicate n none)

/-- One run of the numbering loop, 3104-3107, 3316-3319. -/
def numberStep (s : List Nat × Nat) (o : Option Nat) : List Nat × Nat := match o with | some g => (s.1 ++ [g], s.2) | none => (s.1 ++ [s.2], s.2 + 1)

/-- New numbers for the rest, 3103-3107, 3315-3319. -/
def number (n : Nat) (t : List (Option Nat)) : List Nat × Nat := t.foldl numberStep ([], n)

/-- `try: d[k].append(tag) except KeyError: d[k] = [tag]`, 3119-3122, 3127-3130, 3332-3335, 3341-3344, 3351-3354. -/
def addTag {κ : Type} [DecidableEq κ] (d : List (κ × List Int)) (k : κ) (tag : Int) : List (κ × List Int) :=
  if d.any fun p => decide (p.1 = k) then d.map fun p => if p.1 = k then (p.1, p.2 ++ [tag]) else p else d ++ [(k, [tag])]

/-- The last loop over the cells of a subdomain, 3132-3139, 3357-3359; the state are `localCellLookup` and `lookup`. -/
def cellStep (i : Nat) (keep : Nat → Bool) (s : List (List (Nat × Nat)) × List Nat) (k : Nat) : List (List (Nat × Nat)) × List Nat :=
  if keep k then (s.1 ++ [[(i, k)]], s.2.set k s.1.length) else (s.1.modify (s.2.getD k 0) (· ++ [(i, k)]), s.2)

/-- `lookup` after the loops over the subdomains that were treated, 3092, 3101. -/
def knownCells (n : Nat) (cellPairs : List (Nat × Nat)) : List Nat := cellPairs.foldl (fun l p => l.set p.1 p.2) (List.replicate n 0)

/-- One run of the outer loop, 3089-3140, 3176-3359.  `pairs` are the assignments to `translate`, `cellPairs` those to `lookup`; a cell is left out (`idx`) if it has
an assignment. -/
def addMesh {α : Type} (i : Nat) (pairs cellPairs : List (Nat × Nat)) (M : SubMesh α) (s : State α) : State α :=
  let t := (number s.vertices.length (known M.vertices.length pairs)).1
  let tr := fun v => t.getD v 0
  let cells := M.cells.map fun c => c.map tr
  let keep := fun k => !(cellPairs.any fun p => decide (p.1 = k))
  let l := (List.range M.cells.length).foldl (cellStep i keep) (s.lookup, knownCells M.cells.length cellPairs)
  { vertices := s.vertices ++ ((M.vertices.zip t).filter fun x => decide (s.vertices.length ≤ x.2)).map Prod.fst
    cells := s.cells ++ ((List.range M.cells.length).filter keep).map fun k => row cells k
    done := s.done ++ [cells]
    lookup := l.1
    cellNos := s.cellNos ++ [l.2]
    bverts := M.bverts.foldl (fun d v => addTag d (tr v.1) v.2) s.bverts
    bedges := M.bedges.foldl (fun d e => addTag d (tr e.1.1, tr e.1.2) e.2) s.bedges
    bfaces := M.bfaces.foldl (fun d f => addTag d (tr f.1.1, tr f.1.2.1, tr f.1.2.2) f.2) s.bfaces }

def start {α : Type} : State α := ⟨[], [], [], [], [], [], [], []⟩

def mesh {α : Type} (meshes : List (SubMesh α)) (i : Nat) : SubMesh α := meshes.getD i ⟨[], [], [], [], []⟩

/-- Assignments of 3178-3313 for subdomain `i`: entry `k` of the interface with `j` belongs to entry `k` of the interface of `j` with `i`. -/
def facePairs (dim : Nat) (interfaces : Nat → Nat → Option Shared) (cells : List (List Nat)) (done : List (List (List Nat))) (i : Nat) : List (Nat × Nat) :=
  (List.range i).flatMap fun j => match interfaces i j, interfaces j i with
    | some S, some S' => (interfaceVertices dim cells S).zip (interfaceVertices dim (done.getD j []) S')
    | _, _ => []

/-- The outer loop of `stitchNonoverlappingMeshes`, 3176-3359. -/
def stitchFaces {α : Type} (dim : Nat) (interfaces : Nat → Nat → Option Shared) (meshes : List (SubMesh α)) (n : Nat) : State α :=
  (List.range n).foldl (fun s i => addMesh i (facePairs dim interfaces (mesh meshes i).cells s.done i) [] (mesh meshes i) s) start

/-- Pairs of a cell and its number in the subdomain `j`, for all `j` that were treated, 3093-3099: (cell, subdomain, its cell). -/
def shared (overlaps : Nat → Nat → Option (List Nat)) (i : Nat) : List (Nat × Nat × Nat) :=
  (List.range i).flatMap fun j => match overlaps i j, overlaps j i with
    | some c, some c' => (c.zip c').map fun p => (p.1, j, p.2)
    | _, _ => []

/-- The outer loop of `stitchOverlappingMeshes`, 3089-3140. -/
def stitchOverlaps {α : Type} (overlaps : Nat → Nat → Option (List Nat)) (meshes : List (SubMesh α)) (n : Nat) : State α :=
  (List.range n).foldl (fun s i => addMesh i
    ((shared overlaps i).flatMap fun p => (row (mesh meshes i).cells p.1).zip (row (s.done.getD p.2.1 []) p.2.2))
    ((shared overlaps i).map fun p => (p.1, (s.cellNos.getD p.2.1 []).getD p.2.2 0)) (mesh meshes i) s) start

/-- The tag that is kept, 3152, 3162, 3372: `max`. -/
def largest (l : List Int) : Int := l.foldl max (l.headD 0)

/-- Boundary arrays of the result with the largest tag, 3147-3164, 3367-3374. -/
def maxTags {κ : Type} (d : List (κ × List Int)) : List (κ × Int) := d.map fun p => (p.1, largest p.2)

/-- Boundary edges and faces of `stitchNonoverlappingMeshes`, 3376-3396: a failed assertion if the tags are different. -/
def uniqueTags {κ : Type} (d : List (κ × List Int)) : Option (List (κ × Int)) :=
  if d.all fun p => decide ((p.2.dedup).length = 1) then some (d.map fun p => (p.1, p.2.headD 0)) else none

/-- Body of the innermost loops of `stitchSolutions`, 3410-3418; `u` is the uninitialised vector. -/
def stitchSolutions {K : Type} [Zero K] (numCells dpe : Nat) (glob : Nat → Nat → Int) (lookup : List (List (Nat × Nat))) (loc : Nat → Nat → Nat → Int) (sol : Nat → List K) (u : List K) :
    List K :=
  (List.range numCells).foldl (fun x c => (List.range dpe).foldl (fun x k => if 0 ≤ glob c k then
    (lookup.getD c []).foldl (fun x p => if 0 ≤ loc p.1 p.2 k then x.set (glob c k).toNat ((sol p.1).getD (loc p.1 p.2 k).toNat 0) else x) x else x) x) u

/-- The mappings, 3441-3450; `u i` is the uninitialised array of subdomain `i`. -/
def mappings (numCells dpe : Nat) (glob : Nat → Nat → Int) (lookup : List (List (Nat × Nat))) (loc : Nat → Nat → Nat → Int) (u : Nat → List Nat) : Nat → List Nat :=
  (List.range numCells).foldl (fun m c => (List.range dpe).foldl (fun m k => if 0 ≤ glob c k then
    (lookup.getD c []).foldl (fun m p => if 0 ≤ loc p.1 p.2 k then Function.update m p.1 ((m p.1).set (loc p.1 p.2 k).toNat (glob c k).toNat) else m) m else m) m) u

end PyNucleus.Stitch
