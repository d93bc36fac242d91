import Verif.Model.Refine
import Mathlib.Logic.Function.Basic

/-!
# Model of the boundary layers

/repo/fem/PyNucleus_fem/boundaryLayerCy.pyx.

`cells i` are the vertices of the cell `i`. Sets are lists in which only the membership counts. `cell_connectivity` is the list of its
keys and a function; `-1` is the boundary, `-2` a cell that was removed. The codes of edges are the sorted edges (C02), `faceVals` with
`deleteHits` is the dictionary with `pop` (C79). `none` is an exception.
-/

namespace PyNucleus.BoundaryLayer

open PyNucleus.Refine

/-! ### Connectivity -/

/-- Facets of a cell in the order of the code: vertices (65), edges (79-81), faces (99-102). -/
def facets (dim : Nat) (c : List Nat) : List (List Nat) :=
  let v := fun i => c.getD i 0
  let e := fun i j => [(sortEdge (v i) (v j)).1, (sortEdge (v i) (v j)).2]
  if dim = 1 then [[v 0], [v 1]]
  else if dim = 2 then [e 0 1, e 1 2, e 2 0]
  else [sortFace (v 0) (v 1) (v 2), sortFace (v 0) (v 1) (v 3), sortFace (v 1) (v 2) (v 3), sortFace (v 2) (v 0) (v 3)]

/-- Entries of the dictionary: facet, cell, local number. -/
abbrev Item := List Nat × Nat × Nat

/-- All facets in the order of the loops. -/
def items (dim : Nat) (cells : List (List Nat)) : List Item :=
  cells.zipIdx.flatMap fun p => (facets dim p.1).zipIdx.map fun f => (f.1, p.2, f.2)

/-- `lookup` and `cell_connectivity`. -/
structure Build where
  lookup : List Item
  conn : Nat → List Int

/-- One vertex (66-71) or edge (84-89). -/
def enter (s : Build) (it : Item) : Build :=
  match s.lookup.find? fun e => e.1 = it.1 with
  | some e =>
    let conn := Function.update s.conn it.2.1 ((s.conn it.2.1).set it.2.2 (e.2.1 : Int))
    ⟨s.lookup.filter fun e => e.1 ≠ it.1, Function.update conn e.2.1 ((conn e.2.1).set e.2.2 (it.2.1 : Int))⟩
  | none => ⟨it :: s.lookup, s.conn⟩

/-- One face (104-107). -/
def enterFace (s : Build) (it : Item) : Build :=
  match s.lookup.find? fun e => e.1 = it.1 with
  | some e =>
    if it.2.1 ≠ e.2.1 then
      let conn := Function.update s.conn it.2.1 (s.conn it.2.1 ++ [(e.2.1 : Int)])
      ⟨s.lookup.filter fun e => e.1 ≠ it.1, Function.update conn e.2.1 (conn e.2.1 ++ [(it.2.1 : Int)])⟩
    else ⟨s.lookup.filter fun e => e.1 ≠ it.1, s.conn⟩
  | none => ⟨it :: s.lookup, s.conn⟩

/-- `getBoundaryAndConnectivity` (37-114) for the cells from `startCell` on. -/
def connect (dim : Nat) (cells : List (List Nat)) : Build :=
  if dim < 3 then (items dim cells).foldl enter ⟨[], fun _ => List.replicate (dim + 1) (-1)⟩
  else (items dim cells).foldl enterFace ⟨[], fun _ => []⟩

/-- `boundary_cells` (73, 90-93, 108-112). -/
def Build.boundaryCells (s : Build) : List Nat := s.lookup.map fun e => e.2.1

/-! ### Layers -/

/-- `vertex2cells` (308-330) for one vertex; an empty list is a missing key. -/
def vertex2cells (keys : List Nat) (cells : Nat → List Nat) (v : Nat) : List Nat := keys.filter fun c => v ∈ cells c

/-- One layer (137-149). -/
def nextLayer (keys : List Nat) (cells : Nat → List Nat) (prev cur : List Nat) : Option (List Nat) :=
  let candidates := cur.flatMap cells
  if candidates.all fun v => !(vertex2cells keys cells v).isEmpty then
    some ((candidates.flatMap (vertex2cells keys cells)).filter fun c => c ∉ cur ∧ c ∉ prev)
  else none

/-- Loop over `k` (136-149): `n` more layers after `cur`. -/
def moreLayers (keys : List Nat) (cells : Nat → List Nat) : Nat → List Nat → List Nat → Option (List (List Nat))
  | 0, _, cur => some [cur]
  | n + 1, prev, cur =>
    match nextLayer keys cells prev cur with
    | none => none
    | some next => (moreLayers keys cells n cur next).map fun ls => cur :: ls

/-- `getLayer` (116-156) with `returnLayerNo`; `keys` are those for which `_v2c` was set up. -/
def getLayer (keys : List Nat) (cells : Nat → List Nat) (depth : Nat) (ofCells : List Nat) : Option (List (List Nat)) :=
  if depth = 0 then some [] else moreLayers keys cells (depth - 1) [] ofCells

/-! ### Refinement -/

/-- `np.ceil(depth/afterRefinements)` (296); `none` is the error for a division by zero. -/
def layersKept (depth after : Nat) : Option Nat := if after = 0 then none else some ((depth + after - 1) / after)

/-- Keys of `new_cell_connectivity` before pruning (205-206, 224-227, 278). -/
def childKeys (dim : Nat) (keys : List Nat) : List Nat := keys.flatMap fun i => (List.range (2 ^ dim)).map fun s => 2 ^ dim * i + s

/-- `pp` (301-303); `none` is `KeyError`. -/
def touching (keys : List Nat) (cells : Nat → List Nat) (boundaryVertices : List Nat) : Option (List Nat) :=
  if boundaryVertices.all fun v => !(vertex2cells keys cells v).isEmpty then some (boundaryVertices.flatMap (vertex2cells keys cells)) else none

/-- Keys after `refine` (179-306) and `prune` (158-177); all cells of the layers are keys. -/
def refineKeys (dim depth after : Nat) (newCells : Nat → List Nat) (boundaryVertices keys : List Nat) : Option (List Nat) := do
  let d ← layersKept depth after
  let pp ← touching (childKeys dim keys) newCells boundaryVertices
  let ls ← getLayer (childKeys dim keys) newCells d pp
  some ls.flatten

/-- `cell_connectivity[j].index(i)`; `none` is `ValueError`. -/
def position (conn : Nat → List Int) (j : Int) (i : Nat) : Option Nat := (conn j.toNat).findIdx? fun x => x = (i : Int)

/-- Intervals: the cell on the side `e` of the new cell `2 i + e` (210-221). -/
def outer1 (conn : Nat → List Int) (i e : Nat) : Option Int :=
  let j := (conn i).getD e 0
  if j > -1 then (position conn j i).map fun (p : Nat) => 2 * j + (p : Int) else if j = -1 then some (-1) else some (-2)

/-- Triangles: the cells behind the two halves of the edge `e`, for the new cells `4 i + (e + 1) % 3` and `4 i + e` (233-268). -/
def outer2 (conn : Nat → List Int) (i e : Nat) : Option (Int × Int) :=
  let j := (conn i).getD e 0
  if j > -1 then (position conn j i).map fun (p : Nat) => (4 * j + (p : Int), 4 * j + Int.ofNat ((1 + p) % 3)) else if j = -1 then some (-1, -1) else some (-2, -2)

/-- Row of a new cell for intervals (204-221) and triangles (223-268). -/
def newRow (dim : Nat) (conn : Nat → List Int) (c : Nat) : Option (List Int) :=
  if dim = 1 then
    let i := c / 2
    (outer1 conn i (c % 2)).map fun o => if c % 2 = 0 then [o, (2 * i + 1 : Nat)] else [(2 * i : Nat), o]
  else
    let i := c / 4
    let s := c % 4
    if s = 3 then some [(4 * i + 1 : Nat), (4 * i + 2 : Nat), (4 * i : Nat)]
    else (outer2 conn i s).bind fun a => (outer2 conn i ((s + 2) % 3)).map fun b => [a.2, (4 * i + 3 : Nat), b.1]

/-- `new_bcells` (215, 221, 243-268). -/
def newBoundary (dim : Nat) (keys : List Nat) (conn : Nat → List Int) : List Nat :=
  keys.flatMap fun i => ((List.range (dim + 1)).filter fun e => (conn i).getD e 0 = -1).flatMap fun e =>
    if dim = 1 then [2 * i + e] else [4 * i + e, 4 * i + (e + 1) % 3]

/-- Links to cells that were removed (169-175). -/
def pruneRow (dim : Nat) (keys : List Nat) (row : List Int) : List Int :=
  (List.range (dim + 1)).map fun m => let j := row.getD m 0; if j = -1 ∨ (0 ≤ j ∧ j.toNat ∈ keys) then j else -2

/-- `cell_connectivity` and `boundary_cells`. -/
structure State where
  keys : List Nat
  conn : Nat → List Int
  boundary : List Nat

/-- `__init__` (31-35). -/
def State.init (dim : Nat) (cells : List (List Nat)) : State := ⟨List.range cells.length, (connect dim cells).conn, (connect dim cells).boundaryCells⟩

/-- `refine` (179-306) for intervals and triangles. -/
def State.refine (dim depth after : Nat) (newCells : Nat → List Nat) (boundaryVertices : List Nat) (s : State) : Option State :=
  if (childKeys dim s.keys).all fun c => (newRow dim s.conn c).isSome then
    (refineKeys dim depth after newCells boundaryVertices s.keys).map fun keys =>
      ⟨keys, fun c => pruneRow dim keys ((newRow dim s.conn c).getD []), newBoundary dim s.keys s.conn⟩
  else none

/-- Refinements one after the other; every one lowers `afterRefinements` (306). -/
def State.refineAll (dim depth : Nat) : Nat → List ((Nat → List Nat) × List Nat) → State → Option State
  | _, [], s => some s
  | after, m :: ms, s =>
    match s.refine dim depth after m.1 m.2 with
    | none => none
    | some s' => s'.refineAll dim depth (after - 1) ms

end PyNucleus.BoundaryLayer
