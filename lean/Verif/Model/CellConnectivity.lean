/-!
# Cells that share vertices

Models `getCellConnectivity` (fem/PyNucleus_fem/meshCy.pyx:751-785).

Simplifications: sets are lists without repetition, iterated in the order of insertion; a list of
sets is a function of the index; the dictionaries `c2c[cellNo]` are functions of the other cell, where
the empty list stands for a missing key.
-/

namespace PyNucleus.CellConnectivity

/-- `set.add`. -/
def addTo (s : List Nat) (x : Nat) : List Nat := if x ∈ s then s else s ++ [x]

/-- `sets[i].add(x)`. -/
def addAt (sets : Nat → List Nat) (i x : Nat) : Nat → List Nat :=
  fun j => if j = i then addTo (sets i) x else sets j

/-- `v2c` (759-765): the cells of each vertex. -/
def v2c (cells : List (List Nat)) : Nat → List Nat :=
  (List.range cells.length).foldl (fun s c =>
    (cells.getD c []).foldl (fun s v => addAt s v c) s) fun _ => []

/-- One pass of the innermost loop (771-776). -/
def addPair (v : Nat) (c2c : Nat → Nat → List Nat) (c c' : Nat) : Nat → Nat → List Nat :=
  if c ≠ c' then fun a b => if a = c ∧ b = c' then addTo (c2c c c') v else c2c a b else c2c

/-- `c2c` (766-776): the common vertices of each pair of cells. -/
def c2c (numVertices : Nat) (cells : List (List Nat)) : Nat → Nat → List Nat :=
  (List.range numVertices).foldl (fun t v =>
    if (v2c cells v).length > 1 then
      (v2c cells v).foldl (fun t c => (v2c cells v).foldl (fun t c' => addPair v t c c') t) t
    else t) fun _ _ => []

/-- `getCellConnectivity` (751-785): the cells that are connected to a cell. The keys of a dictionary
are the cells with a common vertex. -/
def getCellConnectivity (numVertices : Nat) (cells : List (List Nat)) (commonNodes : Int) :
    List (List Nat) :=
  let n : Int := if commonNodes < 0 then 1 else commonNodes
  (List.range cells.length).map fun c =>
    ((List.range cells.length).filter fun c' => (c2c numVertices cells c c').length > 0).foldl
      (fun s c' => if ((c2c numVertices cells c c').length : Int) ≥ n then addTo s c' else s) []

end PyNucleus.CellConnectivity
