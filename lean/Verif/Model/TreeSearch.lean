import Mathlib.Analysis.Real.Sqrt

/-!
# Searching cells with a cluster tree

Models `inBox`, `minDist2FromBox`, `distsFromBox`, `distFromSimplex`
(nl/PyNucleus_nl/clusterMethodCy.pyx:51-118) and `tree_node.findCell`, `tree_node.findCells`
(clusterMethodCy.pyx:1739-1777).

Simplifications: reals instead of floating point numbers; a box and a vector are functions of the
component, `n` is the dimension; sets of cells are lists. Leaves carry the list of their cells in the
order of iteration.
-/

namespace PyNucleus.TreeSearch

abbrev Box := Nat → ℝ × ℝ
abbrev Vec := Nat → ℝ
/-- Vertices 0, 1, 2 and components 0, 1. -/
abbrev Triangle := Nat → Nat → ℝ

/-- `inBox` (51-59), a half open box. -/
noncomputable def inBox (n : Nat) (box : Box) (v : Vec) : Bool :=
  (List.range n).foldl (fun t i => t && decide ((box i).1 ≤ v i) && decide (v i < (box i).2)) true

/-- `minDist2FromBox` (62-72). -/
noncomputable def minDist2 (n : Nat) (box : Box) (v : Vec) : ℝ :=
  (List.range n).foldl (fun d i =>
    if v i ≤ (box i).1 then d + (v i - (box i).1) ^ 2
    else if v i ≥ (box i).2 then d + (v i - (box i).2) ^ 2
    else d) 0

/-- The loop of `distsFromBox` (75-89). -/
noncomputable def dists2 (n : Nat) (box : Box) (v : Vec) : ℝ × ℝ :=
  (List.range n).foldl (fun d i =>
    if v i ≤ (box i).1 then (d.1 + (v i - (box i).1) ^ 2, d.2 + (v i - (box i).2) ^ 2)
    else if v i ≥ (box i).2 then (d.1 + (v i - (box i).2) ^ 2, d.2 + (v i - (box i).1) ^ 2)
    else (d.1, d.2 + max ((v i - (box i).1) ^ 2) ((v i - (box i).2) ^ 2))) (0, 0)

/-- `distsFromBox` (90). -/
noncomputable def dists (n : Nat) (box : Box) (v : Vec) : ℝ × ℝ :=
  (Real.sqrt (dists2 n box v).1, Real.sqrt (dists2 n box v).2)

/-- `mydot` for two components. -/
def dot2 (a b : Vec) : ℝ := a 0 * b 0 + a 1 * b 1

/-- One edge of `distFromSimplex` (103-117): does the circle cut the edge `i`? -/
noncomputable def cutsEdge (s : Triangle) (v : Vec) (radius : ℝ) (i : Nat) : Bool :=
  let w : Vec := fun j => s ((i + 1) % 3) j - s i j
  let z : Vec := fun j => s i j - v j
  let t := 1 / dot2 w w
  let p := 2 * dot2 w z * t
  let q := (dot2 z z - radius ^ 2) * t
  let q := p ^ 2 / 4 - q
  if q > 0 then
    let q := Real.sqrt q
    let t1 := -p / 2 + q
    let t2 := -p / 2 - q
    (decide (0 ≤ t1) && decide (t1 ≤ 1)) || (decide (0 ≤ t2) && decide (t2 ≤ 1))
  else false

/-- `distFromSimplex` (92-118). -/
noncomputable def distFromSimplex (s : Triangle) (v : Vec) (radius : ℝ) : Bool :=
  (List.range 3).any (cutsEdge s v radius)

/-- A tree node: its box and either cells or children. -/
inductive Node
  | leaf (box : Box) (cells : List Nat)
  | inner (box : Box) (children : List Node)

def Node.box : Node → Box
  | .leaf b _ => b
  | .inner b _ => b

/-- `findCell` at a leaf (1745-1749): the loop returns in its first pass; without cells the function
ends without a value, which is 0 in C. -/
def leafCell (inCell : Nat → Bool) : List Nat → Int
  | [] => 0
  | c :: _ => if inCell c then (c : Int) else -1

mutual
/-- `findCell` (1739-1755); `inCell c` is `vertexInCell(vertex, c)`. A node without children would
leave `cellNo` at -1. -/
noncomputable def findCell (n : Nat) (v : Vec) (inCell : Nat → Bool) : Node → Int
  | .leaf box cells => if minDist2 n box v > 0 then -1 else leafCell inCell cells
  | .inner box children => if minDist2 n box v > 0 then -1 else findCellList n v inCell children

/-- The loop over the children (1751-1755); a child that finds nothing gives -1, also the last one. -/
noncomputable def findCellList (n : Nat) (v : Vec) (inCell : Nat → Bool) : List Node → Int
  | [] => -1
  | c :: l =>
    if findCell n v inCell c ≥ 0 then findCell n v inCell c else findCellList n v inCell l
end

mutual
/-- `findCells` (1757-1777); `simplex c` are the vertices of a cell. -/
noncomputable def findCells (n : Nat) (simplex : Nat → Triangle) (h : ℝ) (v : Vec) (r : ℝ) :
    Node → List Nat
  | .leaf box cells =>
    if (dists n box v).2 ≤ r - h ∨ (dists n box v).1 ≥ r + h then []
    else cells.filter fun c => distFromSimplex (simplex c) v r
  | .inner box children =>
    if (dists n box v).2 ≤ r - h ∨ (dists n box v).1 ≥ r + h then []
    else findCellsList n simplex h v r children

noncomputable def findCellsList (n : Nat) (simplex : Nat → Triangle) (h : ℝ) (v : Vec) (r : ℝ) :
    List Node → List Nat
  | [] => []
  | c :: l => findCells n simplex h v r c ++ findCellsList n simplex h v r l
end

end PyNucleus.TreeSearch
