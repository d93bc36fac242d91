import Mathlib.Analysis.SpecialFunctions.Complex.Arg

/-!
# Model of the construction of polygons and of the joining of meshes

/repo/fem/PyNucleus_fem/meshConstruction.py (without `plot` and the call of meshpy in `mesh`) and `snapMeshes`, mesh.py 3676-3713.  Points are pairs of real
numbers.  A mesh transformation maps the ends of an edge and the new vertex to the changed new vertex; `none` is a division by zero.  The results of the trees of
scipy are parameters: the set of pairs in any order, the neighbours in any order.
-/

namespace PyNucleus.Segments

noncomputable section

abbrev Point := ℝ × ℝ

/-- `np.linalg.norm`. -/
def len (p : Point) : ℝ := Real.sqrt (p.1 ^ 2 + p.2 ^ 2)

abbrev Transformation := Point → Point → Point → Option Point

structure Segment where
  points : List Point
  facets : List (Nat × Nat)
  holes : List Point
  transformations : List Transformation

/-- `def transform` in `__add__`, 32-35. -/
def shift (v : Point) (t : Transformation) : Transformation := fun x1 x2 xNew => (t (x1 - v) (x2 - v) (xNew - v)).map (v + ·)

/-- The closures of a loop over `t`: all of them call the last value of `t`, 31-37 and 85-93. -/
def closures (f : Transformation → Transformation) (l : List Transformation) : List Transformation := match l.getLast? with
  | none => []
  | some t => l.map fun _ => f t

/-- `__add__` with a tuple, 26-39. -/
def translate (v : Point) (s : Segment) : Segment := ⟨s.points.map (v + ·), s.facets, s.holes.map (v + ·), closures (shift v) s.transformations⟩

/-- `idx[max(t)] = min(t)` for all pairs, 54-57. -/
def assign (pairs : List (Nat × Nat)) : Nat → Option Nat := pairs.foldl (fun a p i => if i = max p.1 p.2 then some (min p.1 p.2) else a i) fun _ => none

/-- The loop 58-66: the lists `idx` and `idxUnique`. -/
def number (a : Nat → Option Nat) (n : Nat) : List Nat × List Nat := (List.range n).foldl (fun s i => match a i with
  | none => (s.1 ++ [s.2.length], s.2 ++ [i])
  | some j => (s.1 ++ [s.1.getD j 0], s.2)) ([], [])

/-- `__add__` with a segment, 40-72; `pairs` is `kd.query_pairs(1e-6)`. -/
def join (pairs : List Point → List (Nat × Nat)) (s t : Segment) : Segment :=
  let points := s.points ++ t.points
  let facets := s.facets ++ t.facets.map fun f => (f.1 + s.points.length, f.2 + s.points.length)
  let n := number (assign (pairs points)) points.length
  ⟨n.2.map fun i => points.getD i (0, 0), facets.map fun f => (n.1.getD f.1 0, n.1.getD f.2 0), s.holes ++ t.holes, s.transformations ++ t.transformations⟩

/-- `rot.dot` and `rot.T.dot`, 80-81. -/
def rot (angle : ℝ) (p : Point) : Point := (Real.cos angle * p.1 + -Real.sin angle * p.2, Real.sin angle * p.1 + Real.cos angle * p.2)
def rotT (angle : ℝ) (p : Point) : Point := (Real.cos angle * p.1 + Real.sin angle * p.2, -Real.sin angle * p.1 + Real.cos angle * p.2)

/-- `def transform` in `__mul__`, 86-91. -/
def turn (c : Point) (angle : ℝ) (t : Transformation) : Transformation := fun x1 x2 xNew =>
  (t (c + rotT angle (x1 - c)) (c + rotT angle (x2 - c)) (c + rotT angle (xNew - c))).map fun x => c + rot angle (x - c)

/-- `__mul__`, 76-95. -/
def rotate (c : Point) (angle : ℝ) (s : Segment) : Segment :=
  ⟨s.points.map fun p => c + rot angle (p - c), s.facets, s.holes.map fun p => c + rot angle (p - c), closures (turn c angle) s.transformations⟩

/-- The calls in `myMeshTransformer.__call__`, 180-182, for transformations that return nothing. -/
def transform (l : List Transformation) (x1 x2 xNew : Point) : Option Point := l.foldlM (fun x t => t x1 x2 x) xNew

/-- `np.arctan2` moved to `[0, 2π)`, 215-218. -/
def angleOf (p : Point) : ℝ := if Complex.arg ⟨p.1, p.2⟩ < 0 then Complex.arg ⟨p.1, p.2⟩ + 2 * Real.pi else Complex.arg ⟨p.1, p.2⟩

/-- `circularSegment.meshTransformation`, 212-228. -/
def arcTransformation (center : Point) (radius startAngle stopAngle : ℝ) : Transformation := fun x1 x2 xNew =>
  if len (xNew - center) ≤ radius then
    if startAngle ≤ angleOf (xNew - center) ∧ angleOf (xNew - center) ≤ stopAngle then
      if (x1 - center).1 * (x2 - center).1 + (x1 - center).2 * (x2 - center).2 ≤ 0 then some xNew
      else if len (xNew - center) = 0 then none
      else
        let r := 1 / 2 * len (x1 - center) + 1 / 2 * len (x2 - center)
        some (center + ((xNew - center).1 * r / len (xNew - center), (xNew - center).2 * r / len (xNew - center)))
    else some xNew
  else some xNew

/-- `np.linspace(0, 1, n)`. -/
def linspace01 (n : Nat) : List ℝ := (List.range n).map fun (i : Nat) => (i : ℝ) / ((n - 1 : Nat) : ℝ)

/-- `line` with a number of points, 237-253. -/
def line (start stop : Point) (n : Nat) : Segment :=
  if (stop.1 - start.1) ^ 2 + (stop.2 - start.2) ^ 2 < 1 / 1000000000 then ⟨[], [], [], []⟩
  else ⟨(linspace01 n).map fun t => (start.1 + t * (stop.1 - start.1), start.2 + t * (stop.2 - start.2)), (List.range (n - 1)).map fun i => (i, i + 1), [], []⟩

/-- `polygon`, 255-268, for default numbers of points: lines between neighbours, and the last one back to the first point. -/
def polygonOf (pairs : List Point → List (Nat × Nat)) : Segment → Point → List Point → Segment
  | s, _, [] => s
  | s, p, q :: l => polygonOf pairs (join pairs s (line p q 2)) q l
def polygon (pairs : List Point → List (Nat × Nat)) (doClose : Bool) : List Point → Option Segment
  | p0 :: p1 :: l => some (polygonOf pairs (line p0 p1 2) p1 (if doClose then l ++ [p0] else l))
  | _ => none

/-- `rectangle`, 270-284.  The transformation is stored in `meshTransformation`, which nothing reads. -/
def rectangle (pairs : List Point → List (Nat × Nat)) (a b : Point) : Option Segment :=
  if a.1 < b.1 ∧ a.2 < b.2 then polygon pairs true [a, (b.1, a.1), b, (a.1, b.1)] else none

/-- One step of the loop in `snapMeshes`, mesh.py 3688-3698; `n1` is the number of vertices of the first mesh, `neighbours` its tree. -/
def snapStep {α : Type} (n1 : Nat) (neighbours : α → List Nat) (s : List Nat × List α) (v : α) : Option (List Nat × List α) :=
  match neighbours v with
  | [] => some (s.1 ++ [n1 + s.2.length], s.2 ++ [v])
  | [i] => some (s.1 ++ [i], s.2)
  | _ => none

/-- `snapMeshes`, mesh.py 3684-3698: the translation of the vertices of the second mesh and the vertices to add. -/
def snapVertices {α : Type} (n1 : Nat) (neighbours : α → List Nat) (V2 : List α) : Option (List Nat × List α) := V2.foldlM (snapStep n1 neighbours) ([], [])

/-- `snapMeshes`, mesh.py 3676-3705. -/
def snapMeshes {α : Type} (neighbours : α → List Nat) (m1 m2 : List α × List (List Nat)) : Option (List α × List (List Nat)) := do
  let s ← snapVertices m1.1.length neighbours m2.1
  pure (m1.1 ++ s.2, m1.2 ++ m2.2.map fun c => c.map fun v => s.1.getD v 0)

end

end PyNucleus.Segments
