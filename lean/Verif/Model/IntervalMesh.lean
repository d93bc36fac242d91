import Verif.Model.StructuredMesh
import Mathlib.Analysis.SpecialFunctions.Pow.Real
import Mathlib.Data.List.Sort

/-!
# Model of the generators of meshes of intervals

/repo/fem/PyNucleus_fem/mesh.py 209-311, 1085-1142 and meshCy.pyx 184-241.  The vertices of a mesh of an interval are the list of their
coordinates, the cells are lists of two vertex numbers.  Arithmetic is exact; powers are real powers.  The tolerances `1e-8` are the argument
`eps`.  `INDEX(x)` and `int(x)` cut off the fractional part.
-/

namespace PyNucleus.IntervalMesh

open StructuredMesh

section Uniform
variable {K : Type} [Field K] [LinearOrder K] [IsStrictOrderedRing K]

/-- The cells `(i, i + 1)`, 252-255, 307-310, and 1135-1137. -/
def pathCells (numVertices : Nat) : List (List Nat) := (List.range (numVertices - 1)).map fun i => [i, i + 1]

/-- `simpleInterval`, 209-217. -/
def simpleInterval (a b : K) (numCells : Nat) : List K × List (List Nat) :=
  (((List.range numCells).map fun (i : Nat) => a + (b - a) * ((i : K) / (numCells : K))) ++ [b], (List.range numCells).map fun i => [i, i + 1])

variable [FloorRing K]

/-- `INDEX(x)`. -/
def trunc (x : K) : Int := if 0 ≤ x then ⌊x⌋ else ⌈x⌉

/-- Number of cells of the inner interval, 230-233. -/
def innerCells (a b h : K) : Int :=
  let k := trunc ((b - a) / h)
  if (k : K) * h < b - a then k + 1 else k

/-- Number of cells of each outer interval, 236-238. -/
def outerCells (eps horizon hInterior : K) : Int :=
  let k := trunc (horizon / hInterior)
  if (k : K) * hInterior < horizon - eps then k + 1 else k

/-- `getNodes`, 229-244. -/
def getNodes (eps a b horizon h : K) (strictInteraction : Bool) : List K :=
  let nodes := linspace a b ((innerCells a b h).toNat + 1)
  let hInterior := nodes.getD 1 0 - nodes.getD 0 0
  let k := outerCells eps horizon hInterior
  let horizon := if strictInteraction then horizon else (k : K) * hInterior
  (linspace (a - horizon) a (k.toNat + 1)).dropLast ++ nodes ++ (linspace b (b + horizon) (k.toNat + 1)).tail

/-- `intervalWithInteraction`, 247-256. -/
def intervalWithInteraction (eps a b horizon : K) (h : Option K) (strictInteraction : Bool) : List K × List (List Nat) :=
  let nodes := getNodes eps a b horizon (h.getD horizon) strictInteraction
  (nodes, pathCells nodes.length)

/-- `getNumCells`, 263-265. -/
def getNumCells (eps h left right : K) : Int := ⌈(right - left - eps) / h⌉

/-- `np.linspace(left, right, k+1)` with an error for a negative number of points. -/
def linspaceInt (left right : K) (k : Int) : Option (List K) := if k + 1 < 0 then none else some (linspace left right (k + 1).toNat)

/-- The loop over the pieces behind the first one, 302-304. -/
def morePieces (eps h : K) : List K → Option (List K)
  | p :: q :: l => do
    let s ← linspaceInt p q (getNumCells eps h p q)
    let r ← morePieces eps h (q :: l)
    some (s.tail ++ r)
  | _ => some []

/-- The vertices, 298-305. -/
def pieces (eps h : K) : List K → Option (List K)
  | p :: q :: l => do
    let s ← linspaceInt p q (getNumCells eps h p q)
    let r ← morePieces eps h (q :: l)
    some (s ++ r)
  | _ => none

/-- The mesh width, 269-280. -/
def doubleWidth (horizon1 horizon2 : K) : Option K → K
  | none => if 0 < horizon1 then horizon1 else if 0 < horizon2 then horizon2 else 1 / 2
  | some h => if 0 < horizon1 then min (min h horizon1) horizon2 else if 0 < horizon2 then min h horizon2 else h

/-- The points to keep, 282-297. -/
def doubleNodes (a b c horizon1 horizon2 : K) : List K :=
  (if 0 < horizon1 then [a - horizon1] else []) ++ [a] ++
    (if 0 < horizon2 then [b - horizon2] ++ (if horizon1 ≠ horizon2 then [b - horizon1] else []) else []) ++ [b] ++
    (if 0 < horizon2 then (if horizon1 ≠ horizon2 then [b + horizon1] else []) ++ [b + horizon2] else []) ++ [c] ++
    (if 0 < horizon2 then [c + horizon2] else [])

/-- `doubleIntervalWithInteractions`, 259-311. -/
def doubleInterval (eps a b c horizon1 horizon2 : K) (h : Option K) : Option (List K × List (List Nat)) :=
  if horizon1 ≤ horizon2 ∧ 0 ≤ horizon1 then do
    let v ← pieces eps (doubleWidth horizon1 horizon2 h) (doubleNodes a b c horizon1 horizon2)
    some (v, pathCells v.length)
  else none

end Uniform

/-- An interval with the exponents of its two ends. -/
structure Interval where
  a : ℝ
  b : ℝ
  mu1 : Option ℝ
  mu2 : Option ℝ

/-- `max(int(np.ceil(1/(1-(1-h/radius)**(1/mu)))), 1)`, 1099 and others.  For `h > radius` the power is not a real number in general and the program
raises an error; the value here is then of no meaning. -/
noncomputable def gradedCount (h radius mu : ℝ) : Nat := (max ⌈1 / (1 - (1 - h / radius) ^ (1 / mu))⌉ 1).toNat

/-- The numbers of cells of the two halves of an interval, 1091-1108. -/
noncomputable def counts (h : ℝ) (I : Interval) : Option (Nat × Nat) :=
  match I.mu1, I.mu2 with
  | none, none => none
  | none, some mu2 => some (0, gradedCount h (I.b - I.a) mu2)
  | some mu1, none => some (gradedCount h (I.b - I.a) mu1, 0)
  | some mu1, some mu2 => some (gradedCount h (I.b - I.a) mu1, gradedCount h (I.b - I.a) mu2)

/-- `points[i] = v`. -/
def put (p : Nat → ℝ) (i : Nat) (v : ℝ) : Nat → ℝ := fun j => if j = i then v else p j

/-- Radius and centre, 1116-1124. -/
noncomputable def radius (I : Interval) (M : Nat × Nat) : ℝ := if 0 < M.1 ∧ 0 < M.2 then 1 / 2 * (I.b - I.a) else I.b - I.a
noncomputable def center (I : Interval) (M : Nat × Nat) : ℝ := if 0 < M.1 ∧ 0 < M.2 then 1 / 2 * (I.a + I.b) else if M.1 = 0 then I.a else I.b

/-- The points of one interval, 1126-1133; `off` is the sum of the numbers of cells before it. -/
noncomputable def putInterval (p : Nat → ℝ) (off : Nat) (I : Interval) (M : Nat × Nat) : Nat → ℝ :=
  let idx := off + M.1
  let p := put p idx (center I M)
  let p := (List.range M.1).foldl (fun p j => put p (idx - (j + 1)) (center I M - radius I M * (1 - (1 - ((j + 1 : Nat) : ℝ) / (M.1 : ℝ)) ^ I.mu1.getD 1))) p
  (List.range M.2).foldl (fun p j => put p (idx + (j + 1)) (center I M + radius I M * (1 - (1 - ((j + 1 : Nat) : ℝ) / (M.2 : ℝ)) ^ I.mu2.getD 1))) p

/-- The loop over the intervals, 1111-1133. -/
noncomputable def putAll (p : Nat → ℝ) (off : Nat) : List (Interval × Nat × Nat) → Nat → ℝ
  | [] => p
  | (I, M) :: l => putAll (putInterval p off I M) (off + M.1 + M.2) l

/-- The number of cells. -/
def total : List (Interval × Nat × Nat) → Nat
  | [] => 0
  | (_, M) :: l => M.1 + M.2 + total l

/-- The vertices for given numbers of cells, 1109-1133. -/
noncomputable def gradedPoints (l : List (Interval × Nat × Nat)) : Nat → ℝ := putAll (fun _ => 0) 0 l

/-- The numbers of cells of all intervals, 1090-1108; an interval without exponents raises an error. -/
noncomputable def allCounts (h : ℝ) : List Interval → Option (List (Interval × Nat × Nat))
  | [] => some []
  | I :: l => do
    let M ← counts h I
    let r ← allCounts h l
    some ((I, M) :: r)

open Classical in
/-- `gradedIntervals`, 1085-1142: the vertices, the cells, and the intervals given to the transformation. -/
noncomputable def gradedIntervals (intervals : List Interval) (h : ℝ) : Option (List ℝ × List (List Nat) × List Interval) := do
  let intervals := intervals.insertionSort fun I J => I.a ≤ J.a
  let l ← allCounts h intervals
  some ((List.range (total l + 1)).map (gradedPoints l), (List.range (total l)).map (fun i => [i, i + 1]), intervals)

/-- The position of a new vertex in the parameter of the grading, meshCy.pyx 207-209 and others. -/
noncomputable def halfway (radius mu r1 r2 : ℝ) : ℝ :=
  let x1 := 1 - (1 - r1 / radius) ^ (1 / mu)
  let x2 := 1 - (1 - r2 / radius) ^ (1 / mu)
  1 / 2 * x1 + 1 / 2 * x2

open Classical in
/-- The new position of the vertex `r` between `v0` and `v1` in the interval, meshCy.pyx 200-238. -/
noncomputable def moveIn (I : Interval) (r v0 v1 : ℝ) : Option ℝ :=
  match I.mu1, I.mu2 with
  | none, none => none
  | none, some mu2 =>
    let radius := I.b - I.a
    some (I.a + radius * (1 - (1 - halfway radius mu2 |v0 - I.a| |v1 - I.a|) ^ mu2))
  | some mu1, none =>
    let radius := I.b - I.a
    some (I.b - radius * (1 - (1 - halfway radius mu1 |v0 - I.b| |v1 - I.b|) ^ mu1))
  | some mu1, some mu2 =>
    let center := 1 / 2 * (I.a + I.b)
    let radius := 1 / 2 * (I.b - I.a)
    if r < center then some (center - radius * (1 - (1 - halfway radius mu1 |v0 - center| |v1 - center|) ^ mu1))
    else some (center + radius * (1 - (1 - halfway radius mu2 |v0 - center| |v1 - center|) ^ mu2))

open Classical in
/-- `multiIntervalMeshTransformer.__call__` for one new vertex, meshCy.pyx 195-241. -/
noncomputable def move : List Interval → ℝ → ℝ → ℝ → Option ℝ
  | [], r, _, _ => some r
  | I :: l, r, v0, v1 => if I.a < r ∧ r ≤ I.b then moveIn I r v0 v1 else move l r v0 v1

end PyNucleus.IntervalMesh
