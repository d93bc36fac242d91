import Verif.Model.RelativePosition
import Verif.Model.BarycentricCoords

/-!
# Model of the decomposition of cut elements

/repo/nl/PyNucleus_nl/interactionDomains.pyx: `retriangulationDomain.startLoopSubSimplices_Simplex` (406-568) and `startLoopSubSimplices_Node`
(570-825) with the loops `nextSubSimplex_Simplex` (63-95) and `nextSubSimplex_Node` (100-112), and `findIntersections` of `ball2_retriangulation`
(911-937) and `ballInf_retriangulation` (1132-1165).

The model of a loop is the list of the matrices, vectors and volumes that the calls of `next…` give.  `findIntersections` is a function from the two
vertices to the list of values written; the array `intersections` of two entries keeps its old contents where nothing is written (`store`), and
its contents at the beginning are an arbitrary argument `m`.  In the decomposition of triangles `findIntersections` is an argument.  Not modelled:
the flag `identityMapping`.
-/

namespace PyNucleus.Interaction

variable {K : Type} [Field K] [LinearOrder K]

/-- `findIntersections` of `ball2_retriangulation`, 911-937.  The square root of a negative number is not a number and both comparisons fail. -/
def cross2 (sqrt : K → K) (dim : Nat) (h2 : K) (x : Point K) (s : Simplex K) (start stop : Nat) : List K :=
  let nn := (List.range dim).foldl (fun t k => t + (s stop k - s start k) ^ 2) 0
  let p := (List.range dim).foldl (fun t k => t + (s stop k - s start k) * (s start k - x k)) 0
  let q := (List.range dim).foldl (fun t k => t + (s start k - x k) ^ 2) 0
  let nn := 1 / nn
  let p := p * (2 * nn)
  let q := (q - h2) * nn
  let A := -p * (1 / 2)
  if A ^ 2 - q < 0 then [] else
  let B := sqrt (A ^ 2 - q)
  (if 0 ≤ A - B ∧ A - B ≤ 1 then [A - B] else []) ++ (if 0 ≤ A + B ∧ A + B ≤ 1 then [A + B] else [])

/-- One of the two candidates in `findIntersections` of `ballInf_retriangulation`, 1146-1153 and 1154-1161; the inner loop runs to 2 in every dimension. -/
def crossInfOne (h2 eps : K) (x : Point K) (s : Simplex K) (start stop : Nat) (lam : K) : List K :=
  if 0 ≤ lam ∧ lam ≤ 1 ∧ ∀ j ∈ List.range 2, (x j - (lam * s start j + (1 - lam) * s stop j)) ^ 2 ≤ h2 + eps then [1 - lam] else []

/-- `findIntersections` of `ballInf_retriangulation`, 1132-1165.  `eps` is 1e-12. -/
def crossInf (sqrt : K → K) (eps : K) (dim : Nat) (h2 : K) (x : Point K) (s : Simplex K) (start stop : Nat) : List K :=
  let l := (List.range dim).flatMap fun k =>
    let d := s start k - s stop k
    if eps < |d| then
      crossInfOne h2 eps x s start stop ((sqrt h2 - (s stop k - x k)) / d) ++ crossInfOne h2 eps x s start stop ((-sqrt h2 - (s stop k - x k)) / d)
    else []
  match l with
  | [a, b] => if b < a then [b, a] else [a, b]
  | l => l

/-- Array of two entries after writing the values of a list from its beginning. -/
def store (m : K × K) : List K → K × K
  | [] => m
  | [a] => (a, m.2)
  | a :: b :: _ => (a, b)

/-- Matrix with the given entries `(i, j, v)`, zero elsewhere. -/
def entries (l : List (Nat × Nat × K)) : Nat → Nat → K :=
  l.foldl (fun A e i j => if i = e.1 ∧ j = e.2.1 then e.2.2 else A i j) fun _ _ => 0

/-- `A_Node` and `vol_Node` of one sub-simplex. -/
structure Sub (K : Type) where
  A : Nat → Nat → K
  vol : K

/-- First index below `n` with the given truth value; the loops `while not ind[inside]`. -/
def first (n : Nat) (ind : Nat → Bool) : Nat := (List.range n).findIdx ind

/-- `startLoopSubSimplices_Node`, dimension one, 594-632. -/
def node1 (ind : Nat → Bool) (fi : Nat → Nat → List K) (m : K × K) : List (Sub K) :=
  match ((List.range 2).filter ind).length with
  | 0 =>
    let c := store m (fi 0 1)
    if (fi 0 1).length = 2 then [⟨entries [(0, 0, 1 - c.1), (1, 0, c.1), (1, 1, c.2), (0, 1, 1 - c.2)], c.2 - c.1⟩] else []
  | 1 =>
    let i := first 2 ind
    let o := (i + 1) % 2
    let c := store m (fi i o)
    [⟨entries [(i, i, 1), (o, o, c.1), (i, o, 1 - c.1)], c.1⟩]
  | _ => [⟨entries [(0, 0, 1), (1, 1, 1)], 1⟩]

/-- Triangles without vertices inside, 647-666: only the first edge with intersections is used. -/
def node2none (fi : Nat → Nat → List K) (m : K × K) (bary : Option (Nat → K)) : List Nat → List (Sub K)
  | [] => []
  | v0 :: l =>
    match bary with
    | none => []
    | some b =>
      let v1 := (v0 + 1) % 3
      let v2 := (v0 + 2) % 3
      let c := store m (fi v0 v1)
      if fi v0 v1 ≠ [] then
        [⟨entries [(v0, v0, 1 - c.1), (v1, v0, c.1), (v0, v1, 1 - c.2), (v1, v1, c.2), (v0, v2, b v0), (v1, v2, b v1), (v2, v2, b v2)], b v2 * (c.2 - c.1)⟩]
      else node2none fi c (some b) l

/-- Triangles with one vertex inside, 668-748. -/
def node2one (fi : Nat → Nat → List K) (m : K × K) (bary : Option (Nat → K)) (i o1 o2 : Nat) : List (Sub K) :=
  let m1 := store m (fi i o1)
  let c1 := m1.1
  let m2 := store m1 (fi i o2)
  let c2 := m2.1
  let e := store m2 (fi o1 o2)
  match (fi o1 o2).length with
  | 0 =>
    ⟨entries [(i, i, 1), (i, o1, 1 - c1), (o1, o1, c1), (o2, o2, c2), (i, o2, 1 - c2)], c1 * c2⟩ ::
      match bary with
      | none => []
      | some b =>
        [⟨entries [(i, i, b i), (o1, i, b o1), (o2, i, b o2), (i, o1, 1 - c1), (i, o2, 1 - c2), (o1, o1, c1), (o2, o2, c2)],
          b o1 * c2 + b o2 * c1 - c1 * c2⟩]
  | 2 =>
    [⟨entries [(i, i, 1), (o1, o1, c1), (i, o1, 1 - c1), (o2, o2, e.1), (o1, o2, 1 - e.1)], c1 * e.1⟩,
      ⟨entries [(i, i, 1), (o1, o1, 1 - e.1), (o2, o1, e.1), (o1, o2, 1 - e.2), (o2, o2, e.2)], e.2 - e.1⟩,
      ⟨entries [(i, i, 1), (o1, o1, 1 - e.2), (o2, o1, e.2), (o2, o2, c2), (i, o2, 1 - c2)], c2 * (1 - e.2)⟩]
  | _ =>
    [⟨entries [(i, i, 1), (o1, o1, c1), (i, o1, 1 - c1), (o2, o2, e.1), (o1, o2, 1 - e.1)], c1 * e.1⟩,
      ⟨entries [(i, i, 1), (o1, o1, 1 - e.1), (o2, o1, e.1), (o2, o2, c2), (i, o2, 1 - c2)], c2 * (1 - e.1)⟩]

/-- `np.linalg.det` of a matrix with three rows. -/
def det3 (A : Nat → Nat → K) : K :=
  A 0 0 * (A 1 1 * A 2 2 - A 1 2 * A 2 1) - A 0 1 * (A 1 0 * A 2 2 - A 1 2 * A 2 0) + A 0 2 * (A 1 0 * A 2 1 - A 1 1 * A 2 0)

/-- Triangles with two vertices inside, 750-813. -/
def node2two (fi : Nat → Nat → List K) (m : K × K) (bary : Option (Nat → K)) (s : Simplex K) (o i1 i2 : Nat) : List (Sub K) :=
  let m1 := store m (fi o i1)
  let c1 := m1.1
  let c2 := (store m1 (fi o i2)).1
  let d1 := (List.range 2).foldl (fun d k => d + (s i2 k - (c1 * s i1 k + (1 - c1) * s o k)) ^ 2) 0
  let d2 := (List.range 2).foldl (fun d k => d + (s i1 k - (c2 * s i2 k + (1 - c2) * s o k)) ^ 2) 0
  (if d1 < d2 then
    [⟨entries [(i2, i2, 1), (o, o, 1 - c2), (i2, o, c2), (i1, i1, c1), (o, i1, 1 - c1)], c1 * (1 - c2)⟩,
      ⟨entries [(i1, i1, 1), (i2, i2, 1), (o, o, 1 - c1), (i1, o, c1)], 1 - c1⟩]
  else
    [⟨entries [(i1, i1, 1), (i2, i2, c2), (o, i2, 1 - c2), (o, o, 1 - c1), (i1, o, c1)], c2 * (1 - c1)⟩,
      ⟨entries [(i1, i1, 1), (i2, i2, 1), (o, o, 1 - c2), (i2, o, c2)], 1 - c2⟩]) ++
  match bary with
  | none => []
  | some b =>
    let A := entries [(o, i1, 1 - c1), (i1, i1, c1), (o, o, b o), (i1, o, b i1), (i2, o, b i2), (i2, i2, c2), (o, i2, 1 - c2)]
    [⟨A, det3 A⟩]

/-- `startLoopSubSimplices_Node`, dimension two, 594-597 and 634-822.  `bary` are the barycentric coordinates of the special point, if there is one. -/
def node2 (ind : Nat → Bool) (fi : Nat → Nat → List K) (m : K × K) (bary : Option (Nat → K)) (s : Simplex K) : List (Sub K) :=
  match ((List.range 3).filter ind).length with
  | 0 => node2none fi m bary (List.range 3)
  | 1 =>
    let i := first 3 ind
    node2one fi m bary i ((i + 1) % 3) ((i + 2) % 3)
  | 2 =>
    let o := first 3 fun j => !ind j
    node2two fi m bary s o ((o + 1) % 3) ((o + 2) % 3)
  | _ => [⟨entries [(0, 0, 1), (1, 1, 1), (2, 2, 1)], 1⟩]

/-- The search for a special point, 636-645; `offsets` is `specialOffsets` after `computeSpecialPoints`. -/
def specialPoint (offsets : List (Point K)) (x : Point K) (s : Simplex K) : Option (Nat → K) :=
  (offsets.map fun z => BarycentricCoords.bary2D s fun k => x k + z k).findSome? fun b =>
    if 0 ≤ b.getD 0 0 ∧ 0 ≤ b.getD 1 0 ∧ 0 ≤ b.getD 2 0 then some fun i => b.getD i 0 else none

/-- `computeSpecialPoints` of `ballInf_retriangulation`, 1081-1096. -/
def cornersInf (h : K) : List (Point K) := [(h, h), (-h, h), (-h, -h), (h, -h)].map fun z k => if k = 0 then z.1 else z.2

/-- The inner loop for `ball2_retriangulation` around the point `x`; there are no special points. -/
def subNodes2 (sqrt : K → K) (dim : Nat) (h2 : K) (m : K × K) (x : Point K) (s : Simplex K) : List (Sub K) :=
  let ind := fun j => isInside .l2 dim h2 x (s j)
  let fi := cross2 sqrt dim h2 x s
  match dim with
  | 1 => node1 ind fi m
  | _ => node2 ind fi m none s

/-- `volume_Node` without the factor `volume…Dsimplex(simplex2)`, 209-218. -/
def volumeNode (l : List (Sub K)) : K := l.foldl (fun t e => t + e.vol) 0

/-! ### The outer loop -/

/-- `A_Simplex`, `b_Simplex` and `vol_Simplex` of one sub-simplex. -/
structure SubAff (K : Type) where
  A : Nat → Nat → K
  b : Nat → K
  vol : K

/-- `nextSubSimplex_Simplex`, dimension one, 71-87: intervals that are empty are left out. -/
def interval (v0 v1 l r : K) : List (SubAff K) :=
  if r - l ≤ 0 then [] else [⟨entries [(0, 0, r - l), (0, 1, 0), (1, 0, 0), (1, 1, r - l)], fun i => if i = 0 then v1 - r else l - v0, r - l⟩]

/-- `startLoopSubSimplices_Simplex`, dimension one, 424-441, and the loop. -/
def outer1 (sqrt : K → K) (h2 : K) (s1 s2 : Simplex K) : List (SubAff K) :=
  let h := sqrt h2
  let inv := 1 / |s1 0 0 - s1 1 0|
  let v0 := s1 0 0 * inv
  let v1 := s1 1 0 * inv
  if s1 0 0 < s2 0 0 then
    let a := max (s1 0 0) (s2 0 0 - h) * inv
    let b := min (s1 1 0) (s2 1 0 - h) * inv
    interval v0 v1 a b ++ interval v0 v1 b v1
  else
    let a := max (s1 0 0) (s2 0 0 + h) * inv
    let b := min (s1 1 0) (s2 1 0 + h) * inv
    interval v0 v1 v0 a ++ interval v0 v1 a b

/-- The loops over the vertices `j` of `simplex2`, 471-476: `c1`, `c2` and the array. -/
def widest (on : Nat → Bool) (fi : Nat → Nat → Nat → List K) (i o1 o2 : Nat) (m : K × K) : K × K × (K × K) :=
  (List.range 3).foldl (fun st j =>
    if on j then
      let m1 := store st.2.2 (fi j i o1)
      let m2 := store m1 (fi j i o2)
      (max st.1 m1.1, max st.2.1 m2.1, m2)
    else st) (0, 0, m)

/-- The loop of 500-506. -/
def nearest (on1 on2 : Nat → Bool) (fi : Nat → Nat → Nat → List K) (o i1 i2 : Nat) (m : K × K) : K × K × (K × K) :=
  (List.range 3).foldl (fun st j =>
    let st := if on1 j then
      let m1 := store st.2.2 (fi j o i1)
      (min st.1 m1.1, st.2.1, m1) else st
    if on2 j then
      let m2 := store st.2.2 (fi j o i2)
      (st.1, min st.2.1 m2.1, m2)
    else st) (1, 1, m)

/-- `startLoopSubSimplices_Simplex`, dimension two, 452-566, and the loop.  `indIJ i k`: vertex `k` of `simplex2` is inside the ball around vertex `i` of
`simplex1`; `indI i`: some vertex is; `fi j` are the intersections of the ball around vertex `j` of `simplex2` with the edges of `simplex1`.  `none`: `NotImplementedError`. -/
def outer2For (indI : Nat → Bool) (indIJ : Nat → Nat → Bool) (fi : Nat → Nat → Nat → List K) (m : K × K) (s2 : Simplex K) : Option (List (SubAff K)) :=
  match ((List.range 3).filter indI).length with
  | 0 => none
  | 1 =>
    let i := first 3 indI
    let o1 := (i + 1) % 3
    let o2 := (i + 2) % 3
    let w := widest (indIJ i) fi i o1 o2 m
    let c1 := w.1
    let c2 := w.2.1
    some (if 0 < c1 * c2 then
      [⟨entries [(i, i, c1 + c2), (i, o1, c2), (i, o2, c1), (o1, o1, c1), (o2, o2, c2)], fun k => if k = i then 1 - c1 - c2 else 0, c1 * c2⟩] else [])
  | 2 =>
    let o := first 3 fun j => !indI j
    let i1 := (o + 1) % 3
    let i2 := (o + 2) % 3
    let w := nearest (indIJ i1) (indIJ i2) fi o i1 i2 m
    let c1 := w.1
    let c2 := w.2.1
    let d1 := (List.range 2).foldl (fun d k => d + (s2 o k + c1 * (s2 i1 k - s2 o k) - s2 i2 k) ^ 2) 0
    let d2 := (List.range 2).foldl (fun d k => d + (s2 o k + c2 * (s2 i2 k - s2 o k) - s2 i1 k)) 0
    some (if d1 < d2 then
      (if 0 < 1 - c1 then
        [⟨entries [(o, o, 1 - c1), (i1, i1, 1 - c1), (i1, i2, -c1), (i2, i2, 1)], fun k => if k = i1 then c1 else 0, 1 - c1⟩] else []) ++
      (if 0 < c1 * (1 - c2) then
        [⟨entries [(o, o, 1 - c2), (i2, i2, 1), (i2, o, c2), (o, i1, 1 - c1), (i1, i1, c1)], fun _ => 0, c1 * (1 - c2)⟩] else [])
    else
      (if 0 < 1 - c2 then
        [⟨entries [(o, o, 1 - c2), (i2, i2, 1 - c2), (i2, i1, -c2), (i1, i1, 1)], fun k => if k = i2 then c2 else 0, 1 - c2⟩] else []) ++
      (if 0 < c2 * (1 - c1) then
        [⟨entries [(o, o, 1 - c1), (i1, i1, 1), (i1, o, c1), (o, i2, 1 - c2), (i2, i2, c2)], fun _ => 0, c2 * (1 - c1)⟩] else []))
  | _ => some [⟨entries [(0, 0, 1), (1, 1, 1), (2, 2, 1)], fun _ => 0, 1⟩]

/-- The same with `indI` from `indIJ`, 452-460. -/
def outer2 (indIJ : Nat → Nat → Bool) (fi : Nat → Nat → Nat → List K) (m : K × K) (s2 : Simplex K) : Option (List (SubAff K)) :=
  outer2For (fun i => (List.range 3).any (indIJ i)) indIJ fi m s2

/-- The outer loop for `ball2_retriangulation` in the plane. -/
def subSimplices2 (sqrt : K → K) (h2 : K) (m : K × K) (s1 s2 : Simplex K) : Option (List (SubAff K)) :=
  outer2 (fun i k => isInside .l2 2 h2 (s1 i) (s2 k)) (fun j => cross2 sqrt 2 h2 (s2 j) s1) m s2

end PyNucleus.Interaction
