import Mathlib.Algebra.Order.Floor.Ring
import Mathlib.Algebra.BigOperators.Group.Finset.Basic
import Mathlib.Data.List.Dedup
import Verif.Model.BarycentricCoords
import Verif.Model.FaceVals
import Verif.Model.Loops
import Verif.Model.ProductIterator
import Verif.Spec.CSR

/-!
# Model of `cellFinder2` and of the functions that use it

/repo/fem/PyNucleus_fem/meshCy.pyx, lines 2184-2382 (members: meshCy.pxd, lines 119-132), `getCellCenters` (657-672) and
`vertexInCell` (696-744) for meshes of dimension 1 and 2 without codimension; /repo/fem/PyNucleus_fem/lookupFunction.pyx.
`findCell` and `findCellPtr` have the same text.

Real numbers are elements of an ordered field with floor. `none` is an access outside of an array, a failing assertion or another
error. The order in which a Python `set` is traversed is a parameter.
-/

namespace PyNucleus.CellFinder

open PyNucleus.Loops PyNucleus.Spec PyNucleus.BarycentricCoords

variable {K : Type} [Field K] [LinearOrder K]

/-- Members of the mesh that are used; `h` is `mesh.h`. -/
structure Mesh (K : Type) where
  dim : Nat
  numVertices : Nat
  numCells : Nat
  vertices : Nat → Nat → K
  cells : Nat → Nat → Nat
  h : K

/-- `getSimplex`. -/
def Mesh.simplex (m : Mesh K) (c i k : Nat) : K := m.vertices (m.cells c i) k

/-- `getCellCenters` (657-672). -/
def Mesh.center (m : Mesh K) (c k : Nat) : K :=
  (List.range (m.dim + 1)).foldl (fun s j => s + m.simplex c j k) 0 * (1 / ((m.dim : K) + 1))

/-- Barycentric coordinates of a point (700-709). -/
def Mesh.bary (m : Mesh K) (c : Nat) (x : Nat → K) : List K :=
  if m.dim = 1 then bary1D (m.simplex c) x else bary2D (m.simplex c) x

/-- `vertexInCell` (716-719). -/
def Mesh.inCell (m : Mesh K) (c : Nat) (x : Nat → K) (tol : K) : Bool := (m.bary c x).all fun b => ¬b < -tol

/-- `vertices.min(axis=0)` (line 2202). -/
def Mesh.xMin (m : Mesh K) (k : Nat) : K :=
  (List.range m.numVertices).foldl (fun s i => min s (m.vertices i k)) (m.vertices 0 k)

/-- `vertices.max(axis=0)` (line 2203). -/
def Mesh.xMax (m : Mesh K) (k : Nat) : K :=
  (List.range m.numVertices).foldl (fun s i => max s (m.vertices i k)) (m.vertices 0 k)

/-- `while L*h < 0.5: L *= 2` (lines 2200-2201) with at most `fuel` tests; 32-bit overflow is not modelled. -/
def doubling (h : K) : Nat → Nat → Option Nat
  | 0, _ => none
  | fuel + 1, L => if (L : K) * h < 1 / 2 then doubling h fuel (L * 2) else some L

/-- `diamInv[j]` (2204-2206). -/
def Mesh.diamInv (m : Mesh K) (L k : Nat) : K := (L : K) / (m.xMax k - m.xMin k) / (101 / 100)

/-- `<INDEX_t>` of a real number: rounding towards 0. -/
def trunc [FloorRing K] (x : K) : Int := if 0 ≤ x then ⌊x⌋ else ⌈x⌉

/-- One coordinate of the key of a point (2218, 2228, 2242, 2274); coordinates from `dim` on stay 0 (2193-2194). -/
def Mesh.coord [FloorRing K] (m : Mesh K) (L : Nat) (x : Nat → K) (j : Nat) : Int :=
  if j < m.dim then trunc ((x j - m.xMin j) * m.diamInv L j) else 0

/-- The key of a point. -/
def Mesh.key [FloorRing K] (m : Mesh K) (L : Nat) (x : Nat → K) : Int × Int × Int := (m.coord L x 0, m.coord L x 1, m.coord L x 2)

/-- `maxKeyPerDim` (2210-2212). -/
def Mesh.maxKey [FloorRing K] (m : Mesh K) (L : Nat) : Int :=
  (List.range m.dim).foldl (fun s j => max s (trunc ((m.xMax j - m.xMin j) * m.diamInv L j))) 0

/-- First loop over the cells (2215-2221): every new key gets the next number. -/
def enterAll : List (Int × Int × Int) → FaceVals.Dict → Nat → Option (FaceVals.Dict × Nat)
  | [], d, n => some (d, n)
  | k :: ks, d, n =>
    match FaceVals.enterValue d k.1 k.2.1 k.2.2 n with
    | none => none
    | some (d', idx) => enterAll ks d' (if idx = n then n + 1 else n)

/-- Numbers of keys (2229, 2243). -/
def getAll (d : FaceVals.Dict) : List (Int × Int × Int) → Option (List Int)
  | [] => some []
  | k :: ks =>
    match FaceVals.getValue d k.1 k.2.1 k.2.2 with
    | none => none
    | some idx => (getAll d ks).map fun l => idx :: l

/-- A graph in compressed rows. -/
structure Graph where
  indptr : List Nat
  indices : List Nat

/-- Counting sort (2223-2249 and 2255-2272): counts, running sums, filling and moving back of the row pointers. -/
def bucketGraph (n : Nat) (items : List (Nat × Nat)) : Graph :=
  let s := fill items (cumsum n (countKeys n (items.map Prod.fst)), List.replicate items.length 0)
  { indptr := shiftBack n s.1, indices := s.2 }

/-- The finder. -/
structure Finder (K : Type) where
  mesh : Mesh K
  L : Nat
  lookup : FaceVals.Dict
  graph : Graph
  v2c : Graph
  /-- Size of the array `candidates` (line 2240). -/
  capacity : Nat

/-- `cellFinder2.__init__`. A key that is not found again has the number −1, is counted in `rowPtr[0]` and makes the assertion of
line 2239 fail. -/
def build [FloorRing K] (m : Mesh K) (fuel : Nat) : Option (Finder K) :=
  match doubling m.h fuel 1 with
  | none => none
  | some L =>
    match enterAll ((List.range m.numCells).map fun c => m.key L (m.center c))
        (FaceVals.init ((m.maxKey L).toNat + 1) 0 3 false) 0 with
    | none => none
    | some (lookup, maxIdx) =>
      match getAll lookup ((List.range m.numCells).map fun c => m.key L (m.center c)) with
      | none => none
      | some idxs =>
        if idxs.countP (fun i => decide (0 ≤ i)) ≠ m.numCells then none else
        some
          { mesh := m
            L := L
            lookup := lookup
            graph := bucketGraph maxIdx ((idxs.map Int.toNat).zip (List.range m.numCells))
            v2c := bucketGraph m.numVertices
              ((List.range m.numCells).flatMap fun c => (List.range (m.dim + 1)).map fun i => (m.cells c i, c))
            capacity := 3 ^ m.dim * (List.range maxIdx).foldl (fun s i => max s ((idxs.map Int.toNat).count i)) 0 }

/-- Row of a graph. -/
def Graph.row (g : Graph) (i : Nat) : List Nat := csrRow g.indptr g.indices i

/-- Cells of the box with a number, nothing for −1 (lines 2276-2280, 2287-2291). -/
def boxCells (g : Graph) (idx : Int) : List Nat := if idx ≠ -1 then g.row idx.toNat else []

/-- The keys of the neighbouring boxes (lines 2282-2285): `key[j] + pit.idx[j] - 1`. -/
def neighbourKeys (dim : Nat) (k : Int × Int × Int) : List (Int × Int × Int) :=
  match ProductIterator.drain 3 (3 ^ dim + 1) (ProductIterator.reset dim) with
  | none => []
  | some ts => ts.map fun t => (k.1 + t.getD 0 1 - 1, k.2.1 + t.getD 1 1 - 1, k.2.2 + t.getD 2 1 - 1)

/-- The candidates (2273-2296). -/
def candidates [FloorRing K] (f : Finder K) (x : Nat → K) : Option (List Nat) :=
  match FaceVals.getValue f.lookup (f.mesh.key f.L x).1 (f.mesh.key f.L x).2.1 (f.mesh.key f.L x).2.2 with
  | none => none
  | some idx =>
    if idx ≠ -1 then some (f.graph.row idx.toNat)
    else (getAll f.lookup (neighbourKeys f.mesh.dim (f.mesh.key f.L x))).map fun l => l.flatMap (boxCells f.graph)

/-- Cells at the vertices of the candidates (2303-2309), as a set. -/
def around (f : Finder K) (cand : List Nat) : List Nat :=
  (cand.flatMap fun c => (List.range (f.mesh.dim + 1)).flatMap fun i => f.v2c.row (f.mesh.cells c i)).dedup

/-- `toCheck.remove(cellNo)` for all candidates (2310-2312); `none` is `KeyError`. -/
def removeAll : List Nat → List Nat → Option (List Nat)
  | [], s => some s
  | c :: cs, s => if c ∈ s then removeAll cs (s.erase c) else none

/-- `findCell` (2268-2324): `some none` is −1, otherwise the cell and the array `bary` as left by the last call of
`vertexInCell`. `order` is the order in which the set is traversed. -/
def findCell [FloorRing K] (order : List Nat → List Nat) (f : Finder K) (x : Nat → K) : Option (Option (Nat × List K)) :=
  match candidates f x with
  | none => none
  | some cand =>
    if f.capacity < cand.length then none else
    match cand.find? fun c => f.mesh.inCell c x 0 with
    | some c => some (some (c, f.mesh.bary c x))
    | none =>
      match removeAll cand (around f cand) with
      | none => none
      | some toCheck =>
        match (order toCheck).find? fun c => f.mesh.inCell c x 0 with
        | some c => some (some (c, f.mesh.bary c x))
        | none =>
          match cand.find? fun c => f.mesh.inCell c x (1 / 10 ^ 15) with
          | some c => some (some (c, f.mesh.bary c x))
          | none =>
            match (order toCheck).find? fun c => f.mesh.inCell c x (1 / 10 ^ 15) with
            | some c => some (some (c, f.mesh.bary c x))
            | none => some none

/-- `lookupFunction.eval` (lookupFunction.pyx 26-41): `phi k` is the local shape function `k`. -/
def lookupEval [FloorRing K] (order : List Nat → List Nat) (f : Finder K) (dpe : Nat) (cell2dof : Nat → Nat → Int)
    (phi : Nat → List K → K) (u : Nat → K) (x : Nat → K) : Option K :=
  match findCell order f x with
  | none => none
  | some none => some 0
  | some (some (c, b)) =>
    some ((List.range dpe).foldl (fun v k =>
      if 0 ≤ cell2dof c k then v + phi k b * u (cell2dof c k).toNat else v) 0)

/-- `UniformLookup1D` (lookupFunction.pyx 90-105) with `n` values. -/
def uniformLookup [FloorRing K] (a b : K) (n : Nat) (vals : Nat → K) (x : K) : K :=
  let dx := (b - a) / ((n : K) - 1)
  let invDx := 1 / dx
  let k : Nat := (max (min (trunc ((x - a) * invDx)) ((n : Int) - 2)) 0).toNat
  let theta := (x - a - (k : K) * dx) * invDx
  (1 - theta) * vals k + theta * vals (k + 1)

end PyNucleus.CellFinder
