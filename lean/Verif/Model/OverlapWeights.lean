import Verif.Model.Overlap
import Mathlib.Data.List.Dedup
import Mathlib.Algebra.Field.Defs
import Mathlib.Order.Defs.LinearOrder

/-!
# Weights of overlapping subdomains

Models `getProtoPartition`, `getProtoPartitionNonOverlapping` and `prepareDistributeMeshOverlap` (fem/PyNucleus_fem/algebraicOverlaps.pyx:612-634,
636-792), for one degree of freedom per vertex.

Simplifications: the layers of cells, which `boundaryLayer` finds, are given; a degree of freedom of a vertex is the value of a function, negative
if there is none; the linear interpolation is left out, because it changes no degrees of freedom of vertices; the order of the entries of a set
does not matter and is the one of `dedup`; assertions are hypotheses.
-/

namespace PyNucleus.OverlapWeights

open PyNucleus.Overlap

/-- One cell in `getVertexLayers` (675-680): vertices that are already added, and the vertices of this layer. -/
def addCell (s : List Nat × List Nat) (cell : List Nat) : List Nat × List Nat :=
  cell.foldl (fun s v => if v ∈ s.1 then s else (v :: s.1, s.2 ++ [v])) s

/-- `getVertexLayers` (673-681), from the vertices on the boundary and the layers of cells. -/
def vertexLayers : List Nat → List (List (List Nat)) → List (List Nat)
  | _, [] => []
  | added, layer :: layers =>
    let s := layer.foldl addCell (added, [])
    s.2 :: vertexLayers s.1 layers

variable {K : Type} [Field K] [LinearOrder K]

/-- The value of a vertex in layer `d` (619-622). -/
def layerValue (depth d : Nat) : K := if 1 < depth then max (1 - (d : K) / ((depth - 1 : Nat) : K)) 0 else 0

/-- The loops of `getProtoPartition` (615-622), beginning with layer `d`, with the values `val`. -/
def proto (val : Nat → K) (dof : Nat → Int) : Nat → List (List Nat) → List K → List K
  | _, [], x => x
  | d, l :: layers, x => proto val dof (d + 1) layers (l.foldl (fun x v => if 0 ≤ dof v then x.set (dof v).toNat (val d) else x) x)

/-- `getProtoPartition` of a vector of ones (749-750). -/
def getProto (n depth : Nat) (dof : Nat → Int) (layers : List (List Nat)) : List K :=
  proto (layerValue depth) dof 1 layers (List.replicate n 1)

/-- `getProtoPartitionNonOverlapping` of a vector of ones (775-776). -/
def getProtoNonOverlapping (n : Nat) (dof : Nat → Int) (layers : List (List Nat)) : List K :=
  proto (fun _ => 0) dof 1 layers (List.replicate n 1)

omit [LinearOrder K] in
/-- `Didx` and `Dval` (753-772, 778-791): `x` are the values before, `y` after `accumulate`. -/
def weights (M : Manager) (x y : List K) : List (Nat × K) :=
  (M.overlaps.flatMap Prod.snd).dedup.map fun i => (i, x.getD i 0 / y.getD i 0)

end PyNucleus.OverlapWeights
