import Verif.Model.Refine
import Mathlib.Analysis.SpecialFunctions.Pow.Real
import Mathlib.Analysis.SpecialFunctions.Trigonometric.Basic

/-!
# Model of the transformations of new vertices

/repo/fem/PyNucleus_fem/meshCy.pyx 34-180 (`radialMeshTransformer`, `gradedMeshTransformer`, `gradedHypercubeTransformer`), 246-272
(`radialMeshTransformation`), 576-579 (call in `refine`); /repo/fem/PyNucleus_fem/mesh.py 946-960 (`uniform_disc`), 1446-1462 (`ballNd`), 1465-1490
(`gradeMesh`, `gradeUniformBall`), 1493-1505 (`sphere1`).  Numbers are real numbers, `lookup` is the dictionary from edges to new vertices.
`none`: the program writes a number that is not a number.
-/

namespace PyNucleus.MeshTransform

noncomputable section

/-- The distance of a vertex from the origin, e.g. meshCy.pyx 57-60. -/
def size (dim : Nat) (row : List ℝ) : ℝ := Real.sqrt ((List.range dim).map fun i => row.getD i 0 ^ 2).sum

/-- `vertices[vertexNo, i] *= r/r3`; division by zero gives a number that is not a number. -/
def rescale (dim : Nat) (row : List ℝ) (r : ℝ) : Option (List ℝ) :=
  if size dim row = 0 then none else some ((List.range dim).map fun i => row.getD i 0 * (r / size dim row))

/-- The loop over the dictionary; `place` gives the new row from the rows of the ends of the edge and the old row. -/
def moveAll (place : List ℝ → List ℝ → List ℝ → Option (List ℝ)) (V : List (List ℝ)) (lookup : List ((Nat × Nat) × Nat)) : Option (List (List ℝ)) :=
  lookup.foldlM (fun V p => (place (V.getD p.1.1 []) (V.getD p.1.2 []) (V.getD p.2 [])).map fun row => V.set p.2 row) V

/-- `radialMeshTransformer.__call__` for one vertex, 51-88. -/
def radialPlace (dim : Nat) (radius : ℝ) (a b row : List ℝ) : Option (List ℝ) :=
  if 0 < radius ∧ ¬ size dim row < radius then some row else rescale dim row (1 / 2 * size dim a + 1 / 2 * size dim b)

/-- `radialMeshTransformer.__call__`, 43-88; for `radius = 0` also `radialMeshTransformation`, 246-272. -/
def radial (dim : Nat) (radius : ℝ) (V : List (List ℝ)) (lookup : List ((Nat × Nat) × Nat)) : Option (List (List ℝ)) :=
  moveAll (radialPlace dim radius) V lookup

/-- The parameter of a radius, e.g. 124. -/
def param (R mu r : ℝ) : ℝ := 1 - (1 - r / R) ^ (1 / mu)

/-- The radius of a parameter, e.g. 127. -/
def radiusOf (R mu x : ℝ) : ℝ := R * (1 - (1 - x) ^ mu)

/-- `gradedMeshTransformer.__call__` for one vertex, 109-136.  For radii above `R` the power is not a real number unless the exponent is an integer;
this is not followed further. -/
def gradedPlace (dim : Nat) (mu mu2 R : ℝ) (a b row : List ℝ) : Option (List ℝ) :=
  if R < size dim a ∨ R < size dim b then none else
  let e := if row.getD 0 0 < 0 then mu else mu2
  rescale dim row (radiusOf R e (1 / 2 * param R e (size dim a) + 1 / 2 * param R e (size dim b)))

/-- `gradedMeshTransformer.__call__`, 102-136. -/
def graded (dim : Nat) (mu mu2 R : ℝ) (V : List (List ℝ)) (lookup : List ((Nat × Nat) × Nat)) : Option (List (List ℝ)) :=
  moveAll (gradedPlace dim mu mu2 R) V lookup

/-- Smallest and largest coordinate, 167-171. -/
def low (V : List (List ℝ)) (i : Nat) : ℝ := match V with
  | [] => 0
  | r :: V => V.foldl (fun x r => min x (r.getD i 0)) (r.getD i 0)
def high (V : List (List ℝ)) (i : Nat) : ℝ := match V with
  | [] => 0
  | r :: V => V.foldl (fun x r => max x (r.getD i 0)) (r.getD i 0)

/-- `boundMax` and `boundMaxInv` after 172-174: the second one uses the value of the first one that has been overwritten. -/
def factorOf (V : List (List ℝ)) (i : Nat) : ℝ := 1 / (high V i - low V i)
def factorInv (V : List (List ℝ)) (i : Nat) : ℝ := factorOf V i - low V i

/-- `gradedHypercubeTransformer.__call__`, 159-180; the bounds are found before the vertices are moved. -/
def hypercube (dim : Nat) (factor : Nat → ℝ) (V : List (List ℝ)) (lookup : List ((Nat × Nat) × Nat)) : Option (List (List ℝ)) :=
  moveAll (fun a b _ => if (List.range dim).any fun i => decide (high V i = low V i) then none else
    some ((List.range dim).map fun i =>
      low V i + factorInv V i * (1 / 2 * (factorOf V i * (a.getD i 0 - low V i)) ^ (1 / factor i) + 1 / 2 * (factorOf V i * (b.getD i 0 - low V i)) ^ (1 / factor i)) ^ factor i))
    V lookup

/-- `uniform_disc`, mesh.py 946-960. -/
def uniformDisc (radius : ℝ) : List (List ℝ) × List (List Nat) :=
  ([0, 0] :: (List.range 6).map fun (i : Nat) => [radius * Real.cos (i * 2 * Real.pi / 6), radius * Real.sin (i * 2 * Real.pi / 6)],
   ((List.range 5).map fun i => [0, i + 1, i + 2]) ++ [[0, 6, 1]])

/-- `sphere1`, mesh.py 1493-1505. -/
def sphere1 (numCells : Nat) (radius : ℝ) : List (List ℝ) × List (List Nat) :=
  ((List.range numCells).map fun (i : Nat) => [radius * Real.cos (2 * Real.pi * i / numCells), radius * Real.sin (2 * Real.pi * i / numCells)],
   (List.range numCells).map fun i => [i, (i + 1) % numCells])

/-- The first pass of the loop of `ballNd` in one dimension, mesh.py 1446-1451: an interval from `-radius` to `radius`, refined and transformed. -/
def ball1 (u : Nat → List (List ℝ)) (radius : ℝ) : Option (List (List ℝ)) := do
  let m ← Refine.refine1D 1 u [[-radius], [radius]] [[0, 1]]
  radial 1 0 m.1 m.2.2

/-- `gradeMesh`, mesh.py 1465-1472. -/
def gradeMesh (dim : Nat) (grading : ℝ → ℝ) (V : List (List ℝ)) : List (List ℝ) :=
  V.map fun row => if 0 < size dim row then (List.range dim).map fun i => row.getD i 0 * (grading (size dim row) / size dim row) else row

/-- `grading` of `gradeUniformBall`, mesh.py 1482-1486. -/
def ballGrading (muInterior muExterior rInterior rExterior rExteriorInitial r : ℝ) : ℝ :=
  if r ≤ rInterior then rInterior * (1 - (1 - r / rInterior) ^ muInterior)
  else rInterior + (rExterior - rInterior) * ((r - rInterior) / (rExteriorInitial - rInterior)) ^ muExterior

end

end PyNucleus.MeshTransform
