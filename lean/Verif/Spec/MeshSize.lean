import Verif.Model.MeshSize
import Mathlib.Analysis.Normed.Module.Convex
import Mathlib.Analysis.InnerProductSpace.PiL2

/-!
# Sizes of cells
-/

namespace PyNucleus.MeshSize

open PyNucleus.SimplexGeometry

/-- Vertex `i` as a point of Euclidean space. -/
noncomputable def pt (n : Nat) (x : Coords ℝ) (i : Nat) : EuclideanSpace ℝ (Fin n) :=
  WithLp.toLp 2 fun k => x i k

/-- The cell: all convex combinations of the vertices `0, …, d`. -/
def cellSet (d n : Nat) (x : Coords ℝ) : Set (EuclideanSpace ℝ (Fin n)) :=
  convexHull ℝ (pt n x '' {i | i ≤ d})

/-- The volume the assembly routines use (fem/PyNucleus_fem/femCy.pyx:80-132). -/
noncomputable def cellVolume (d n : Nat) (x : Coords ℝ) : ℝ :=
  if d = 1 then dist (pt n x 1) (pt n x 0)
  else if d = 2 then (if n = 2 then simplexVolume2D x else simplexVolume2Din3D Real.sqrt x)
  else simplexVolume3D x

/-- Three of the vertices. -/
def sub (x : Coords ℝ) (i j k : Nat) : Coords ℝ := fun l =>
  if l = 0 then x i else if l = 1 then x j else x k

/-- Circumference of a triangle, surface of a tetrahedron. -/
noncomputable def cellSurface (d n : Nat) (x : Coords ℝ) : ℝ :=
  if d = 2 then dist (pt n x 0) (pt n x 1) + dist (pt n x 1) (pt n x 2) + dist (pt n x 2) (pt n x 0)
  else simplexVolume2Din3D Real.sqrt (sub x 0 1 2) + simplexVolume2Din3D Real.sqrt (sub x 0 1 3) +
    simplexVolume2Din3D Real.sqrt (sub x 0 2 3) + simplexVolume2Din3D Real.sqrt (sub x 1 2 3)

end PyNucleus.MeshSize
