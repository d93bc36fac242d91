import Verif.Model.SimplexGeometry
import Mathlib.Analysis.Real.Sqrt

/-!
# Sizes of meshes

Models `hdeltaCy` (fem/PyNucleus_fem/meshCy.pyx:1654-1789), which the properties `h`, `delta`,
`volume`, `hmin`, `volVector`, and `hVector` of a mesh return (meshCy.pyx:335-376).

Simplifications: reals instead of floating point numbers; the loop runs over the list of the vertex
coordinates of the cells (`getSimplex`).
-/

namespace PyNucleus.MeshSize

open PyNucleus.SimplexGeometry

/-- The variables of the loop. -/
structure Acc where
  h : ℝ
  delta : ℝ
  total : ℝ
  hmin : ℝ
  volVec : List ℝ
  hVec : List ℝ

/-- Initial values (1663, 1674-1676). -/
noncomputable def init : Acc := ⟨0, 0, 0, 100, [], []⟩

/-- Length of a segment (1681, 1692, 1702). -/
noncomputable def segment (n : Nat) (x : Coords ℝ) : ℝ :=
  if n = 1 then |x 1 0 - x 0 0|
  else if n = 2 then Real.sqrt ((x 1 0 - x 0 0) ^ 2 + (x 1 1 - x 0 1) ^ 2)
  else Real.sqrt ((x 1 0 - x 0 0) ^ 2 + (x 1 1 - x 0 1) ^ 2 + (x 1 2 - x 0 2) ^ 2)

/-- The loops for segments (1678-1707). -/
noncomputable def step1 (n : Nat) (a : Acc) (x : Coords ℝ) : Acc :=
  let hl := segment n x
  { a with h := max a.h hl, hmin := min a.hmin hl, total := a.total + hl,
           volVec := a.volVec ++ [hl], hVec := a.hVec ++ [hl] }

/-- The inner loop over the edges of a triangle (1722-1726): `hmin`, `hl`, `volS`. -/
noncomputable def edges2 (n : Nat) (hmin : ℝ) (g : List (Vec ℝ)) : ℝ × ℝ × ℝ :=
  g.foldl (fun s v =>
    let hS := Real.sqrt (dot n v v)
    (min s.1 hS, max s.2.1 hS, s.2.2 + hS)) (hmin, 0, 0)

/-- The loops for triangles in the plane and in space (1708-1758). -/
noncomputable def step2 (n : Nat) (a : Acc) (x : Coords ℝ) : Acc :=
  let g := [diff x 2 1, diff x 2 0, diff x 1 0]
  let vol := if n = 2 then volume2Dnew (diff x 2 0) (diff x 1 0)
    else volume2Din3D Real.sqrt (diff x 2 0) (diff x 1 0)
  let s := edges2 n a.hmin g
  { h := max a.h s.2.1, delta := max a.delta (s.2.1 * s.2.2 / 4 / vol), total := a.total + vol,
    hmin := s.1, volVec := a.volVec ++ [vol], hVec := a.hVec ++ [s.2.1] }

/-- The inner loop over the edges of a tetrahedron (1776-1779); these are squares of lengths. -/
noncomputable def edges3 (hmin : ℝ) (t : List (Vec ℝ)) : ℝ × ℝ :=
  t.foldl (fun s v => (min s.1 (dot 3 v v), max s.2 (dot 3 v v))) (hmin, 0)

/-- The loop for tetrahedra (1759-1787). -/
noncomputable def step3 (a : Acc) (x : Coords ℝ) : Acc :=
  let v01 := diff x 1 0
  let v02 := diff x 2 0
  let v03 := diff x 3 0
  let v12 := diff x 2 1
  let v13 := diff x 3 1
  let v32 := diff x 2 3
  let vol := volume3Dnew v01 v02 v03
  let s := edges3 a.hmin [v01, v02, v03, v12, v13, v32]
  let hl := Real.sqrt s.2
  let volS := volume2Din3D Real.sqrt v01 v02 + volume2Din3D Real.sqrt v01 v03 +
    volume2Din3D Real.sqrt v02 v03 + volume2Din3D Real.sqrt v12 v13
  { h := max a.h hl, delta := max a.delta (hl * volS / 6 / vol), total := a.total + vol,
    hmin := s.1, volVec := a.volVec ++ [vol], hVec := a.hVec ++ [hl] }

/-- `hdeltaCy`: cells of dimension `d` in space of dimension `n`; `none` is the result `None`. -/
noncomputable def hdelta (d n : Nat) (cells : List (Coords ℝ)) : Option Acc :=
  if d = 1 ∧ (n = 1 ∨ n = 2 ∨ n = 3) then
    some { cells.foldl (step1 n) init with delta := 1 }
  else if d = 2 ∧ (n = 2 ∨ n = 3) then some (cells.foldl (step2 n) init)
  else if d = 3 ∧ n = 3 then
    let a := cells.foldl step3 init
    some { a with hmin := Real.sqrt a.hmin }
  else none

end PyNucleus.MeshSize
