import Mathlib.Algebra.Order.Field.Basic
import Mathlib.Algebra.Order.Floor.Defs
import Mathlib.Algebra.Order.Floor.Ring

/-!
# Model of the generators of structured meshes

/repo/fem/PyNucleus_fem/mesh.py 121-185, 440-460, 757-821, 856-917.  A mesh is the list of its vertices, each a list of coordinates, and the list
of its cells, each a list of vertex numbers.  The constructors `mesh2d` and `mesh3d` only store the two arrays.  A failed assertion is `none`.
The keyword arguments with default values are plain arguments.  Arithmetic is exact, therefore the statement of `np.linspace` that overwrites
the last point is left out.
-/

namespace PyNucleus.StructuredMesh

variable {K : Type} [Field K] [LinearOrder K] [IsStrictOrderedRing K]

/-- `vertices` and `cells`. -/
structure Mesh (K : Type) where
  vertices : List (List K)
  cells : List (List Nat)
deriving DecidableEq

/-- `np.linspace(a, b, n)`. -/
def linspace (a b : K) (n : Nat) : List K := (List.range n).map fun (i : Nat) => a + (i : K) * ((b - a) / ((n : K) - 1))

/-- The vertices `zip(x.flatten(), y.flatten())` of `np.meshgrid(xVals, yVals)`, mesh.py 135, 141-142. -/
def meshgrid (xVals yVals : List K) : List (List K) := yVals.flatMap fun y => xVals.map fun x => [x, y]

/-- The two cells of a square cut from bottom left to top right, 147-152, 158-162, 171-175, and 452-457. -/
def risingCells (N i j : Nat) : List (List Nat) := [[i * N + j, i * N + j + 1, (i + 1) * N + j + 1], [i * N + j, (i + 1) * N + j + 1, (i + 1) * N + j]]

/-- The two cells of a square cut from bottom right to top left, 164-168 and 177-181. -/
def fallingCells (N i j : Nat) : List (List Nat) := [[i * N + j, i * N + j + 1, (i + 1) * N + j], [i * N + j + 1, (i + 1) * N + j + 1, (i + 1) * N + j]]

/-- The cells appended in one run of the inner loop, 144-182. -/
def squareCells (crossed : Bool) (N i j : Nat) : List (List Nat) :=
  if !crossed then risingCells N i j
  else if i % 2 = 0 then (if j % 2 = 0 then risingCells N i j else fallingCells N i j)
  else (if j % 2 = 1 then risingCells N i j else fallingCells N i j)

/-- The loops 144-182. -/
def gridCells (crossed : Bool) (N M : Nat) : List (List Nat) :=
  (List.range (M - 1)).flatMap fun i => (List.range (N - 1)).flatMap fun j => squareCells crossed N i j

/-- The assertion on the lines to preserve, 136-139. -/
def linesOk (eps : K) (vals lines : List K) : Bool := lines.all fun l => vals.any fun v => decide (v - l < eps)

/-- The mesh with the given grid lines, 126-127 and 133-185. -/
def uniformSquareOf (eps : K) (crossed : Bool) (linesH linesV xVals yVals : List K) : Option (Mesh K) :=
  if linesOk eps yVals linesH && linesOk eps xVals linesV then
    some ⟨meshgrid xVals yVals, gridCells crossed xVals.length yVals.length⟩
  else none

/-- `uniformSquare` called without `xVals` and `yVals`, 121-185; `round` is `np.around`. -/
def uniformSquare (round : K → Int) (eps : K) (N : Nat) (M : Option Nat) (ax ay bx bY : K) (crossed : Bool) (linesH linesV : List K) : Option (Mesh K) :=
  let m := match M with
    | some m => m
    | none => (max (round ((bY - ay) / (bx - ax)) * N) 2).toNat
  if 2 ≤ N ∧ 2 ≤ m then uniformSquareOf eps crossed linesH linesV (linspace ax bx N) (linspace ay bY m) else none

/-- The branch `uniform` of `squareWithInteractions` for the nodes `x` and `y` of the two directions, 442-459. -/
def tensorSquare (x y : List K) : Mesh K :=
  ⟨x.flatMap fun a => y.map fun b => [a, b], gridCells false y.length x.length⟩

/-- `boxCells`, 789-795. -/
def boxCells (a b c d e f g h : Nat) : List (List Nat) := [[a, b, g, f], [a, b, c, g], [a, e, f, g], [a, e, g, h], [a, c, d, g], [a, d, h, g]]

/-- `getVertexNo`, 786-787. -/
def vertexNo (Nx Ny kx ky kz : Nat) : Nat := Ny * Nx * kz + Nx * ky + kx

/-- The cells of one brick, 801-810. -/
def brickCells (Nx Ny kx ky kz : Nat) : List (List Nat) :=
  boxCells (vertexNo Nx Ny kx ky kz) (vertexNo Nx Ny (kx + 1) ky kz) (vertexNo Nx Ny (kx + 1) (ky + 1) kz) (vertexNo Nx Ny kx (ky + 1) kz)
    (vertexNo Nx Ny kx ky (kz + 1)) (vertexNo Nx Ny (kx + 1) ky (kz + 1)) (vertexNo Nx Ny (kx + 1) (ky + 1) (kz + 1)) (vertexNo Nx Ny kx (ky + 1) (kz + 1))

/-- The vertices and cells of `box` for the coordinates of the three directions, 780-812. -/
def boxOf (x y z : List K) : Mesh K :=
  ⟨z.flatMap fun c => y.flatMap fun b => x.map fun a => [a, b, c],
    (List.range (z.length - 1)).flatMap fun kz => (List.range (y.length - 1)).flatMap fun ky => (List.range (x.length - 1)).flatMap fun kx =>
      brickCells x.length y.length kx ky kz⟩

/-- `box`, 775-812. -/
def box (ax ay az bx bY bz : K) (Nx Ny Nz : Nat) : Mesh K := boxOf (linspace ax bx Nx) (linspace ay bY Ny) (linspace az bz Nz)

/-- The number of points of one direction, 816-818. -/
def interactionPoints [FloorRing K] (horizon a b : K) (n : Nat) : Nat :=
  (max (⌈(b - a + 2 * horizon) / horizon⌉ + 1) ⌈(b - a + 2 * horizon) / (b - a) * (n : K)⌉).toNat

/-- `boxWithInteractions`, 815-821: the number of points `Nx` is used for all directions. -/
def boxWithInteractions [FloorRing K] (horizon ax ay az bx bY bz : K) (Nx _Ny _Nz : Nat) : Mesh K :=
  box (ax - horizon) (ay - horizon) (az - horizon) (bx + horizon) (bY + horizon) (bz + horizon)
    (interactionPoints horizon ax bx Nx) (interactionPoints horizon ay bY Nx) (interactionPoints horizon az bz Nx)

/-- `simpleBox`, 757-772. -/
def simpleBox : Mesh K :=
  ⟨[[0, 0, 0], [1, 0, 0], [1, 1, 0], [0, 1, 0], [0, 0, 1], [1, 0, 1], [1, 1, 1], [0, 1, 1]],
    [[0, 1, 6, 5], [0, 1, 2, 6], [0, 4, 5, 6], [0, 4, 6, 7], [0, 2, 3, 6], [0, 3, 7, 6]]⟩

/-- `simpleFicheraCube`, 856-902. -/
def simpleFicheraCube : Mesh K :=
  ⟨[[0, 0, 0], [1, 0, 0], [1, 1, 0], [0, 1, 0], [0, 0, 1], [1, 0, 1], [1, 1, 1], [0, 1, 1],
    [2, 0, 0], [2, 1, 0], [2, 0, 1], [2, 1, 1],
    [0, 0, 2], [1, 0, 2], [1, 1, 2], [0, 1, 2],
    [0, 2, 0], [1, 2, 0], [2, 2, 0], [2, 2, 1], [1, 2, 1], [0, 2, 1], [2, 2, 2], [1, 2, 2], [0, 2, 2], [2, 1, 2]],
    boxCells 0 1 2 3 4 5 6 7 ++ boxCells 1 8 9 2 5 10 11 6 ++ boxCells 4 5 6 7 12 13 14 15 ++ boxCells 3 2 17 16 7 6 20 21 ++
      boxCells 2 9 18 17 6 11 19 20 ++ boxCells 7 6 20 21 15 14 23 24 ++ boxCells 6 11 19 20 14 25 22 23⟩

/-- `simpleLshape`, 905-917. -/
def simpleLshape : Mesh K :=
  ⟨[[0, 0], [1, 0], [2, 0], [2, 1], [1, 1], [0, 1], [0, 2], [1, 2]],
    [[0, 1, 4], [0, 4, 5], [1, 2, 3], [1, 3, 4], [5, 4, 7], [5, 7, 6]]⟩

end PyNucleus.StructuredMesh
