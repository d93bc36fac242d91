import Verif.Model.SimplexGeometry
import Mathlib.Logic.Function.Basic

/-!
# Right-hand sides with gradients

Models `assembleRHSgrad` (fem/PyNucleus_fem/femCy.pyx:2865-2958) for meshes of intervals or triangles whose dimension is that of the space, which
adds up `(f, coeff · grad v)` for piecewise linear `v`.

Simplifications: values of the function in the quadrature nodes of each cell and the weights are given; the vector is a function of the dof.
-/

namespace PyNucleus.GradRHS

open PyNucleus.SimplexGeometry

variable {K : Type} [Field K] [LinearOrder K] [IsStrictOrderedRing K]

/-- A cell: coordinates, degrees of freedom, and the values of the function in the quadrature nodes. -/
structure Cell (K : Type) where
  x : Coords K
  dofs : Nat → Int
  f : Nat → K

/-- The volume (2935-2939). -/
def cellVolume (d : Nat) (x : Coords K) : K := if d = 1 then |x 1 0 - x 0 0| else volume2Dnew (diff x 1 0) (diff x 2 0)

/-- `innerProducts` (2941-2944). -/
def products (d : Nat) (coeff : Vec K → Vec K) (x : Coords K) : List K :=
  let b := coeff (barycenter d x)
  if d = 1 then coeffProducts1D (cellVolume d x) b else coeffProducts2D x (cellVolume d x) b

/-- The loop over quadrature nodes (2954-2955) for dof `I`. -/
def addNodes (m : Nat) (w : Nat → K) (d : Nat) (coeff : Vec K → Vec K) (c : Cell K) (k I : Nat) (data : Nat → K) : Nat → K :=
  (List.range m).foldl (fun data j => Function.update data I (data I + cellVolume d c.x * w j * c.f j * (products d coeff c.x).getD k 0)) data

/-- The loop over the dofs of a cell (2950-2955). -/
def addCell (m : Nat) (w : Nat → K) (d : Nat) (coeff : Vec K → Vec K) (data : Nat → K) (c : Cell K) : Nat → K :=
  (List.range (d + 1)).foldl (fun data k => if c.dofs k < 0 then data else addNodes m w d coeff c k (c.dofs k).toNat data) data

/-- `assembleRHSgrad`, the loop over the cells (2930-2955) from a vector of zeros. -/
def rhs (m : Nat) (w : Nat → K) (d : Nat) (coeff : Vec K → Vec K) (cells : List (Cell K)) : Nat → K :=
  cells.foldl (addCell m w d coeff) fun _ => 0

end PyNucleus.GradRHS
