import Mathlib.Algebra.Field.Basic

/-!
# Model of the Lagrange shape functions

/repo/fem/PyNucleus_fem/DoFMaps.pyx 1776-2191.  Shape functions are functions of the array `lam` of barycentric coordinates.  Decimal
constants are exact.
-/

namespace PyNucleus.ShapeFunctions

/-- The classes of shape functions with their vertex numbers. -/
inductive Shape
  /-- `shapeFunctionP0`, 1776-1785. -/
  | p0
  /-- `shapeFunctionP1`, 1854-1879. -/
  | p1 (v : Nat)
  /-- `shapeFunctionP2_vertex`, 1932-1952. -/
  | p2v (v : Nat)
  /-- `shapeFunctionP2_edge`, 1955-1975. -/
  | p2e (v1 v2 : Nat)
  /-- `shapeFunctionP3_vertex`, 2034-2054. -/
  | p3v (v : Nat)
  /-- `shapeFunctionP3_edge`, 2057-2078. -/
  | p3e (v1 v2 : Nat)
  /-- `shapeFunctionP3_face`, 2081-2103. -/
  | p3f (v1 v2 v3 : Nat)

variable {K : Type} [Field K]

/-- `evalPtr`. -/
def Shape.eval (lam : List K) : Shape → K
  | .p0 => 1
  | .p1 v => lam.getD v 0
  | .p2v v => lam.getD v 0 * (2 * lam.getD v 0 - 1)
  | .p2e v1 v2 => 4 * lam.getD v1 0 * lam.getD v2 0
  | .p3v v => 9 / 2 * lam.getD v 0 * (lam.getD v 0 - 1 / 3) * (lam.getD v 0 - 2 / 3)
  | .p3e v1 v2 => 27 / 2 * lam.getD v1 0 * lam.getD v2 0 * (lam.getD v1 0 - 1 / 3)
  | .p3f v1 v2 v3 => 27 * lam.getD v1 0 * lam.getD v2 0 * lam.getD v3 0

/-- `evalStrided`. -/
def Shape.evalStrided (lam : List K) (stride : Nat) : Shape → K
  | .p0 => 1
  | .p1 v => lam.getD (v * stride) 0
  | .p2v v => lam.getD (v * stride) 0 * (2 * lam.getD (v * stride) 0 - 1)
  | .p2e v1 v2 => 4 * lam.getD (v1 * stride) 0 * lam.getD (v2 * stride) 0
  | .p3v v => 9 / 2 * lam.getD (v * stride) 0 * (lam.getD (v * stride) 0 - 1 / 3) * (lam.getD (v * stride) 0 - 2 / 3)
  | .p3e v1 v2 => 27 / 2 * lam.getD (v1 * stride) 0 * lam.getD (v2 * stride) 0 * (lam.getD (v1 * stride) 0 - 1 / 3)
  | .p3f v1 v2 v3 => 27 * lam.getD (v1 * stride) 0 * lam.getD (v2 * stride) 0 * lam.getD (v3 * stride) 0

/-- `localShapeFunctions` of the element of the given order (0, 1, 2, 3) on simplices of the given dimension: 1788-1815, 1885-1912, 1981-2026,
2109-2184. -/
def localShapeFunctions : Nat → Nat → List Shape
  | 0, _ => [.p0]
  | 1, dim => (List.range (dim + 1)).map .p1
  | 2, 1 => [.p2v 0, .p2v 1, .p2e 0 1]
  | 2, 2 => [.p2v 0, .p2v 1, .p2v 2, .p2e 0 1, .p2e 1 2, .p2e 0 2]
  | 2, 3 => [.p2v 0, .p2v 1, .p2v 2, .p2v 3, .p2e 0 1, .p2e 1 2, .p2e 0 2, .p2e 0 3, .p2e 1 3, .p2e 2 3]
  | 3, 1 => [.p3v 0, .p3v 1, .p3e 0 1, .p3e 1 0]
  | 3, 2 => [.p3v 0, .p3v 1, .p3v 2, .p3e 0 1, .p3e 1 0, .p3e 1 2, .p3e 2 1, .p3e 2 0, .p3e 0 2, .p3f 0 1 2]
  | 3, 3 => [.p3v 0, .p3v 1, .p3v 2, .p3v 3, .p3e 0 1, .p3e 1 0, .p3e 1 2, .p3e 2 1, .p3e 2 0, .p3e 0 2, .p3e 0 3, .p3e 3 0, .p3e 1 3, .p3e 3 1,
      .p3e 2 3, .p3e 3 2, .p3f 0 1 2, .p3f 0 1 3, .p3f 1 2 3, .p3f 2 0 3]
  | _, _ => []

/-- `nodes`, same lines. -/
def nodes (K : Type) [Field K] : Nat → Nat → List (List K)
  | 0, 1 => [[1 / 2, 1 / 2]]
  | 0, 2 => [[1 / 3, 1 / 3, 1 / 3]]
  | 0, 3 => [[1 / 4, 1 / 4, 1 / 4, 1 / 4]]
  | 1, dim => (List.range (dim + 1)).map fun k => (List.range (dim + 1)).map fun j => if j = k then 1 else 0
  | 2, 1 => [[1, 0], [0, 1], [1/2, 1/2]]
  | 2, 2 => [[1, 0, 0], [0, 1, 0], [0, 0, 1], [1/2, 1/2, 0], [0, 1/2, 1/2], [1/2, 0, 1/2]]
  | 2, 3 => [[1, 0, 0, 0], [0, 1, 0, 0], [0, 0, 1, 0], [0, 0, 0, 1], [1/2, 1/2, 0, 0], [0, 1/2, 1/2, 0], [1/2, 0, 1/2, 0],
      [1/2, 0, 0, 1/2], [0, 1/2, 0, 1/2], [0, 0, 1/2, 1/2]]
  | 3, 1 => [[1, 0], [0, 1], [2/3, 1/3], [1/3, 2/3]]
  | 3, 2 => [[1, 0, 0], [0, 1, 0], [0, 0, 1], [2/3, 1/3, 0], [1/3, 2/3, 0], [0, 2/3, 1/3], [0, 1/3, 2/3], [1/3, 0, 2/3], [2/3, 0, 1/3],
      [1/3, 1/3, 1/3]]
  | 3, 3 => [[1, 0, 0, 0], [0, 1, 0, 0], [0, 0, 1, 0], [0, 0, 0, 1], [2/3, 1/3, 0, 0], [1/3, 2/3, 0, 0], [0, 2/3, 1/3, 0], [0, 1/3, 2/3, 0],
      [1/3, 0, 2/3, 0], [2/3, 0, 1/3, 0], [2/3, 0, 0, 1/3], [1/3, 0, 0, 2/3], [0, 2/3, 0, 1/3], [0, 1/3, 0, 2/3], [0, 0, 2/3, 1/3], [0, 0, 1/3, 2/3],
      [1/3, 1/3, 1/3, 0], [1/3, 1/3, 0, 1/3], [0, 1/3, 1/3, 1/3], [1/3, 0, 1/3, 1/3]]
  | _, _ => []

/-- `interpolate`, 533-556, on one cell: values at the nodes; the function is given in barycentric coordinates. -/
def interpolate (p dim : Nat) (f : List K → K) : List K := (nodes K p dim).map f

/-- `evalFun`, 1084-1105, on one cell: sum over the local dofs, `u` are the values of the dofs of the cell (zero for boundary dofs). -/
def evalFun (p dim : Nat) (u : List K) (lam : List K) : K :=
  (List.zipWith (fun φ c => φ.eval lam * c) (localShapeFunctions p dim) u).foldl (· + ·) 0

end PyNucleus.ShapeFunctions
