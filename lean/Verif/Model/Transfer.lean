import Mathlib.Algebra.Field.Basic
import Mathlib.Algebra.Order.Group.Unbundled.Abs
import Verif.Model.ProductIterator

/-!
# Model: Chebyshev interpolation in clusters

Source: `/repo/nl/PyNucleus_nl/clusterMethodCy.pyx`, `transferMatrixBuilder.build`, `tree_node.enterLeafValues`, `assembleFarFieldInteractions`.

Arrays of nodes and points are functions `index, dimension`; boxes are the two functions of their bounds. The values `eta` of the cosines are a parameter. Loops that fill independent entries of the
arrays `xi`, `omega`, `beta` are written entry by entry. The class `productIterator` of the file (2121-2151) is that of `Verif.Model.ProductIterator` for `m ≥ 1`. Quadrature rule, shape functions
in its nodes, the global quadrature nodes and volumes of the cells are inputs. Only scalar kernels without parameters that vary are modelled. Rounding is not modelled.
-/

namespace PyNucleus.Transfer

variable {K : Type} [Field K] [LinearOrder K]

/-- Box of a node: `box[q, 0]`, `box[q, 1]`. -/
structure Box (K : Type) where
  lo : Nat → K
  hi : Nat → K

/-- Chebyshev nodes of a box, 2025-2036, 1263-1267. -/
def nodes (eta : Nat → K) (b : Box K) (i q : Nat) : K := (b.hi q - b.lo q) * (1 / 2) * (eta i + 1) + b.lo q

/-- `while pit.step()`: the multi-indices in their order. -/
def multi (m dim : Nat) : List (List Nat) :=
  ((ProductIterator.drain m (m ^ dim + 1) (ProductIterator.reset dim)).getD []).map (List.map Int.toNat)

/-- `omega`, 2037-2042. -/
def omega (xiC xiP : Nat → Nat → K) (mParent j l : Nat) : K := (List.range mParent).foldl (fun t k => t * (xiC j l - xiP k l)) 1

/-- `beta`, 2044-2050 and 1269-1276. -/
def beta (xi : Nat → Nat → K) (m j l : Nat) : K := (List.range m).foldl (fun t k => if k ≠ j then t * (xi j l - xi k l) else t) 1

/-- One entry of `transferOperator`, 2060-2070; `tol` is `1e-8`. -/
def transferEntry (tol : K) (dim mParent : Nat) (xiP xiC : Nat → Nat → K) (I J : List Nat) : K :=
  (List.range dim).foldl (fun t l =>
    let i := I.getD l 0
    let j := J.getD l 0
    if tol < |xiP i l - xiC j l| then t * (omega xiC xiP mParent j l / (xiC j l - xiP i l) / beta xiP mParent i l) else t) 1

/-- `build`, 2011-2072: rows of `child.transferOperator`. -/
def build (tol : K) (dim mParent mChild : Nat) (etaP etaC : Nat → K) (boxP boxC : Box K) : List (List K) :=
  (multi mParent dim).map fun I => (multi mChild dim).map fun J => transferEntry tol dim mParent (nodes etaP boxP) (nodes etaC boxC) I J

/-- `omega` of `enterLeafValues`, 1301-1311; `tol` is `1e-9`, `x` the quadrature node. -/
def leafOmega (tol : K) (xi : Nat → Nat → K) (order : Nat) (x : Nat → K) (l q : Nat) : K :=
  if tol < |x q - xi l q| then (List.range order).foldl (fun t m => if m ≠ l then t * (x q - xi m q) else t) 1 else beta xi order l q

/-- `omegaSC/betaSC`, 1317-1324. -/
def leafPoly (tol : K) (dim : Nat) (xi : Nat → Nat → K) (order : Nat) (x : Nat → K) (a : List Nat) : K :=
  ((List.range dim).foldl (fun t q => t * leafOmega tol xi order x (a.getD q 0) q) 1) / ((List.range dim).foldl (fun t q => t * beta xi order (a.getD q 0) q) 1)

/-- A cell: volume, `cell2dof` and the quadrature nodes. -/
structure Cell (K : Type) where
  vol : K
  dof : Nat → Int
  x : Nat → Nat → K

/-- Quadrature rule, with the shape functions in its nodes. -/
structure Rule (K : Type) where
  numNodes : Nat
  weight : Nat → K
  dofsPerElement : Nat
  PHI : Nat → Nat → K

/-- Loop over the multi-indices, 1313-1325. -/
def enterNode (tol : K) (dim : Nat) (xi : Nat → Nat → K) (order : Nat) (x : Nat → K) (c : K) (f : K) (w : K) (lcl : Nat) (value : Nat → Nat → K) : Nat → Nat → K :=
  ((multi order dim).foldl (fun (s : (Nat → Nat → K) × Nat) a =>
    (fun p r => if p = lcl ∧ r = s.2 then s.1 p r + c * leafPoly tol dim xi order x a * f * w else s.1 p r, s.2 + 1)) (value, 0)).1

/-- Loop over the quadrature nodes, 1300-1325. -/
def enterDof (tol : K) (dim : Nat) (xi : Nat → Nat → K) (order : Nat) (R : Rule K) (c : Cell K) (k lcl : Nat) (value : Nat → Nat → K) : Nat → Nat → K :=
  (List.range R.numNodes).foldl (fun v j => enterNode tol dim xi order (c.x j) c.vol (R.PHI k j) (R.weight j) lcl v) value

/-- Loop over the dofs of one cell, 1287-1325. -/
def enterCell (tol : K) (dim : Nat) (xi : Nat → Nat → K) (order : Nat) (R : Rule K) (dofs : List Int) (value : Nat → Nat → K) (c : Cell K) : Nat → Nat → K :=
  (List.range R.dofsPerElement).foldl (fun v k =>
    if c.dof k < 0 then v else
    match dofs.findIdx? (· = c.dof k) with
    | none => v
    | some lcl => enterDof tol dim xi order R c k lcl v) value

/-- `enterLeafValues` for one leaf, 1222-1325: `value[0, :, :]`. -/
def enterLeaf (tol : K) (dim order : Nat) (eta : Nat → K) (box : Box K) (R : Rule K) (dofs : List Int) (cells : List (Cell K)) : Nat → Nat → K :=
  cells.foldl (enterCell tol dim (nodes eta box) order R dofs) fun _ _ => 0

/-- Points `x[k, :]` of `assembleFarFieldInteractions`, 2174-2206. -/
def points (dim m : Nat) (eta : Nat → K) (b : Box K) : List (List K) := (multi m dim).map fun a => (List.range dim).map fun j => nodes eta b (a.getD j 0) j

/-- `kernelInterpolant`, 2208-2222, for a scalar kernel. -/
def interpolant (bemMode : Bool) (kernel : List K → List K → K) (xs ys : List (List K)) : List (List K) :=
  xs.map fun x => ys.map fun y => if bemMode then kernel x y else kernel x y * (-2)

end PyNucleus.Transfer
