import Verif.Model.SimplexGeometry

/-!
# Model of the quadrature rules

/repo/fem/PyNucleus_fem/quadrature.pyx.  The arrays `nodes` (one row per barycentric coordinate, one column per node) and `weights` are the list of pairs of a column
and a weight.  The nodes of `scipy.special.p_roots`, `js_roots` and of `modepy` are parameters, like `sqrt`.
-/

namespace PyNucleus.Quadrature

open PyNucleus.SimplexGeometry

variable {K : Type} [Field K]

/-- `nodes` and `weights`. -/
abbrev Rule (K : Type) := List (List K × K)

/-- `quadratureRule.eval`, 33-42. -/
def eval (R : Rule K) (funVals : List K) (vol : K) : K := (R.zip funVals).foldl (fun I p => I + p.1.2 * p.2) 0 * vol

/-- The loops over `k` in `nodesInGlobalCoords`, 83-87, and `evalFun`, 125-128: component `m` of the point. -/
def position (mdim : Nat) (S : Coords K) (node : List K) : Vec K := fun m => (List.range (mdim + 1)).foldl (fun x k => x + node.getD k 0 * S k m) 0

/-- `nodesInGlobalCoords`, 76-87. -/
def nodesInGlobalCoords (mdim : Nat) (R : Rule K) (S : Coords K) : List (Vec K) := R.map fun p => position mdim S p.1

/-- `nodesInGlobalCoordsReorderer`, 94-107. -/
def nodesInGlobalCoordsReorderer (mdim : Nat) (R : Rule K) (S : Coords K) (idx : Nat → Nat) : List (Vec K) :=
  R.map fun p => fun m => (List.range (mdim + 1)).foldl (fun x k => x + p.1.getD k 0 * S (idx k) m) 0

/-- `evalFun`, 118-129; also `evalVectorFun`, `evalComplexFun`. -/
def evalFun {α : Type} (mdim : Nat) (R : Rule K) (f : Vec K → α) (S : Coords K) : List α := R.map fun p => f (position mdim S p.1)

section
variable [LinearOrder K]

/-- The choice of `volume`, 52-65, and `getSimplexVolume`, 157-163; `none`: `NotImplementedError`. -/
def simplexVolume (sqrt : K → K) (dim mdim : Nat) (S : Coords K) : Option K :=
  let span : Coords K := fun k j => S (k + 1) j - S 0 j
  if mdim = 0 then some 1
  else if dim = 1 ∧ mdim = 1 then some |span 0 0|
  else if dim = 2 ∧ mdim = 1 then some (sqrt (span 0 0 ^ 2 + span 0 1 ^ 2))
  else if dim = 2 ∧ mdim = 2 then some (volume2Dnew (span 0) (span 1))
  else if dim = 3 ∧ mdim = 3 then some (volume3Dnew (span 0) (span 1) (span 2))
  else if dim = 3 ∧ mdim = 2 then some (volume2Din3D sqrt (span 0) (span 1))
  else none

/-- `integrate`, 169-177. -/
def integrate (sqrt : K → K) (dim mdim : Nat) (R : Rule K) (f : Vec K → K) (S : Coords K) : Option K :=
  (simplexVolume sqrt dim mdim S).map fun vol => eval R (evalFun mdim R f S) vol

end

/-- `simplexQuadratureRule.__add__`, 69-74: `hstack` and `concatenate`. -/
def add (R Q : Rule K) : Rule K := R ++ Q

/-- `transformQuadratureRule.compute`, 197-206. -/
def transform (mdim : Nat) (A : Nat → Nat → K) (b : Nat → K) (R : Rule K) : Rule K :=
  R.map fun p => ((List.range (mdim + 1)).map fun k => (List.range (mdim + 1)).foldl (fun x j => x + A k j * p.1.getD j 0) (b k), p.2)

/-- `setLinearBaryTransform`, 188-190. -/
def transformLinear (mdim : Nat) (A : Nat → Nat → K) (R : Rule K) : Rule K := transform mdim A (fun _ => 0) R

/-- Weights of `doubleSimplexQuadratureRule`, 221-225. -/
def doubleWeights (R Q : Rule K) : List K := R.flatMap fun p => Q.map fun q => p.2 * q.2

/-- `doubleSimplexQuadratureRule.evalFun`, 243-264.  The loops over `k` use the dimensions of the spaces. -/
def doubleEvalFun (dim1 dim2 : Nat) (R Q : Rule K) (f : Vec K → K) (S T : Coords K) : List K :=
  R.flatMap fun p => Q.map fun q => f fun m => if m < dim1 then position dim1 S p.1 m else position dim2 T q.1 (m - dim1)

/-- `doubleSimplexQuadratureRule.integrate`, 266-276, with `eval` of the base class.  `none`: an exception, or an access outside of `nodes` since there are rows only up
to the dimension of the simplex. -/
def doubleIntegrate [LinearOrder K] (sqrt : K → K) (dim1 mdim1 dim2 mdim2 : Nat) (R Q : Rule K) (f : Vec K → K) (S T : Coords K) : Option K :=
  if dim1 ≤ mdim1 ∧ dim2 ≤ mdim2 then
    (simplexVolume sqrt dim1 mdim1 S).bind fun v1 => (simplexVolume sqrt dim2 mdim2 T).map fun v2 =>
      ((doubleWeights R Q).zip (doubleEvalFun dim1 dim2 R Q f S T)).foldl (fun I p => I + p.1 * p.2) 0 * (v1 * v2)
  else none

/-- `Gauss1D.__init__`, 303-316; `pRoots k` are nodes and weights on the interval from -1 to 1. -/
def gauss1D (pRoots : Nat → List (K × K)) (order : Nat) : Option (Rule K) :=
  let k := (order + 1) / 2
  if 2 * k ≠ order + 1 then none
  else some ((pRoots k).map fun p => ([(p.1 + 1) / 2, 1 - (p.1 + 1) / 2], p.2 / 2))

/-- `Gauss2D.__init__`, 319-331, with the tables of 279-294; `s` is `sqrt(15.0)`. -/
def gauss2D (s : K) (order : Nat) : Option (Rule K) :=
  let a1 := (6 - s) / 21
  let a2 := (6 + s) / 21
  let w1 := (155 - s) / 1200
  let w2 := (155 + s) / 1200
  if order = 2 then some [([1 / 2, 1 / 2, 0], 1 / 3), ([0, 1 / 2, 1 / 2], 1 / 3), ([1 / 2, 0, 1 / 2], 1 / 3)]
  else if order = 5 then some [([1 / 3, 1 / 3, 1 / 3], 9 / 40),
    ([a1, a1, 1 - 2 * a1], w1), ([a1, 1 - 2 * a1, a1], w1), ([1 - 2 * a1, a1, a1], w1),
    ([a2, a2, 1 - 2 * a2], w2), ([a2, 1 - 2 * a2, a2], w2), ([1 - 2 * a2, a2, a2], w2)]
  else none

/-- `Gauss3D.__init__`, 334-342, with the tables of 296-300. -/
def gauss3D (order : Nat) : Option (Rule K) :=
  if order = 3 then some [([1 / 4, 1 / 4, 1 / 4, 1 / 4], -(4 / 5)), ([1 / 2, 1 / 6, 1 / 6, 1 / 6], 9 / 20), ([1 / 6, 1 / 2, 1 / 6, 1 / 6], 9 / 20),
    ([1 / 6, 1 / 6, 1 / 2, 1 / 6], 9 / 20), ([1 / 6, 1 / 6, 1 / 6, 1 / 2], 9 / 20)]
  else none

/-- The loop over `itertools.product`, 472-476 (and 442-446): the last factor runs fastest. -/
def productRule : List (List (K × K)) → Rule K
  | [] => [([], 1)]
  | L :: Ls => L.flatMap fun p => (productRule Ls).map fun q => (p.1 :: q.1, p.2 * q.2)

/-- Number of nodes for an order, 459-462: even orders are incremented. -/
def numNodes (order : Nat) : Nat :=
  let k := (order + 1) / 2
  if 2 * k ≠ order + 1 then k + 1 else k

/-- `GaussJacobi.__init__`, 451-478; `jsRoots k p q` are nodes and weights on the interval from 0 to 1 with weight `(1 - x) ^ (p - q) * x ^ (q - 1)`. -/
def gaussJacobi (jsRoots : Nat → Nat → Nat → List (K × K)) (specs : List (Nat × Nat × Nat)) : Rule K :=
  productRule (specs.map fun s =>
    let alpha := s.2.1 + 1
    let beta := s.2.2 + alpha
    jsRoots (numNodes s.1) beta alpha)

/-- Barycentric coordinates from the coordinates on the cube, 498-505. -/
def duffyNode (mdim : Nat) (x : List K) : List K :=
  let rest := (List.range mdim).map fun j => (List.range j).foldl (fun y k => y * (1 - x.getD k 0)) (x.getD j 0)
  rest.foldl (fun y z => y - z) 1 :: rest

/-- `simplexDuffyTransformation.__init__`, 481-518; `none`: `NotImplementedError`. -/
def duffy (jsRoots : Nat → Nat → Nat → List (K × K)) (order mdim : Nat) : Option (Rule K) :=
  if mdim = 0 then some [([1], 1)]
  else
    let qr := gaussJacobi jsRoots ((List.range mdim).map fun d => (order + mdim - d - 1, 0, mdim - d - 1))
    let scaled (c : K) : Rule K := qr.map fun p => (duffyNode mdim p.1, p.2 * c)
    if mdim = 1 then some (qr.map fun p => (duffyNode mdim p.1, p.2))
    else if mdim = 2 then some (scaled 2)
    else if mdim = 3 then some (scaled 6)
    else none

/-- `simplexXiaoGimbutas.__init__`, 521-545; `table order mdim`: nodes in barycentric coordinates and weights of the rule of `modepy`. -/
def xiaoGimbutas (jsRoots : Nat → Nat → Nat → List (K × K)) (table : Nat → Nat → Rule K) (order mdim : Nat) : Option (Rule K) :=
  if mdim = 0 ∨ mdim = 1 then duffy jsRoots order mdim
  else if mdim = 2 then some ((table order mdim).map fun p => (p.1, p.2 * (1 / 2)))
  else if mdim = 3 then some ((table order mdim).map fun p => (p.1, p.2 * (3 / 4)))
  else none

/-- `simplexJaskowiecSukumar.__init__`, 590-595: barycentric coordinates of the points of the table. -/
def jaskowiecNode (x : List K) : List K := x.foldl (fun y z => y - z) 1 :: x

/-- `Gauss.__init__`, 429-448, a rule on the cube. -/
def gauss (pRoots : Nat → List (K × K)) (order dim : Nat) : Rule K :=
  productRule (List.replicate dim ((pRoots (numNodes order)).map fun p => ((p.1 + 1) / 2, p.2 / 2)))

/-- `self.nodes[i, k]` for a rule on the cube, whose array `nodes` has one row per dimension; `none`: outside of the array. -/
def nodeAt (R : Rule K) (i k : Nat) : Option K := (R[k]?).bind fun p => p.1[i]?

/-- `quadQuadratureRule.evalFun`, 388-400 (and `nodesInGlobalCoords`, 377-386): the values after the last step of the inner loops.  Every step of the loop over `k`
adds the first vertex. -/
def quadEvalFun (dim : Nat) (R : Rule K) (f : Vec K → K) (V : Coords K) : Option (List K) :=
  (List.range R.length).mapM fun i => ((List.range dim).foldlM (fun (x : Vec K) k =>
    (nodeAt R i k).map fun c => fun m => x m + (V 0 m + c * (V (k + 1) m - V 0 m))) fun _ => 0).map f

/-- `getQuadVolume`, 402-415. -/
def quadVolume [LinearOrder K] (dim : Nat) (V : Coords K) : Option K :=
  let span : Coords K := fun k j => V (k + 1) j - V 0 j
  if dim = 1 then some |span 0 0|
  else if dim = 2 then some (volume2Dnew (span 0) (span 1) * 2)
  else if dim = 3 then some (volume3Dnew (span 0) (span 1) (span 2) * 6)
  else none

/-- `quadQuadratureRule.integrate`, 417-424. -/
def quadIntegrate [LinearOrder K] (dim : Nat) (R : Rule K) (f : Vec K → K) (V : Coords K) : Option K :=
  (quadEvalFun dim R f V).bind fun vals => (quadVolume dim V).map fun vol => eval R vals vol

/-- `sphericalQuadRule1D.__init__`, 556-562: vertex offsets and weights. -/
def spherical1D (radius : K) : Rule K := [([-radius], 1), ([radius], 1)]

/-- `sphericalQuadRule2D.__init__`, 565-573; `cos`, `sin` and `pi` are parameters. -/
def spherical2D (cos sin : K → K) (pi radius : K) (n : Nat) : Rule K :=
  (List.range n).map fun i : Nat =>
    let angle := 2 * pi * i / n
    ([radius * cos angle, radius * sin angle], 2 * pi * radius / n)

end PyNucleus.Quadrature
