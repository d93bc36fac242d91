import Verif.Model.SimplexGeometry

/-!
# Model of edge elements on triangles

/repo/fem/PyNucleus_fem/DoFMaps.pyx 2194-2249, discrete_gradient_2d_N1e_P1.pxi, discrete_curl_2d_P0_N1e.pxi, curlcurl_2D_N1e.pxi,
mass_2D_N1e.pxi and the part of `assembleNonSymMatrix_CSR` (femCy.pyx 2533-2567) that is used by the first two.  `cell` gives the numbers of the
vertices of a cell.  The constant `0.020833333333333332` is taken as 1/48.  A matrix is a function of row and column; the sparsity pattern,
which has every pair that is set, is not modelled.
-/

namespace PyNucleus.EdgeElements

open PyNucleus.SimplexGeometry

variable {K : Type} [Field K] [LinearOrder K] [IsStrictOrderedRing K]

/-- Local edges of `N1e_DoFMap` in two dimensions, DoFMaps.pyx 2227-2229. -/
def edge : Nat → Nat × Nat
  | 0 => (0, 1)
  | 1 => (1, 2)
  | _ => (2, 0)

/-- `shapeFunctionN1e.evalPtr`, DoFMaps.pyx 2204-2211, for the function `k` of `N1e_DoFMap`. -/
def shape (cell : Nat → Int) (k : Nat) (lam : Nat → K) (gradLam : Nat → Vec K) : Vec K := fun i =>
  let v := 1 / 2 * (lam (edge k).1 * gradLam (edge k).2 i - lam (edge k).2 * gradLam (edge k).1 i)
  if cell (edge k).1 > cell (edge k).2 then -v else v

/-- `N1e_DoFMap.nodes`, DoFMaps.pyx 2230-2232. -/
def node : Nat → Nat → K
  | 0, 0 => 1 / 2
  | 0, 1 => 1 / 2
  | 1, 1 => 1 / 2
  | 1, 2 => 1 / 2
  | 2, 0 => 1 / 2
  | 2, 2 => 1 / 2
  | _, _ => 0

/-- `discrete_gradient_2d_N1e_P1.eval`, lines 14-37: the nine entries, row by row. -/
def gradLocal (cell : Nat → Int) : List K :=
  let r0 : K × K := if cell 0 > cell 1 then (1, -1) else (-1, 1)
  let r1 : K × K := if cell 1 > cell 2 then (1, -1) else (-1, 1)
  let r2 : K × K := if cell 2 > cell 0 then (-1, 1) else (1, -1)
  [r0.1, r0.2, 0, 0, r1.1, r1.2, r2.1, 0, r2.2]

/-- `discrete_curl_2d_P0_N1e.eval`, lines 14-28. -/
def curlLocal (cell : Nat → Int) : List K :=
  [if cell 0 > cell 1 then -1 else 1, if cell 1 > cell 2 then -1 else 1, if cell 2 > cell 0 then -1 else 1]

/-- `curlcurl_2d_sym_N1e.eval`, lines 13-41: the entries of the upper triangle. -/
def curlcurlLocal (x : Coords K) (cell : Nat → Int) : List K :=
  let r := simplexVolumeAndProducts2D x
  let vol := 1 / 4 / r.1
  let l00 := r.2.getD 0 0
  let l01 := r.2.getD 1 0
  let l02 := r.2.getD 2 0
  let l11 := r.2.getD 3 0
  let l12 := r.2.getD 4 0
  let l22 := r.2.getD 5 0
  let o01 : K := if cell 0 > cell 1 then -1 else 1
  let o12 : K := if cell 1 > cell 2 then -1 else 1
  let o20 : K := if cell 2 > cell 0 then -1 else 1
  [vol * (l00 * l11 - l01 ^ 2),
   o01 * o12 * vol * (l01 * l12 - l02 * l11),
   -o01 * o20 * vol * (l00 * l12 - l01 * l02),
   vol * (l11 * l22 - l12 ^ 2),
   -o12 * o20 * vol * (l01 * l22 - l02 * l12),
   vol * (l00 * l22 - l02 ^ 2)]

/-- `mass_2d_sym_N1e.eval`, lines 13-41. -/
def massLocal (x : Coords K) (cell : Nat → Int) : List K :=
  let r := simplexVolumeAndProducts2D x
  let vol := 1 / 48 / 4 / r.1
  let l00 := r.2.getD 0 0
  let l01 := r.2.getD 1 0
  let l02 := r.2.getD 2 0
  let l11 := r.2.getD 3 0
  let l12 := r.2.getD 4 0
  let l22 := r.2.getD 5 0
  let o01 : K := if cell 0 > cell 1 then -1 else 1
  let o12 : K := if cell 1 > cell 2 then -1 else 1
  let o20 : K := if cell 2 > cell 0 then -1 else 1
  [2 * vol * (l00 - l01 + l11),
   o01 * o12 * vol * (l01 - 2 * l02 - l11 + l12),
   -o01 * o20 * vol * (l00 - l01 - l02 + 2 * l12),
   2 * vol * (l11 - l12 + l22),
   -o12 * o20 * vol * (2 * l01 - l02 - l12 + l22),
   2 * vol * (l00 - l02 + l22)]

/-- A cell with its vertices, the dofs `DoFMap1.cell2dof(i, j)` of the edges and the dofs `DoFMap2.cell2dof(i, k)` of the vertices. -/
structure Cell where
  verts : Nat → Int
  edgeDof : Nat → Int
  vertDof : Nat → Int

/-- `A.setEntry(I, J, v)`. -/
def setEntry (A : Int → Int → K) (I J : Int) (v : K) : Int → Int → K := fun i j => if i = I ∧ j = J then v else A i j

/-- One cell of the branch without addition, femCy.pyx 2555-2567; `s` is `3 j + k`. -/
def setCell (A : Int → Int → K) (c : Cell) : Int → Int → K :=
  (List.range 3).foldl (fun A j =>
    if c.edgeDof j < 0 then A
    else (List.range 3).foldl (fun A k =>
      if c.vertDof k < 0 then A else setEntry A (c.edgeDof j) (c.vertDof k) ((gradLocal c.verts).getD (3 * j + k) 0)) A) A

/-- `assembleDiscreteGradient`, femCy.pyx 2117-2143: all cells, starting with zeros. -/
def discreteGradient (cells : List Cell) : Int → Int → K := cells.foldl setCell fun _ _ => 0

end PyNucleus.EdgeElements
