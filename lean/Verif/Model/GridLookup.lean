import Mathlib.Data.Rat.Floor
import Mathlib.Algebra.Order.Field.Rat

/-!
# Interpolation of values on grids

Models `evalPL1D` (fem/PyNucleus_fem/functions.pyx:1516-1520), `lookupFunction1D` (1523-1552), `lookupFunctionTensor1DNew` (1555-1578),
`evalPLTensor2D` (1581-1586), `lookupFunctionTensor2D` (1601-1634), `lookupFunctionTensor2DNew` (1637-1664),
`lookupFunctionTensor2DNewSym` (1669-1722), `evalPLTensor3D` (1589-1598), `lookupFunctionTensor3D` (1725-1767), `lookupFunctionTensor3DNew`
(1770-1806) and `lookupFunctionTensor3DNewSym` (1809-1873).

Simplifications: rational numbers; a grid is a function with a number of points; the search tree is a parameter that gives the two nearest
points; `none` stands for an invalid access.
-/

namespace PyNucleus.GridLookup

/-- `evalPL1D` (1516-1520) in the cell with the points `a`, `b`. -/
def pl1 (a b u v x : ℚ) : ℚ :=
  let l := (x - b) / (a - b)
  l * u + (1 - l) * v

/-- `evalPLTensor2D` (1581-1586); `u i j` is the value in point `i` of the first and `j` of the second direction. -/
def pl2 (a b c d : ℚ) (u00 u10 u01 u11 x y : ℚ) : ℚ :=
  let lX := (x - b) / (a - b)
  let lY := (y - d) / (c - d)
  lX * lY * u00 + (1 - lX) * lY * u10 + lX * (1 - lY) * u01 + (1 - lX) * (1 - lY) * u11

/-- `lookupFunction1D.eval` (1541-1552); `query` gives the two nearest points. -/
def tree1 (coords vals : Nat → ℚ) (query : ℚ → Nat × Nat) (x : ℚ) : ℚ :=
  pl1 (coords (query x).1) (coords (query x).2) (vals (query x).1) (vals (query x).2) x

/-- `lookupFunctionTensor2D.eval` (1620-1634). -/
def tree2 (cx cy : Nat → ℚ) (vals : Nat → Nat → ℚ) (qx qy : ℚ → Nat × Nat) (x y : ℚ) : ℚ :=
  pl2 (cx (qx x).1) (cx (qx x).2) (cy (qy y).1) (cy (qy y).2)
    (vals (qx x).1 (qy y).1) (vals (qx x).2 (qy y).1) (vals (qx x).1 (qy y).2) (vals (qx x).2 (qy y).2) x y

/-- Conversion to an integer, towards zero. -/
def trunc (x : ℚ) : ℤ := if 0 ≤ x then ⌊x⌋ else ⌈x⌉

/-- The index of the cell, valid if it and the next one are points of the grid. -/
def cell (size N : Nat) (x : ℚ) : Option Nat :=
  if 0 ≤ trunc (N * x) ∧ trunc (N * x) + 1 < size then some (trunc (N * x)).toNat else none

/-- `lookupFunctionTensor1DNew.eval` (1570-1578). -/
def direct1 (size N : Nat) (coords vals : Nat → ℚ) (x : ℚ) : Option ℚ :=
  (cell size N x).map fun i => pl1 (coords i) (coords (i + 1)) (vals i) (vals (i + 1)) x

/-- `lookupFunctionTensor2DNew.eval` (1653-1664). -/
def direct2 (size N : Nat) (cx cy : Nat → ℚ) (vals : Nat → Nat → ℚ) (x y : ℚ) : Option ℚ :=
  (cell size N x).bind fun i => (cell size N y).map fun j =>
    pl2 (cx i) (cx (i + 1)) (cy j) (cy (j + 1)) (vals i j) (vals (i + 1) j) (vals i (j + 1)) (vals (i + 1) (j + 1)) x y

/-- The reflection of one coordinate (1696-1700). -/
def fold (x : ℚ) : ℚ := if x > 1 / 2 then 1 - x else x

/-- The index of a value that exists (1706-1721). -/
def clamp (m i : Nat) : Nat := if i ≥ m then m - 2 else i

/-- `lookupFunctionTensor2DNewSym.eval` (1692-1722); `m` is the number of values in each direction, `2m-1` the one of points. -/
def sym2 (m : Nat) (cx cy : Nat → ℚ) (vals : Nat → Nat → ℚ) (x y : ℚ) : Option ℚ :=
  let N := 2 * m - 1
  (cell N N (fold x)).bind fun i => (cell N N (fold y)).map fun j =>
    pl2 (cx i) (cx (i + 1)) (cy j) (cy (j + 1)) (vals (clamp m i) (clamp m j)) (vals (clamp m (i + 1)) (clamp m j))
      (vals (clamp m i) (clamp m (j + 1))) (vals (clamp m (i + 1)) (clamp m (j + 1))) (fold x) (fold y)

/-- `evalPLTensor3D` (1589-1598); `u i j k` are the values in the corners. -/
def pl3 (a b c d e f : ℚ) (u : Nat → Nat → Nat → ℚ) (x y z : ℚ) : ℚ :=
  let lX := (x - b) / (a - b)
  let lY := (y - d) / (c - d)
  let lZ := (z - f) / (e - f)
  lX * lY * lZ * u 0 0 0 + (1 - lX) * lY * lZ * u 1 0 0 + lX * (1 - lY) * lZ * u 0 1 0 + (1 - lX) * (1 - lY) * lZ * u 1 1 0 +
    lX * lY * (1 - lZ) * u 0 0 1 + (1 - lX) * lY * (1 - lZ) * u 1 0 1 + lX * (1 - lY) * (1 - lZ) * u 0 1 1 +
    (1 - lX) * (1 - lY) * (1 - lZ) * u 1 1 1

/-- One of the two points of a search. -/
def pick (q : Nat × Nat) (i : Nat) : Nat := if i = 0 then q.1 else q.2

/-- `lookupFunctionTensor3D.eval` (1749-1767). -/
def tree3 (cx cy cz : Nat → ℚ) (vals : Nat → Nat → Nat → ℚ) (qx qy qz : ℚ → Nat × Nat) (x y z : ℚ) : ℚ :=
  pl3 (cx (qx x).1) (cx (qx x).2) (cy (qy y).1) (cy (qy y).2) (cz (qz z).1) (cz (qz z).2)
    (fun i j k => vals (pick (qx x) i) (pick (qy y) j) (pick (qz z) k)) x y z

/-- `lookupFunctionTensor3DNew.eval` (1791-1806). -/
def direct3 (size N : Nat) (cx cy cz : Nat → ℚ) (vals : Nat → Nat → Nat → ℚ) (x y z : ℚ) : Option ℚ :=
  (cell size N x).bind fun i => (cell size N y).bind fun j => (cell size N z).map fun k =>
    pl3 (cx i) (cx (i + 1)) (cy j) (cy (j + 1)) (cz k) (cz (k + 1)) (fun a b c => vals (i + a) (j + b) (k + c)) x y z

/-- `lookupFunctionTensor3DNewSym.eval` (1835-1873). -/
def sym3 (m : Nat) (cx cy cz : Nat → ℚ) (vals : Nat → Nat → Nat → ℚ) (x y z : ℚ) : Option ℚ :=
  let N := 2 * m - 1
  (cell N N (fold x)).bind fun i => (cell N N (fold y)).bind fun j => (cell N N (fold z)).map fun k =>
    pl3 (cx i) (cx (i + 1)) (cy j) (cy (j + 1)) (cz k) (cz (k + 1))
      (fun a b c => vals (clamp m (i + a)) (clamp m (j + b)) (clamp m (k + c))) (fold x) (fold y) (fold z)

end PyNucleus.GridLookup
