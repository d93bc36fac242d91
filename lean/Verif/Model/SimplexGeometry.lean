import Mathlib.Algebra.Order.Field.Basic
import Mathlib.Algebra.Order.Group.Unbundled.Abs
import Mathlib.Data.Rat.Cast.Defs

/-!
# Model of the computations on simplices

/repo/fem/PyNucleus_fem/femCy.pyx 80-732 and meshCy.pyx 1518-1650.  An array `simplex` is a function of vertex and component, a vector a function
of the component.  Temporary arrays are local definitions.  `sqrt` is a parameter.  Values of the array `innerProducts` are listed in their order.
-/

namespace PyNucleus.SimplexGeometry

variable {K : Type} [Field K] [LinearOrder K] [IsStrictOrderedRing K]

abbrev Vec (K : Type) := Nat → K
abbrev Coords (K : Type) := Nat → Nat → K

/-- `mydot` for vectors of length `n`. -/
def dot (n : Nat) (a b : Vec K) : K := (List.range n).foldl (fun s i => s + a i * b i) 0

/-- Difference of two vertices, written component by component in the loops. -/
def diff (x : Coords K) (i j : Nat) : Vec K := fun k => x i k - x j k

/-- `vectorProduct`, meshCy.pyx 1518-1522. -/
def cross (v w : Vec K) : Vec K
  | 0 => v 1 * w 2 - v 2 * w 1
  | 1 => v 2 * w 0 - v 0 * w 2
  | 2 => v 0 * w 1 - v 1 * w 0
  | _ => 0

/-- `volume2Dnew`, meshCy.pyx 1576-1577. -/
def volume2Dnew (a b : Vec K) : K := |a 0 * b 1 - a 1 * b 0| * (1 / 2)

/-- `volume3Dnew`, meshCy.pyx 1588-1590. -/
def volume3Dnew (a b c : Vec K) : K := |dot 3 c (cross a b)| / 6

/-- `volume2D_in_3D`, meshCy.pyx 1560-1565. -/
def volume2Din3D (sqrt : K → K) (a b : Vec K) : K := sqrt (dot 3 (cross a b) (cross a b)) * (1 / 2)

/-- `simplexVolume1D`, femCy.pyx 80-84. -/
def simplexVolume1D (x : Coords K) : K := |x 1 0 - x 0 0|

/-- `simplexVolume2D`, 87-97. -/
def simplexVolume2D (x : Coords K) : K := volume2Dnew (diff x 1 0) (diff x 2 0)

/-- `simplexVolume1Din2D`, 100-106. -/
def simplexVolume1Din2D (sqrt : K → K) (x : Coords K) : K := sqrt (diff x 1 0 0 ^ 2 + diff x 1 0 1 ^ 2)

/-- `simplexVolume3D`, 109-120. -/
def simplexVolume3D (x : Coords K) : K := volume3Dnew (diff x 1 0) (diff x 2 0) (diff x 3 0)

/-- `simplexVolume2Din3D`, 123-132. -/
def simplexVolume2Din3D (sqrt : K → K) (x : Coords K) : K := volume2Din3D sqrt (diff x 1 0) (diff x 2 0)

/-- `volume1Dsimplex`, meshCy.pyx 1597-1598. -/
def volume1Dsimplex (x : Coords K) : K := |x 1 0 - x 0 0|

/-- `volume2Dsimplex`, meshCy.pyx 1601-1607. -/
def volume2Dsimplex (x : Coords K) : K :=
  |(x 1 0 - x 0 0) * (x 2 1 - x 0 1) - (x 2 0 - x 0 0) * (x 1 1 - x 0 1)| * (1 / 2)

/-- `volume1Din2Dsimplex`, meshCy.pyx 1610-1614. -/
def volume1Din2Dsimplex (sqrt : K → K) (x : Coords K) : K :=
  sqrt ((x 1 0 - x 0 0) * (x 1 0 - x 0 0) + (x 1 1 - x 0 1) * (x 1 1 - x 0 1))

/-- `volume1Din3Dsimplex`, meshCy.pyx 1617-1622. -/
def volume1Din3Dsimplex (sqrt : K → K) (x : Coords K) : K :=
  sqrt ((x 1 0 - x 0 0) * (x 1 0 - x 0 0) + (x 1 1 - x 0 1) * (x 1 1 - x 0 1) + (x 1 2 - x 0 2) * (x 1 2 - x 0 2))

/-- `volume3Dsimplex`, meshCy.pyx 1625-1638. -/
def volume3Dsimplex (x : Coords K) : K :=
  let v00 := x 1 0 - x 0 0
  let v01 := x 1 1 - x 0 1
  let v02 := x 1 2 - x 0 2
  let v10 := x 2 0 - x 0 0
  let v11 := x 2 1 - x 0 1
  let v12 := x 2 2 - x 0 2
  let v20 := x 3 0 - x 0 0
  let v21 := x 3 1 - x 0 1
  let v22 := x 3 2 - x 0 2
  |(v01 * v12 - v02 * v11) * v20 - (v00 * v12 - v02 * v10) * v21 + (v00 * v11 - v01 * v10) * v22| / 6

/-- `volume2Din3Dsimplex`, meshCy.pyx 1641-1651. -/
def volume2Din3Dsimplex (sqrt : K → K) (x : Coords K) : K :=
  let v00 := x 1 0 - x 0 0
  let v01 := x 1 1 - x 0 1
  let v02 := x 1 2 - x 0 2
  let v10 := x 2 0 - x 0 0
  let v11 := x 2 1 - x 0 1
  let v12 := x 2 2 - x 0 2
  sqrt |(v01 * v12 - v02 * v11) ^ 2 + (v00 * v12 - v02 * v10) ^ 2 + (v00 * v11 - v01 * v10) ^ 2| * (1 / 2)

/-- Products of three vectors in the order of `innerProducts`. -/
def products3 (n : Nat) (a b c : Vec K) : List K := [dot n a a, dot n a b, dot n a c, dot n b b, dot n b c, dot n c c]

/-- Products of four vectors in the order of `innerProducts`. -/
def products4 (n : Nat) (a b c d : Vec K) : List K :=
  [dot n a a, dot n a b, dot n a c, dot n a d, dot n b b, dot n b c, dot n b d, dot n c c, dot n c d, dot n d d]

/-- `simplexVolumeAndProducts1D`, 156-170 (not called): the inner products are powers of the volume. -/
def simplexVolumeAndProducts1D (x : Coords K) : K × List K :=
  let vol := |x 1 0 - x 0 0|
  (vol, [vol ^ 2, -vol ^ 2, vol ^ 2])

/-- `simplexVolumeAndProducts2D`, 540-562. -/
def simplexVolumeAndProducts2D (x : Coords K) : K × List K :=
  (volume2Dnew (diff x 0 2) (diff x 1 0), products3 2 (diff x 2 1) (diff x 0 2) (diff x 1 0))

/-- `simplexVolumeAndProducts2Din3D`, 565-587. -/
def simplexVolumeAndProducts2Din3D (sqrt : K → K) (x : Coords K) : K × List K :=
  (volume2Din3D sqrt (diff x 0 2) (diff x 1 0), products3 3 (diff x 2 1) (diff x 0 2) (diff x 1 0))

/-- The loop that rotates an edge: the component with index `1 - j` is `f` times component `j`, where `f` is 1 for `j = 0` and -1 for `j = 1`. -/
def rotated (v : Vec K) : Vec K
  | 0 => -1 * v 1
  | 1 => 1 * v 0
  | _ => 0

/-- `simplexVolumeGradientsProducts2D`, 590-613: volume, scaled gradients, products. -/
def simplexVolumeGradientsProducts2D (x : Coords K) : K × (Nat → Vec K) × List K :=
  let g : Nat → Vec K
    | 0 => rotated (diff x 2 1)
    | 1 => rotated (diff x 0 2)
    | 2 => rotated (diff x 1 0)
    | _ => fun _ => 0
  (volume2Dnew (g 1) (g 2), g, products3 2 (g 0) (g 1) (g 2))

/-- The scaled gradients in three dimensions: `v12 × v13`, `v02 × v32`, `v01 × v03`, `v12 × v02`. -/
def crosses (x : Coords K) : Nat → Vec K
  | 0 => cross (diff x 2 1) (diff x 3 1)
  | 1 => cross (diff x 2 0) (diff x 2 3)
  | 2 => cross (diff x 1 0) (diff x 3 0)
  | 3 => cross (diff x 2 1) (diff x 2 0)
  | _ => fun _ => 0

/-- `simplexVolumeAndProducts3D`, 650-688. -/
def simplexVolumeAndProducts3D (x : Coords K) : K × List K :=
  (volume3Dnew (diff x 1 0) (diff x 2 0) (diff x 3 0), products4 3 (crosses x 0) (crosses x 1) (crosses x 2) (crosses x 3))

/-- `simplexVolumeGradientsProducts3D`, 691-731. -/
def simplexVolumeGradientsProducts3D (x : Coords K) : K × (Nat → Vec K) × List K :=
  (volume3Dnew (diff x 1 0) (diff x 2 0) (diff x 3 0), crosses x, products4 3 (crosses x 0) (crosses x 1) (crosses x 2) (crosses x 3))

/-- `simplexComputations1D.evalVolumeGradients`, 246-255. -/
def gradients1D (x : Coords K) : K × (Nat → Vec K) :=
  let vol := |x 0 0 - x 1 0|
  (vol, fun
    | 0 => fun _ => 1 / vol
    | 1 => fun _ => -(1 / vol)
    | _ => fun _ => 0)

/-- `simplexComputations2D.evalVolumeGradients`, 309-326. -/
def gradients2D (x : Coords K) : K × (Nat → Vec K) :=
  let r := simplexVolumeGradientsProducts2D x
  let vol := r.1
  let f := 1 / 2 / vol
  (vol, fun k j => r.2.1 k j * f)

/-- `simplexComputations3D.evalVolumeGradients`, 404-432. -/
def gradients3D (x : Coords K) : K × (Nat → Vec K) :=
  let vol := volume3Dnew (diff x 1 0) (diff x 2 0) (diff x 3 0)
  let f := ((0.16666666666666674 : ℚ) : K) / vol
  (vol, fun k j => crosses x k j * f)

/-- `evalVolumeGradients` of the class for dimension `d`. -/
def gradients (d : Nat) (x : Coords K) : K × (Nat → Vec K) := if d = 1 then gradients1D x else if d = 2 then gradients2D x else gradients3D x

/-- `evalVolumeGradientsInnerProducts` and `evalSimplexVolumeGradientsInnerProducts`: 257-290, 328-381, 434-517. -/
def gradientsInnerProducts (d : Nat) (x : Coords K) : K × (Nat → Vec K) × List K :=
  let r := gradients d x
  (r.1, r.2, (List.range (d + 1)).flatMap fun k => (List.range (d + 1 - k)).map fun l => r.1 * dot d (r.2 k) (r.2 (k + l)))

/-- `coeffProducts1D`, 135-153; `b` is the value of the coefficient at the midpoint. -/
def coeffProducts1D (vol : K) (b : Vec K) : List K := [-1 * b 0 / vol, 1 * b 0 / vol]

/-- `mydot_rot2D`, 616-617. -/
def dotRot (a b : Vec K) : K := -a 0 * b 1 + a 1 * b 0

/-- `coeffProducts2D`, 620-647; `b` is the value of the coefficient at the barycenter. -/
def coeffProducts2D (x : Coords K) (vol : K) (b : Vec K) : List K :=
  [1 / 2 / vol * dotRot b (diff x 2 1), 1 / 2 / vol * dotRot b (diff x 0 2), 1 / 2 / vol * dotRot b (diff x 1 0)]

/-- Barycenter: sum of the vertices times `fac`, 143-147 and 629-636. -/
def barycenter (d : Nat) (x : Coords K) : Vec K := fun j => ((List.range (d + 1)).foldl (fun s i => s + x i j) 0) * (1 / ((d + 1 : Nat) : K))

/-- `drift_1d_P1.eval`, 754-774, and `drift_2d_P1.eval`, 810-835: `coeff` is evaluated at the barycenter, the volume is one. -/
def drift (d : Nat) (coeff : Vec K → Vec K) (x : Coords K) : List K :=
  let b := coeff (barycenter d x)
  let p := if d = 1 then coeffProducts1D 1 b else coeffProducts2D x 1 b
  (List.range (d + 1)).flatMap fun _ => p.map fun c => c * (1 / ((d + 1 : Nat) : K))

end PyNucleus.SimplexGeometry
