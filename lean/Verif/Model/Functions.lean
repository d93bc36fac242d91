import Mathlib.Algebra.Order.Floor.Ring
import Mathlib.Algebra.Order.Field.Basic

/-!
Functions of a point (`/repo/fem/PyNucleus_fem/functions.pyx`): arithmetic, indicators, functors, vector and matrix valued
functions.

A point is a function `Nat → K`, `dim` is its length. Values of special functions are opaque leaves. Arrays that a method
fills are functions of the index, with arbitrary contents before.
-/

namespace PyNucleus.Functions

/-- Function objects (functions.pyx:22-132). `complexFunction` (1905-1984) has the same methods over the complex numbers, without
products of functions. -/
inductive Fn (K : Type)
  /-- Any other subclass, given by its values. -/
  | leaf (f : (Nat → K) → K)
  /-- `sumFunction` (83-98). -/
  | sum (f1 : Fn K) (fac1 : K) (f2 : Fn K) (fac2 : K)
  /-- `mulFunction` (101-114). -/
  | mul (f : Fn K) (fac : K)
  /-- `prodFunction` (117-129). -/
  | prod (f1 f2 : Fn K)

section Ring

variable {K : Type} [CommRing K]

/-- `eval` (94-95, 110-111, 125-126, 1970-1971, 1983-1984). -/
def Fn.eval : Fn K → (Nat → K) → K
  | .leaf f, x => f x
  | .sum f1 fac1 f2 fac2, x => fac1 * f1.eval x + fac2 * f2.eval x
  | .mul f fac, x => fac * f.eval x
  | .prod f1 f2, x => f1.eval x * f2.eval x

/-- `__add__` (34-44, 1912-1922). -/
def Fn.add (f g : Fn K) : Fn K :=
  match f, g with
  | .mul f a, .mul g b => .sum f a g b
  | .mul f a, g => .sum f a g 1
  | f, .mul g b => .sum f 1 g b
  | f, g => .sum f 1 g 1

/-- `__sub__` (46-56, 1924-1934). -/
def Fn.sub (f g : Fn K) : Fn K :=
  match f, g with
  | .mul f a, .mul g b => .sum f a g (-b)
  | .mul f a, g => .sum f a g (-1)
  | f, .mul g b => .sum f 1 g (-b)
  | f, g => .sum f 1 g (-1)

/-- `__mul__` of a function and a number (61-64, 1937-1940), `__rmul__` (68-69, 1944-1945). -/
def Fn.scale (f : Fn K) (c : K) : Fn K := .mul f c

/-- `__mul__` of two functions (59-60). -/
def Fn.times (f g : Fn K) : Fn K := .prod f g

/-- `__neg__` (71-77, 1947-1953). -/
def Fn.neg : Fn K → Fn K
  | .mul f a => .mul f (-a)
  | .sum f1 a f2 b => .sum f1 (-a) f2 (-b)
  | f => .mul f (-1)

/-- Vector valued functions (2047-2191). -/
inductive VFn (K : Type)
  /-- `componentVectorFunction` (2104-2121). -/
  | comp (components : List (Fn K))
  /-- `sumVectorFunction` (2138-2160). -/
  | sum (f1 : VFn K) (fac1 : K) (f2 : VFn K) (fac2 : K)
  /-- `mulVectorFunction` (2163-2191). -/
  | mul (f : VFn K) (fac : K) (g : Option (Fn K))

/-- The member `rows` (2049, 2106, 2146, 2170). -/
def VFn.rows : VFn K → Nat
  | .comp cs => cs.length
  | .sum f1 _ _ _ => f1.rows
  | .mul f _ _ => f.rows

/-- `eval` (2109-2115, 2153-2157, 2175-2183): the array `vals`. -/
def VFn.eval : VFn K → (Nat → K) → List K
  | .comp cs, x => cs.map fun f => f.eval x
  | .sum f1 fac1 f2 fac2, x => List.zipWith (fun a b => fac1 * a + fac2 * b) (f1.eval x) (f2.eval x)
  | .mul f fac g, x =>
    let v := match g with
      | some g => g.eval x
      | none => 1
    (f.eval x).map fun a => a * (fac * v)

/-- The constructor of `sumVectorFunction` with its assertion (2144-2151). -/
def VFn.mkSum (f1 : VFn K) (fac1 : K) (f2 : VFn K) (fac2 : K) : Option (VFn K) :=
  if f1.rows = f2.rows then some (.sum f1 fac1 f2 fac2) else none

/-- `__add__` (2065-2075). -/
def VFn.add (f g : VFn K) : Option (VFn K) :=
  match f, g with
  | .mul f a _, .mul g b _ => mkSum f a g b
  | .mul f a _, g => mkSum f a g 1
  | f, .mul g b _ => mkSum f 1 g b
  | f, g => mkSum f 1 g 1

/-- `__sub__` (2077-2087). -/
def VFn.sub (f g : VFn K) : Option (VFn K) :=
  match f, g with
  | .mul f a _, .mul g b _ => mkSum f a g (-b)
  | .mul f a _, g => mkSum f a g (-1)
  | f, .mul g b _ => mkSum f 1 g (-b)
  | f, g => mkSum f 1 g (-1)

/-- `__mul__` of a vector valued function and a number (2096-2099). -/
def VFn.scale (f : VFn K) (c : K) : VFn K := .mul f c none

/-- `__mul__` of a vector valued function and a function (2092-2095). -/
def VFn.times (f : VFn K) (g : Fn K) : VFn K := .mul f 1 (some g)

/-- `vals[i, j] = v`. -/
def set2 (vals : Nat → Nat → K) (i j : Nat) (v : K) : Nat → Nat → K := fun a b => if a = i ∧ b = j then v else vals a b

/-- `matrixFunction.eval` (2206-2219); `vals` is the array passed in. -/
def matrixEval (rows columns : Nat) (symmetric : Bool) (components : Nat → Nat → Fn K) (x : Nat → K) (vals : Nat → Nat → K) :
    Nat → Nat → K :=
  if symmetric then
    (List.range rows).foldl (fun vals i =>
      (List.range' i (columns - i)).foldl (fun vals j =>
        set2 (set2 vals j i ((components i j).eval x)) i j ((components i j).eval x)) vals) vals
  else
    (List.range rows).foldl (fun vals i =>
      (List.range columns).foldl (fun vals j => set2 vals i j ((components i j).eval x)) vals) vals

/-- `matrixFunction.evalPtr` (2221-2234); the flat array `vals`. -/
def matrixEvalPtr (rows columns : Nat) (symmetric : Bool) (components : Nat → Nat → Fn K) (x : Nat → K) (vals : Nat → K) :
    Nat → K :=
  let set (vals : Nat → K) (p : Nat) (v : K) : Nat → K := fun q => if q = p then v else vals q
  if symmetric then
    (List.range rows).foldl (fun vals i =>
      (List.range' i (columns - i)).foldl (fun vals j =>
        set (set vals (i * columns + j) ((components i j).eval x)) (j * columns + i) ((components i j).eval x)) vals) vals
  else
    (List.range rows).foldl (fun vals i =>
      (List.range columns).foldl (fun vals j => set vals (i * columns + j) ((components i j).eval x)) vals) vals

/-- `affineFunction.eval` (238-244). -/
def affine (dim : Nat) (w : Nat → K) (c : K) (x : Nat → K) : K := (List.range dim).foldl (fun s i => s + x i * w i) c

/-- `sqrtAffineFunction.eval` (271-277). -/
def sqrtAffine (sqrt : K → K) (dim : Nat) (w : Nat → K) (c : K) (x : Nat → K) : K := sqrt (affine dim w c x)

/-- The function that is built from `__reduce__` of `sqrtAffineFunction` (295-296): an `affineFunction`. -/
def sqrtAffineReduced (dim : Nat) (w : Nat → K) (c : K) (x : Nat → K) : K := affine dim w c x

/-- `shiftScaleFunctor.eval` (2300-2305). -/
def shiftScale (f : (Nat → K) → K) (shift scaling : Nat → K) (x : Nat → K) : K := f fun i => scaling i * x i + shift i

end Ring

section Order

variable {K : Type} [Field K] [LinearOrder K] [IsStrictOrderedRing K]

/-- `radialIndicator` (1375-1388): `radius` is the square of the argument, `center` is `None` or an array. -/
structure RadialIndicator (K : Type) where
  radius : K
  center : Option (List K)
  deriving DecidableEq

/-- The constructor of `radialIndicator` (1381-1387). -/
def mkRadial (radius : K) (center : Option (List K)) : RadialIndicator K := ⟨radius ^ 2, center⟩

/-- `radialIndicator.eval` (1389-1399); `True` and `False` as 1 and 0. -/
def RadialIndicator.eval (s : RadialIndicator K) (dim : Nat) (x : Nat → K) : K :=
  let r := match s.center with
    | none => (List.range dim).foldl (fun r i => r + x i * x i) 0
    | some c => (List.range dim).foldl (fun r i => r + (x i - c.getD i 0) * (x i - c.getD i 0)) 0
  if r ≤ s.radius then 1 else 0

/-- `radialIndicator.__eq__` (1401-1416). The missing array of an indicator at the origin has the shape 0. -/
def RadialIndicator.eq (s o : RadialIndicator K) : Bool :=
  if s.radius ≠ o.radius then false
  else if s.center.isNone ≠ o.center.isNone then false
  else (List.range (s.center.getD []).length).all fun i =>
    decide ((s.center.getD []).getD i 0 = (o.center.getD []).getD i 0)

/-- `squareIndicator.eval` (1426-1432). -/
def squareEval (a b : Nat → K) (dim : Nat) (x : Nat → K) : K :=
  if (List.range dim).any fun i => decide (x i < a i) || decide (b i < x i) then 0 else 1

/-- `squareIndicator.__eq__` (1434-1447), `n` is `self.a.shape[0]`. -/
def squareEq (n : Nat) (a b a' b' : Nat → K) : Bool :=
  (List.range n).all fun i => decide (a i = a' i) && decide (b i = b' i)

/-- `proj.eval` (1470-1481): a bound is a number or a function, here a function. -/
def proj (f lower upper : (Nat → K) → K) (x : Nat → K) : K := max (lower x) (min (upper x) (f x))

/-- `indicatorFunctor.eval` (1506-1510). -/
def indicatorFunctor (f indicator : (Nat → K) → K) (threshold : K) (x : Nat → K) : K :=
  if threshold < indicator x then f x else 0

/-- The remainder `a % b` of floating point numbers when the directive `cdivision` is set (`/repo/fem/setup.py:20`): `fmod`, the
quotient is rounded towards zero. -/
def fmod [FloorRing K] (a b : K) : K := a - b * (if 0 ≤ a / b then (⌊a / b⌋ : K) else (⌈a / b⌉ : K))

/-- `periodicityFunctor.eval` (2276-2281). -/
def periodic [FloorRing K] (f : (Nat → K) → K) (period : Nat → K) (x : Nat → K) : K := f fun i => fmod (x i) (period i)

end Order

end PyNucleus.Functions
