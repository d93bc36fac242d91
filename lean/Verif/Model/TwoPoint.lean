import Mathlib.Analysis.SpecialFunctions.Trigonometric.Arctan
import Mathlib.Analysis.SpecialFunctions.Exp
import Mathlib.Analysis.SpecialFunctions.Pow.Real

/-!
Functions of two points (`/repo/nl/PyNucleus_nl/twoPointFunctions.pyx`, `/repo/nl/PyNucleus_nl/twoPointFunctions_{SCALAR}.pxi`), for
real values.

Points are functions `Nat → ℝ`, `dim` is their length. `none` as a value is NaN, an infinite number, a location that was not
written, or a raised error. Array entries with a negative number of a degree of freedom (outside of the array) are
arbitrary numbers.
-/

namespace PyNucleus.TwoPoint

/-- Subclasses with their members. -/
inductive Data
  /-- `twoPointFunction` (pxi:8-36), whose `eval` raises. -/
  | base
  /-- `lambdaTwoPoint` (pyx:30-52). -/
  | lambda (f : (Nat → ℝ) → (Nat → ℝ) → ℝ)
  /-- `constantTwoPoint` (pxi:139-157). -/
  | constant (value : ℝ)
  /-- `matrixTwoPoint` (pyx:55-106). -/
  | matrix (n : Nat) (mat : Nat → Nat → ℝ)
  /-- `leftRightTwoPoint` (pyx:109-148). -/
  | leftRight (ll rr lr rl interface : ℝ)
  /-- `interfaceTwoPoint` (pyx:151-246). -/
  | interface (horizon1 horizon2 : ℝ) (left : Bool) (interface : ℝ)
  /-- `temperedTwoPoint` (pyx:249-277). -/
  | tempered (lambdaCoeff : ℝ) (dim : Nat)
  /-- `tensorTwoPoint` (pyx:280-321). -/
  | tensor (i j dim : Nat)
  /-- `smoothedLeftRightTwoPoint` (pyx:324-351). -/
  | smoothed (vl vr r slope fac : ℝ)
  /-- `unsymTwoPoint` (pyx:354-377). -/
  | unsym (l r : ℝ)
  /-- `inverseTwoPoint` (pyx:380-397). -/
  | inverse (f : Data)
  /-- `productTwoPoint` and `productParametrizedTwoPoint` (pxi:108-136, 263-306). -/
  | product (f1 f2 : Data)
  /-- `lookupTwoPoint` (pxi:160-246): `find` is `cellFinder.findCell` together with the values of the local shape functions at
  its barycentric coordinates. -/
  | lookup (find : (Nat → ℝ) → Option (Nat × (Nat → ℝ))) (cell2dof : Nat → Nat → Int) (dofs_per_element : Nat)
      (A : Int → Int → ℝ)

/-- A two-point function (pxi:9-11). -/
structure TwoPoint where
  symmetric : Bool
  valueSize : Nat
  data : Data

/-- `d += (x[i]-y[i])**2` (pyx:82-83, 98-99, 267-268, 274-275, 301-302, 314-315). -/
def dist2 (dim : Nat) (x y : Nat → ℝ) : ℝ := (List.range dim).foldl (fun d i => d + (x i - y i) * (x i - y i)) 0

/-- The quadratic form of the normalised difference (pyx:84-91, 101-107). -/
noncomputable def quadratic (dim : Nat) (mat : Nat → Nat → ℝ) (x y : Nat → ℝ) : ℝ :=
  let d := √(dist2 dim x y)
  (List.range dim).foldl (fun s i =>
    (List.range dim).foldl (fun s j => s + (x i - y i) / d * mat i j * ((x j - y j) / d)) s) 0

/-- Points of the strip (pyx:190-246). -/
def inStrip (x : Nat → ℝ) : Prop := 0 < x 1 ∧ x 1 < 1

open Classical in
/-- `interfaceTwoPoint.evalPtr` in one dimension (pyx:169-188). -/
noncomputable def interface1 (h1 h2 : ℝ) (left : Bool) (c : ℝ) (x y : Nat → ℝ) : ℝ :=
  if left then
    if x 0 ≤ c ∧ y 0 ≤ c then 1
    else if c < x 0 ∧ c < y 0 then 0
    else if x 0 ≤ c - h2 ∧ c < y 0 then 1
    else if c < x 0 ∧ y 0 ≤ c - h2 then 1
    else 1 / 2
  else
    if c ≤ x 0 ∧ c ≤ y 0 then 1
    else if x 0 < c ∧ y 0 < c then 0
    else if c + h1 ≤ x 0 ∧ y 0 < c then 1
    else if x 0 < c ∧ c + h1 ≤ y 0 then 1
    else 1 / 2

open Classical in
/-- `interfaceTwoPoint.evalPtr` in two dimensions (pyx:189-246). -/
noncomputable def interface2 (h1 h2 : ℝ) (left : Bool) (c : ℝ) (x y : Nat → ℝ) : ℝ :=
  if left then
    if x 0 ≤ c ∧ inStrip x then
      if y 0 ≤ c ∧ inStrip y then 1
      else if c < y 0 ∧ inStrip y then if x 0 ≤ c - h2 then 1 else 1 / 2
      else 1
    else if c < x 0 ∧ inStrip x then
      if y 0 ≤ c ∧ inStrip y then 1 / 2
      else if c < y 0 ∧ inStrip y then 0
      else 0
    else
      if y 0 ≤ c ∧ inStrip y then 1 else 0
  else
    if c ≤ x 0 ∧ inStrip x then
      if c ≤ y 0 ∧ inStrip y then 1
      else if y 0 < c ∧ inStrip y then if c + h1 ≤ x 0 then 1 else 1 / 2
      else 1
    else if x 0 < c ∧ inStrip x then
      if c ≤ y 0 ∧ inStrip y then if y 0 ≤ c + h1 then 1 / 2 else 1
      else if y 0 < c ∧ inStrip y then 0
      else 0
    else
      if c ≤ y 0 ∧ inStrip y then 1 else 0

/-- The values of the local shape functions, 0 for the dofs on the boundary (pxi:180-187, 193-200, 217-224, 230-237). -/
def localVals (cell2dof : Nat → Nat → Int) (c : Nat × (Nat → ℝ)) (k : Nat) : ℝ := if 0 ≤ cell2dof c.1 k then c.2 k else 0

/-- The double loop of `lookupTwoPoint` (pxi:202-207, 239-244). -/
def lookupSum (cell2dof : Nat → Nat → Int) (dpe : Nat) (A : Int → Int → ℝ) (c1 c2 : Nat × (Nat → ℝ)) : ℝ :=
  (List.range dpe).foldl (fun v k1 =>
    (List.range dpe).foldl (fun v k2 =>
      v + localVals cell2dof c1 k1 * A (cell2dof c1.1 k1) (cell2dof c2.1 k2) * localVals cell2dof c2 k2) v) 0

open Classical in
/-- `evalPtr`. -/
noncomputable def Data.evalPtr (f : Data) (dim : Nat) (x y : Nat → ℝ) : Option ℝ :=
  match f with
  | .base => none
  | .lambda f => some (f x y)
  | .constant v => some v
  | .matrix _ mat => if 0 < dist2 dim x y then some (quadratic dim mat x y) else some 1
  | .leftRight ll rr lr rl c =>
    some (if x 0 < c then if y 0 < c then ll else lr else if y 0 < c then rl else rr)
  | .interface h1 h2 left c =>
    if dim = 1 then some (interface1 h1 h2 left c x y) else if dim = 2 then some (interface2 h1 h2 left c x y) else none
  | .tempered lam _ => some (Real.exp (-lam * √(dist2 dim x y)))
  | .tensor i j d => some (if 0 < dist2 d x y then (x i - y i) * (x j - y j) / dist2 d x y else 1)
  | .smoothed vl vr _ slope fac =>
    some (1 / 2 * (vl + vr) + 1 / 2 * (vr - vl) * Real.arctan (x 0 * slope) * fac)
  | .unsym l r => some (if x 0 < y 0 then l else r)
  | .inverse f => (f.evalPtr dim x y).bind fun v => if v = 0 then none else some (1 / v)
  | .product f1 f2 => (f1.evalPtr dim x y).bind fun v1 => (f2.evalPtr dim x y).map fun v2 => v1 * v2
  | .lookup find cell2dof dpe A =>
    match find x, find y with
    | some c1, some c2 => some (lookupSum cell2dof dpe A c1 c2)
    | _, _ => some 0

open Classical in
/-- `eval`: the same as `evalPtr`, except for `matrixTwoPoint` (pyx:75-91, which divides by a vanishing distance),
`temperedTwoPoint` (pyx:262-269, which uses its member `dim`), `inverseTwoPoint` (pyx:385-387). Products call `evalPtr`
(pxi:117-122). -/
noncomputable def Data.eval (f : Data) (dim : Nat) (x y : Nat → ℝ) : Option ℝ :=
  match f with
  | .matrix _ mat => if 0 < dist2 dim x y then some (quadratic dim mat x y) else none
  | .tempered lam d => some (Real.exp (-lam * √(dist2 d x y)))
  | .inverse f => (f.eval dim x y).bind fun v => if v = 0 then none else some (1 / v)
  | f => f.evalPtr dim x y

/-- `lambdaTwoPoint(fun, symmetric)`. -/
def mkLambda (f : (Nat → ℝ) → (Nat → ℝ) → ℝ) (symmetric : Bool) : TwoPoint := ⟨symmetric, 1, .lambda f⟩

/-- `constantTwoPoint(value)`. -/
def mkConstant (v : ℝ) : TwoPoint := ⟨true, 1, .constant v⟩

open Classical in
/-- `matrixTwoPoint(mat)` (pyx:56-65) for a square matrix. -/
noncomputable def mkMatrix (n : Nat) (mat : Nat → Nat → ℝ) : TwoPoint :=
  ⟨decide (¬∃ i < n, ∃ j, i ≤ j ∧ j < n ∧ 1 / 10 ^ 12 < |mat i j - mat j i|), 1, .matrix n mat⟩

/-- `np.isfinite` selects the argument or the mean (pyx:111-114). -/
noncomputable def orMean (a b : ℝ) : Option ℝ → ℝ
  | some v => v
  | none => 1 / 2 * (a + b)

open Classical in
/-- `leftRightTwoPoint(ll, rr, lr, rl, interface)` (pyx:110-121). -/
noncomputable def mkLeftRight (ll rr : ℝ) (lr rl : Option ℝ) (interface : ℝ) : TwoPoint :=
  let lr := orMean ll rr lr
  let rl := orMean ll rr rl
  ⟨decide (rl = lr), 1, .leftRight ll rr lr rl interface⟩

/-- `interfaceTwoPoint(horizon1, horizon2, left, interface)` (pyx:152-157). -/
def mkInterface (h1 h2 : ℝ) (left : Bool) (interface : ℝ) : TwoPoint := ⟨true, 1, .interface h1 h2 left interface⟩

/-- `temperedTwoPoint(lambdaCoeff, dim)` (pyx:250-253). -/
def mkTempered (lam : ℝ) (dim : Nat) : TwoPoint := ⟨true, 1, .tempered lam dim⟩

/-- `tensorTwoPoint(i, j, dim)` (pyx:284-288). -/
def mkTensor (i j dim : Nat) : TwoPoint := ⟨true, 1, .tensor i j dim⟩

/-- `smoothedLeftRightTwoPoint(vl, vr, r, slope)` (pyx:325-331). -/
noncomputable def mkSmoothed (vl vr r slope : ℝ) : TwoPoint :=
  ⟨false, 1, .smoothed vl vr r slope (1 / Real.arctan (r * slope))⟩

open Classical in
/-- `unsymTwoPoint(l, r)` (pyx:355-358). -/
noncomputable def mkUnsym (l r : ℝ) : TwoPoint := ⟨decide (l = r), 1, .unsym l r⟩

/-- `inverseTwoPoint(f)` (pyx:381-383). -/
def mkInverse (f : TwoPoint) : TwoPoint := ⟨f.symmetric, 1, .inverse f.data⟩

/-- `productTwoPoint(f1, f2)` with its assertions (pxi:109-114). -/
def mkProduct (f1 f2 : TwoPoint) : Option TwoPoint :=
  if f1.valueSize = 1 ∧ f2.valueSize = 1 then some ⟨f1.symmetric && f2.symmetric, 1, .product f1.data f2.data⟩ else none

/-- `lookupTwoPoint(dm, A, symmetric)` (pxi:161-170). -/
def mkLookup (find : (Nat → ℝ) → Option (Nat × (Nat → ℝ))) (cell2dof : Nat → Nat → Int) (dpe : Nat) (A : Int → Int → ℝ)
    (symmetric : Bool) : TwoPoint := ⟨symmetric, 1, .lookup find cell2dof dpe A⟩

/-- `__mul__` of two functions (pxi:73-83). -/
noncomputable def mul (f1 f2 : TwoPoint) : Option TwoPoint :=
  match f1.data, f2.data with
  | .constant a, .constant b => some (mkConstant (a * b))
  | _, _ => mkProduct f1 f2

/-- `fixedX(x)`, `fixedY(y)`, `diagonal()` (pxi:38-45, 86-105). -/
noncomputable def fixedX (f : TwoPoint) (dim : Nat) (x : Nat → ℝ) : (Nat → ℝ) → Option ℝ := fun z => f.data.evalPtr dim x z

/-- See `fixedX`. -/
noncomputable def fixedY (f : TwoPoint) (dim : Nat) (y : Nat → ℝ) : (Nat → ℝ) → Option ℝ := fun z => f.data.evalPtr dim z y

/-- See `fixedX`. -/
noncomputable def diagonal (f : TwoPoint) (dim : Nat) : (Nat → ℝ) → Option ℝ := fun z => f.data.evalPtr dim z z

/-- The object that is built from the pair returned by `__reduce__` (pxi:35-36, 135-136, 156-157, 246-247; pyx:51-52, 67-68,
123-124, 159-160, 255-256, 290-291, 333-334, 360-361, 396-397). The second entry for `matrixTwoPoint` is a matrix instead of a
tuple, which is rejected. Members that are two-point functions are kept; their own encoding is by the same method. -/
noncomputable def reduce (f : TwoPoint) : Option TwoPoint :=
  match f.data with
  | .base => some ⟨f.symmetric, f.valueSize, .base⟩
  | .lambda g => some (mkLambda g f.symmetric)
  | .constant v => some (mkConstant v)
  | .matrix _ _ => none
  | .leftRight ll rr lr rl c => some (mkLeftRight ll rr (some lr) (some rl) c)
  | .interface h1 h2 left c => some (mkInterface h1 h2 left c)
  | .tempered lam dim => some (mkTempered lam dim)
  | .tensor i j dim => some (mkTensor i j dim)
  | .smoothed vl vr r slope _ => some (mkSmoothed vl vr r slope)
  | .unsym l r => some (mkUnsym l r)
  | .inverse g => some (mkInverse ⟨f.symmetric, 1, g⟩)
  | .product f1 f2 => mkProduct ⟨f.symmetric, 1, f1⟩ ⟨f.symmetric, 1, f2⟩
  | .lookup find cell2dof dpe A => some (mkLookup find cell2dof dpe A f.symmetric)

end PyNucleus.TwoPoint
