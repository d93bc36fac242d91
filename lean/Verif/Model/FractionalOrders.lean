import Mathlib.Algebra.Order.Field.Basic

/-!
Fractional orders (`/repo/nl/PyNucleus_nl/fractionalOrders.pyx`).

Numbers are from an ordered field, `none` as an argument is NaN, `none` as a value is a raised error or a call of an unset
function pointer. Points are functions `Nat → K`; the coordinates below `dim` are read. `eval` and `evalPtr` have the same
bodies, except for `sumFractionalOrder`. Objects that are passed by reference (arrays, functions) are values.

Not modelled: `smoothLeftRight` (uses `atan`, not used by an order), `singleVariableTwoPointFunction`, `__repr__`.
-/

namespace PyNucleus.FractionalOrders

variable {K : Type} [Field K] [LinearOrder K] [IsStrictOrderedRing K]

/-- Functions of one point with derivatives with respect to parameters (`extendedFunction`,
fractionalOrders.pyx:124-129). -/
inductive SFun (K : Type)
  /-- `constantExtended` (338-358). -/
  | constant (value : K)
  /-- `smoothStep` (390-444). -/
  | smoothStep (sl sr r slope interface : K)
  /-- `linearStep` (447-497). -/
  | linearStep (sl sr r slope interface : K)
  /-- `lookupExtended` (541-628): a finite element function. `find` is `cellFinder.findCell` together with the values of the
  local shape functions at its barycentric coordinates. -/
  | lookup (find : (Nat → K) → Option (Nat × (Nat → K))) (cell2dof : Nat → Nat → Int) (dofs_per_element : Nat) (u : Nat → K)

/-- The constructor of `smoothStep` (398-403). -/
def mkSmoothStep (sl sr r interface : K) : SFun K := .smoothStep sl sr r ((1 / 2) / r) interface

/-- The constructor of `linearStep` (451-456). -/
def mkLinearStep (sl sr r interface : K) : SFun K := .linearStep sl sr r ((1 / 2) * (sr - sl) / r) interface

/-- `3*t**2 - 2*t**3` with `t = (x-interface)*slope+0.5` (410, 417, 427). -/
def cubic (x interface slope : K) : K :=
  3 * ((x - interface) * slope + 1 / 2) ^ 2 - 2 * ((x - interface) * slope + 1 / 2) ^ 3

/-- `eval` and `evalPtr` of extended functions (345-349, 405-417, 458-470, 557-587). -/
def SFun.eval (f : SFun K) (x : Nat → K) : Option K :=
  match f with
  | .constant value => some value
  | .smoothStep sl sr r slope interface =>
    if x 0 < interface - r then some sl
    else if interface + r < x 0 then some sr
    else some (sl + (sr - sl) * cubic (x 0) interface slope)
  | .linearStep sl sr r slope interface =>
    if x 0 < interface - r then some sl
    else if interface + r < x 0 then some sr
    else some (sl + slope * (x 0 - interface + r))
  | .lookup find cell2dof dpe u =>
    (find x).map fun c =>
      (List.range dpe).foldl (fun val k =>
        let dof := cell2dof c.1 k
        if 0 ≤ dof then val + c.2 k * u dof.toNat else val) 0

/-- `evalGrad` and `evalGradPtr` of extended functions (351-355, 419-441, 472-494, 589-619); the array `grad` as a
function. -/
def SFun.grad (f : SFun K) (x : Nat → K) : Option (Nat → K) :=
  match f with
  | .constant _ => some fun _ => 1
  | .smoothStep _ _ r slope interface =>
    let fac :=
      if x 0 < interface - r then 0
      else if interface + r < x 0 then 1
      else cubic (x 0) interface slope
    some fun i => if i = 0 then 1 - fac else fac
  | .linearStep _ _ r _ interface =>
    let fac :=
      if x 0 < interface - r then 0
      else if interface + r < x 0 then 1
      else (1 / 2) * (x 0 - interface + r) / r
    some fun i => if i = 0 then 1 - fac else fac
  | .lookup find cell2dof dpe _ =>
    (find x).map fun c =>
      (List.range dpe).foldl (fun (grad : Nat → K) k =>
        let dof := cell2dof c.1 k
        if 0 ≤ dof then fun i => if i = dof.toNat then grad i + c.2 k else grad i else grad) fun _ => 0

/-- The members and the entries of `c_params` that belong to a subclass. -/
inductive Data (K : Type)
  /-- `constFractionalOrder` (72-93). -/
  | const (value : K)
  /-- `variableConstFractionalOrder` (203-217). -/
  | variableConst (value : K)
  /-- `fractionalOrderBase` (45-69), whose `eval` raises. -/
  | base
  /-- `lambdaFractionalOrder` (185-194). -/
  | lambda (dim : Nat) (fun_ : (Nat → K) → (Nat → K) → K)
  /-- `singleVariableUnsymmetricFractionalOrder` (153-180). -/
  | single (sFun : SFun K)
  /-- `piecewiseConstantFractionalOrder` (237-282). -/
  | piecewise (dim : Nat) (blockIndicator : (Nat → K) → Int) (numBlocks : Nat) (sVals : Nat → Nat → K)
  /-- `leftRightFractionalOrder` (305-335). -/
  | leftRight (sll srr slr srl interface : K)
  /-- `innerOuterFractionalOrder` (699-733); `mem i` is the contents of `c_params+fSLOPE+i*OFFSET`, which is read as
  `center[i]`. -/
  | innerOuter (dim : Nat) (sii soo sio soi r2 : K) (mem : Nat → K)
  /-- `islandsFractionalOrder` (791-823). -/
  | islands (sii soo sio soi r r2 : K)
  /-- `layersFractionalOrder` (858-896). -/
  | layers (dim numLayers : Nat) (layerBoundaries : Nat → K) (layerOrders : Nat → Nat → K)
  /-- `sumFractionalOrder` (735-751). -/
  | sum (s1 : Data K) (fac1 : K) (s2 : Data K) (fac2 : K)

/-- A fractional order (fractionalOrders.pyx:45-51). -/
structure Order (K : Type) where
  min : K
  max : K
  symmetric : Bool
  numParameters : Nat
  data : Data K

/-- `np.isfinite` selects the argument or the mean (307-310, 706-709, 793-796). -/
def orMean (a b : K) : Option K → K
  | some v => v
  | none => (1 / 2) * (a + b)

/-- `min([a, b, c, d])`. -/
def min4 (a b c d : K) : K := min (min (min a b) c) d

/-- `max([a, b, c, d])`. -/
def max4 (a b c d : K) : K := max (max (max a b) c) d

/-- `constFractionalOrder(s)` (73-75). -/
def constFractionalOrder (s : K) : Order K := ⟨s, s, true, 1, .const s⟩

/-- `variableConstFractionalOrder(s)` (207-211). -/
def variableConstFractionalOrder (s : K) : Order K := ⟨s, s, true, 1, .variableConst s⟩

/-- `lambdaFractionalOrder(dim, smin, smax, symmetric, fun)` (189-194). -/
def lambdaFractionalOrder (dim : Nat) (smin smax : K) (symmetric : Bool) (f : (Nat → K) → (Nat → K) → K) : Order K :=
  ⟨smin, smax, symmetric, 1, .lambda dim f⟩

/-- `singleVariableUnsymmetricFractionalOrder(sFun, smin, smax, numParameters)` (154-156) with the assertion of line 51. -/
def singleVariable (sFun : SFun K) (smin smax : K) (numParameters : Nat) : Option (Order K) :=
  if 1 ≤ numParameters then some ⟨smin, smax, false, numParameters, .single sFun⟩ else none

/-- `constantNonSymFractionalOrder(s)` (635-638). -/
def constantNonSym (s : K) : Option (Order K) := singleVariable (.constant s) s s 1

/-- `smoothedLeftRightFractionalOrder(sl, sr, r, slope, interface)` (642-645). -/
def smoothedLeftRight (sl sr r interface : K) : Option (Order K) :=
  singleVariable (mkSmoothStep sl sr r interface) (min sl sr) (max sl sr) 2

/-- `linearLeftRightFractionalOrder(sl, sr, r, interface)` (649-651). -/
def linearLeftRight (sl sr r interface : K) : Option (Order K) :=
  singleVariable (mkLinearStep sl sr r interface) (min sl sr) (max sl sr) 2

/-- `smoothedInnerOuterFractionalOrder` (655-657): `numParameters` has its default 0. The function `smoothStepRadial` (500-538)
is a parameter. -/
def smoothedInnerOuter (smoothStepRadial : SFun K) (sl sr : K) : Option (Order K) :=
  singleVariable smoothStepRadial (min sl sr) (max sl sr) 0

/-- `feFractionalOrder(vec, smin, smax)` (664-667). -/
def feFractionalOrder (find : (Nat → K) → Option (Nat × (Nat → K))) (cell2dof : Nat → Nat → Int)
    (dofs_per_element num_dofs : Nat) (u : Nat → K) (smin smax : K) : Option (Order K) :=
  singleVariable (.lookup find cell2dof dofs_per_element u) smin smax num_dofs

/-- The values of a matrix row by row. -/
def entries (n : Nat) (a : Nat → Nat → K) : List K := (List.range n).flatMap fun i => (List.range n).map fun j => a i j

/-- `sVals` after the loop 243-250, `none` for a failed assertion. The loop writes off the diagonal and reads the
diagonal. -/
def fillBlocks (n : Nat) (sVals : Nat → Nat → Option K) : Option (Nat → Nat → K) :=
  if (List.range n).all fun i => (sVals i i).isSome then
    some fun i j => orMean ((sVals i i).getD 0) ((sVals j j).getD 0) (sVals i j)
  else none

/-- `piecewiseConstantFractionalOrder(dim, blockIndicator, sVals)` (238-263); `numpy.min` raises for an empty array. -/
def piecewiseConstant (dim : Nat) (blockIndicator : (Nat → K) → Int) (n : Nat) (sVals : Nat → Nat → Option K) :
    Option (Order K) :=
  (fillBlocks n sVals).bind fun a =>
    (entries n a).min?.bind fun smin =>
      (entries n a).max?.bind fun smax =>
        (entries n fun i j => |a i j - a j i|).max?.map fun m =>
          ⟨smin, smax, decide (m < 1 / 10 ^ 10), 1, .piecewise dim blockIndicator n a⟩

/-- `leftRightFractionalOrder(sll, srr, slr, srl, interface)` (306-319). -/
def leftRight (sll srr : K) (slr srl : Option K) (interface : K) : Order K :=
  let slr := orMean sll srr slr
  let srl := orMean sll srr srl
  ⟨min4 sll srr slr srl, max4 sll srr slr srl, decide (slr = srl), 1, .leftRight sll srr slr srl interface⟩

/-- `innerOuterFractionalOrder(dim, sii, soo, r, center, sio, soi)` (705-719): `center[0]` alone is stored, the following
entries of `c_params` are uninitialised (`junk`). -/
def innerOuter (dim : Nat) (sii soo r : K) (center : Nat → K) (sio soi : Option K) (junk : Nat → K) : Order K :=
  let sio := orMean sii soo sio
  let soi := orMean sii soo soi
  ⟨min4 sii soo sio soi, max4 sii soo sio soi, decide (sio = soi), 1,
    .innerOuter dim sii soo sio soi (r * r) fun i => if i = 0 then center 0 else junk i⟩

/-- `islandsFractionalOrder(sii, soo, r, r2, sio, soi)` (792-805). -/
def islands (sii soo r r2 : K) (sio soi : Option K) : Order K :=
  let sio := orMean sii soo sio
  let soi := orMean sii soo soi
  ⟨min4 sii soo sio soi, max4 sii soo sio soi, decide (sio = soi), 1, .islands sii soo sio soi r r2⟩

/-- `layersFractionalOrder(dim, layerBoundaries, layerOrders)` (863-888). `numLayers + 1` boundaries; `none` for no layer,
where `min` would be `inf`. -/
def layers (dim numLayers : Nat) (layerBoundaries : Nat → K) (layerOrders : Nat → Nat → K) : Option (Order K) :=
  (entries numLayers layerOrders).min?.map fun smin =>
    ⟨smin, (entries numLayers layerOrders).foldl max 0,
      (List.range numLayers).all fun i => (List.range numLayers).all fun j => decide (layerOrders i j = layerOrders j i),
      1, .layers dim numLayers layerBoundaries layerOrders⟩

/-- Orders that are instances of `variableFractionalOrder`. -/
def Data.isVariable : Data K → Bool
  | .const _ => false
  | .base => false
  | _ => true

/-- `sumFractionalOrder(s1, fac1, s2, fac2)` (740-745). -/
def sumFractionalOrder (s1 : Order K) (fac1 : K) (s2 : Order K) (fac2 : K) : Option (Order K) :=
  if s1.data.isVariable && s2.data.isVariable then
    some ⟨min s1.min s2.min, max s1.max s2.max, s1.symmetric && s2.symmetric, 1, .sum s1.data fac1 s2.data fac2⟩
  else none

/-- `variableFractionalOrder.__add__` (116-118). -/
def add (s1 s2 : Order K) : Option (Order K) := sumFractionalOrder s1 1 s2 1

/-- `r2x += (x[i]-center[i])**2` (687-688). -/
def radius2 (dim : Nat) (mem x : Nat → K) : K := (List.range dim).foldl (fun s i => s + (x i - mem i) ^ 2) 0

/-- The loops 766-770 and 772-776. -/
def inIsland (r r2 : K) (x : Nat → K) : Bool := (List.range 2).all fun i => decide (r ≤ |x i| ∧ |x i| ≤ r2)

/-- The index of the layer (835-844). -/
def layerOf (numLayers : Nat) (b : Nat → K) (c : K) : Nat :=
  if c ≤ b 0 then 0
  else if b numLayers ≤ c then numLayers - 1
  else ((List.range numLayers).find? fun i => decide (b i ≤ c ∧ c ≤ b (i + 1))).getD 0

/-- `evalPtr`: the function stored in `c_params` or the overriding method (106-109, 177-182, 197-200, 220-234, 285-302, 673-696, 755-788, 826-855). `sumFractionalOrder` does not set it. -/
def Data.evalPtr (s : Data K) (x y : Nat → K) : Option K :=
  match s with
  | .const v => some v
  | .variableConst v => some v
  | .base => none
  | .lambda _ f => some (f x y)
  | .single f => f.eval x
  | .piecewise _ ind n a =>
    if 0 ≤ ind x ∧ ind x < n ∧ 0 ≤ ind y ∧ ind y < n then some (a (ind x).toNat (ind y).toNat) else some (-1)
  | .leftRight sll srr slr srl interface =>
    some (if x 0 < interface then if y 0 < interface then sll else slr else if y 0 < interface then srl else srr)
  | .innerOuter dim sii soo sio soi r2 mem =>
    let r2x := radius2 dim mem x
    let r2y := radius2 dim mem y
    if r2x < r2 ∧ r2y < r2 then some sii
    else if r2 ≤ r2x ∧ r2 ≤ r2y then some soo
    else if r2x < r2 ∧ r2 ≤ r2y then some sio
    else if r2 ≤ r2x ∧ r2y < r2 then some soi
    else none
  | .islands sii soo sio soi r r2 =>
    some (if inIsland r r2 x then if inIsland r r2 y then sii else sio else if inIsland r r2 y then soi else soo)
  | .layers dim n b orders => some (orders (layerOf n b (x (dim - 1))) (layerOf n b (y (dim - 1))))
  | .sum _ _ _ _ => none

/-- `eval` (101-104); `sumFractionalOrder.eval` (747-751) calls `evalPtr` of the summands. -/
def Order.eval (s : Order K) (x y : Nat → K) : Option K :=
  match s.data with
  | .sum s1 _ s2 _ => (s1.evalPtr x y).bind fun val1 => (s2.evalPtr x y).map fun val2 => val1 * val2
  | d => d.evalPtr x y

/-- `evalGrad` (83-87, 164-168); not implemented by other classes. -/
def Order.evalGrad (s : Order K) (x _y : Nat → K) : Option (Nat → K) :=
  match s.data with
  | .const _ => some fun _ => 1
  | .single f => f.grad x
  | _ => none

/-- The object that is built from the pair returned by `__reduce__` (68-69, 92-93, 173-174, 216-217, 265-271, 321-327, 669-670,
720-728, 807-814, 890-892). `feFractionalOrder` rebuilds the function from its vector. `junk` is the uninitialised memory of the
new object. -/
def Order.reduce (sqrt : K → K) (junk : Nat → K) (s : Order K) : Option (Order K) :=
  match s.data with
  | .const v => some (constFractionalOrder v)
  | .variableConst v => some (variableConstFractionalOrder v)
  | .single f => singleVariable f s.min s.max s.numParameters
  | .piecewise dim ind n a => piecewiseConstant dim ind n fun i j => some (a i j)
  | .leftRight sll srr slr srl interface => some (leftRight sll srr (some slr) (some srl) interface)
  | .innerOuter dim sii soo sio soi r2 mem => some (innerOuter dim sii soo (sqrt r2) mem (some sio) (some soi) junk)
  | .islands sii soo sio soi r r2 => some (islands sii soo r r2 (some sio) (some soi))
  | .layers dim n b orders => layers dim n b orders
  | .lambda _ _ | .sum _ _ _ _ | .base => some ⟨s.min, s.max, s.symmetric, s.numParameters, .base⟩

end PyNucleus.FractionalOrders
