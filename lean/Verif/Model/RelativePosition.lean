import Mathlib.Algebra.Order.Field.Basic
import Mathlib.Algebra.Order.Ring.Abs

/-!
# Model of the interaction domains

/repo/nl/PyNucleus_nl/interactionDomains.pyx: membership and relative position of simplices for the classes `ball2_retriangulation` (866-979),
`ball2_barycenter` (982-1066), `ballInf_retriangulation` (1069-1207), `ballInf_barycenter` (1210-1309), `ball2Complement` (1312-1390) and
`linearTransformInteraction` (1393-1538).  The two variants of a ball have the same code for these methods, so there is one model for both.  A point
is a function of the component, a simplex a function of vertex and component.  The parameters `fHORIZON2` and `fKDIM` are the arguments `h2` and
`dim`.  The value `inf` that `dmin2` has before the loops is `none`.
-/

namespace PyNucleus.Interaction

variable {K : Type} [Field K] [LinearOrder K]

abbrev Point (K : Type) := Nat → K
abbrev Simplex (K : Type) := Nat → Nat → K

/-- `RELATIVE_POSITION_t`, interactionDomains.pxd 13-16. -/
inductive Position
  | interact
  | remote
  | cut
  deriving DecidableEq, Repr

/-- Which of the two norms a ball uses. -/
inductive Norm
  | l2
  | linf
  deriving DecidableEq, Repr

/-- The loops over the components: 887-889 (sum of squares), 1110-1112 (largest square). -/
def dist2 (nm : Norm) (dim : Nat) (x y : Point K) : K :=
  match nm with
  | .l2 => (List.range dim).foldl (fun d j => d + (x j - y j) ^ 2) 0
  | .linf => (List.range dim).foldl (fun d j => max d ((x j - y j) ^ 2)) 0

/-- `isInside`, 900-909, 1015-1024, 1123-1130, 1260-1267. -/
def isInside (nm : Norm) (dim : Nat) (h2 : K) (x y : Point K) : Bool := decide (dist2 nm dim x y ≤ h2)

/-- `eval` and `evalPtr` of a ball, 939-963, 1026-1050, 1167-1191, 1269-1293: the value and the attribute `dist2`. -/
def evalBall (nm : Norm) (dim : Nat) (h2 : K) (x y : Point K) : K × K :=
  let d2 := dist2 nm dim x y
  (if d2 ≤ h2 then 1 else 0, d2)

/-- `eval` and `evalPtr` of `ball2Complement`, 1360-1384. -/
def evalComplement (dim : Nat) (h2 : K) (x y : Point K) : K × K :=
  let s := dist2 .l2 dim x y
  (if h2 < s then 1 else 0, s)

/-- Body of the loops over pairs of vertices, 887-891: `dmin2`, `dmax2`. -/
def extremeStep (nm : Norm) (dim : Nat) (s1 s2 : Simplex K) (i : Nat) (st : Option K × K) (k : Nat) : Option K × K :=
  let d2 := dist2 nm dim (s1 i) (s2 k)
  (some (match st.1 with
    | none => d2
    | some m => min m d2), max st.2 d2)

/-- The loops over pairs of vertices, 885-891. -/
def extremes (nm : Norm) (dim n1 n2 : Nat) (s1 s2 : Simplex K) : Option K × K :=
  (List.range n1).foldl (fun st i => (List.range n2).foldl (extremeStep nm dim s1 s2 i) st) (none, 0)

/-- `dmin2 >= horizon2`, 892. -/
def atLeast (h2 : K) : Option K → Bool
  | none => true
  | some d => decide (h2 ≤ d)

/-- `getRelativePosition` of a ball, 875-898, 990-1013, 1098-1121, 1235-1258: the value returned and the new value of the attribute `relPos`. -/
def ballPosition (nm : Norm) (dim n1 n2 : Nat) (h2 : K) (_relPos : Position) (s1 s2 : Simplex K) : Position × Position :=
  let e := extremes nm dim n1 n2 s1 s2
  let p := if atLeast h2 e.1 then Position.remote else if e.2 ≤ h2 then Position.interact else Position.cut
  (p, p)

/-- `getRelativePosition` of `ball2Complement`, 1335-1358. -/
def complementPosition (dim n1 n2 : Nat) (h2 : K) (_relPos : Position) (s1 s2 : Simplex K) : Position × Position :=
  let e := extremes .l2 dim n1 n2 s1 s2
  let p := if atLeast h2 e.1 then Position.interact else if e.2 ≤ h2 then Position.remote else Position.cut
  (p, p)

/-- `transformVectorForward`, 1464-1472, and one vertex of `transformSimplexForwardPoint`, 1474-1481. -/
def forward (dim : Nat) (A : Nat → Nat → K) (x y : Point K) : Point K :=
  fun i => (List.range dim).foldl (fun s j => s + A i j * (y j - x j)) (x i)

/-- `isInside` of `linearTransformInteraction`, 1458-1462; `A` is the transformation at `x`. -/
def insideTransformed (nm : Norm) (dim : Nat) (h2 : K) (A : Point K → Nat → Nat → K) (x y : Point K) : Bool :=
  isInside nm dim h2 x (forward dim (A x) x y)

/-- The loop over the vertices of `simplex2`, 1441-1448, over the vertices `l`: `numInside`, `numOutside`, `doExit`. -/
def countInner (inside : Nat → Bool) : List Nat → Nat × Nat → (Nat × Nat) × Bool
  | [], c => (c, false)
  | k :: l, c =>
    let c := if inside k then (c.1 + 1, c.2) else (c.1, c.2 + 1)
    if 0 < c.1 ∧ 0 < c.2 then (c, true) else countInner inside l c

/-- The loop over the vertices of `simplex1`, 1437-1450. -/
def countOuter (inside : Nat → Nat → Bool) (n2 : Nat) : List Nat → Nat × Nat → Nat × Nat
  | [], c => c
  | i :: l, c =>
    let r := countInner (inside i) (List.range n2) c
    if r.2 then r.1 else countOuter inside n2 l r.1

/-- `getRelativePosition` of `linearTransformInteraction`, 1433-1456: the attribute `relPos` is not assigned. -/
def transformPosition (nm : Norm) (dim n1 n2 : Nat) (h2 : K) (A : Point K → Nat → Nat → K) (relPos : Position) (s1 s2 : Simplex K) :
    Position × Position :=
  let c := countOuter (fun i k => isInside nm dim h2 (s1 i) (forward dim (A (s1 i)) (s1 i) (s2 k))) n2 (List.range n1) (0, 0)
  (if c.2 = 0 then .interact else if c.1 = 0 then .remote else .cut, relPos)

end PyNucleus.Interaction
