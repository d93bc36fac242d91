import Mathlib.Algebra.Order.Field.Basic

/-!
# Selection of near-field and far-field cluster pairs

`nl/PyNucleus_nl/clusterMethodCy.pyx` lines 33–40, 121–128, 4046–4215 and `nl/PyNucleus_nl/interactionDomains.pyx` lines 311–337.

Simplifications: a cluster is a value of an arbitrary type `ν` and its data are read by functions; real numbers are elements of an ordered field, the square root is a parameter;
`refine(False)` of a leaf visited with `attemptRefinement` happens before its children are looked at, `children` are the children after that attempt; all clusters share the
parameters `eta` and `maxLevels` of `refParams`; the dictionary `Pfar` of lists is one list of pairs tagged with their level; the recursion depth is bounded by `maxLevels`, it is
started with a level of at most `maxLevels`.
-/

namespace PyNucleus.ClusterPairs

/-- `REAL_t[:, ::1] box`: lower and upper bound in each dimension. -/
abbrev Box (K : Type) := List (K × K)

section boxes

variable {K : Type} [Field K] [LinearOrder K]

/-- `merge_boxes` (clusterMethodCy.pyx 33–39). -/
def mergeBoxes : Box K → Box K → Box K
  | (a1, b1) :: r, (a2, b2) :: s => (min a1 a2, max b1 b2) :: mergeBoxes r s
  | _, _ => []

/-- `diamBox` (clusterMethodCy.pyx 121–127) before the square root. -/
def diam2 : Box K → K
  | (a, b) :: r => (b - a) ^ 2 + diam2 r
  | [] => 0

/-- `distBoxes` (interactionDomains.pyx 311–323) before the square root. -/
def dist2 : Box K → Box K → K
  | (l1, h1) :: r, (l2, h2) :: s =>
    let (b1, a2) := if l1 > l2 then (h2, l1) else (h1, l2)
    max (a2 - b1) 0 ^ 2 + dist2 r s
  | _, _ => 0

/-- `maxDistBoxes` (interactionDomains.pyx 325–337) before the square root. -/
def maxDist2 : Box K → Box K → K
  | (l1, h1) :: r, (l2, h2) :: s =>
    let (b1, a2) := if l1 > l2 then (l2, h1) else (l1, h2)
    max (a2 - b1) 0 ^ 2 + maxDist2 r s
  | _, _ => 0

end boxes

/-- The cluster tree and the kernel as far as the selection reads them. -/
structure Setup (ν K : Type) where
  /-- `n.box` -/
  box : ν → Box K
  /-- `n.get_dofs()` (249–258) -/
  dofs : ν → List Nat
  /-- `n.children`, after the attempt to refine -/
  children : ν → List ν
  /-- `n.mixed_node` -/
  mixed : ν → Bool
  /-- `n.canBeAssembled` -/
  assembled : ν → Bool
  /-- `n.interpolation_order` -/
  order : ν → Nat
  /-- `refParams.eta` -/
  eta : K
  /-- `refParams.maxLevels` -/
  maxLevels : Nat
  /-- `kernel.dim` -/
  dim : Nat
  /-- `kernel.horizon.value`; `none` is an infinite horizon -/
  horizon : Option K
  /-- `kernel.complement` -/
  complement : Bool
  /-- `sqrt` -/
  sqrt : K → K

variable {ν K : Type} [Field K] [LinearOrder K]

/-- `n.get_num_dofs()` (282–293). -/
def Setup.numDofs (S : Setup ν K) (n : ν) : Nat := (S.dofs n).length

/-- `kernel.interaction.distBoxes(n1.box, n2.box)` -/
def Setup.dist (S : Setup ν K) (n1 n2 : ν) : K := S.sqrt (dist2 (S.box n1) (S.box n2))

/-- `kernel.interaction.maxDistBoxes(n1.box, n2.box)` -/
def Setup.maxDist (S : Setup ν K) (n1 n2 : ν) : K := S.sqrt (maxDist2 (S.box n1) (S.box n2))

/-- `diamBox(n.box)` -/
def Setup.diam (S : Setup ν K) (n : ν) : K := S.sqrt (diam2 (S.box n))

/-- `(n1.interpolation_order*n2.interpolation_order)**kernel.dim` (4067) -/
def Setup.farSize (S : Setup ν K) (n1 n2 : ν) : Nat := (S.order n1 * S.order n2) ^ S.dim

/-- `seemsAdmissible` (4068) -/
def Setup.seems (S : Setup ν K) (n1 n2 : ν) : Bool :=
  decide (S.eta * S.dist n1 n2 ≥ max (S.diam n1) (S.diam n2)) && !S.mixed n1 && !S.mixed n2 && decide (S.farSize n1 n2 ≤ S.numDofs n1 * S.numDofs n2) && S.assembled n1 && S.assembled n2

/-- Outcome of the tests on a pair. -/
inductive Verdict where
  | zero
  | admissible
  | inadmissible
deriving DecidableEq

/-- The tests of lines 4068–4087, also `queryAdmissibility` (4008–4043). -/
def verdict (S : Setup ν K) (n1 n2 : ν) : Verdict :=
  match S.horizon with
  | none => if S.seems n1 n2 then .admissible else .inadmissible
  | some h =>
    if !S.complement && decide (S.dist n1 n2 > h) then .zero
    else if S.complement && decide (S.maxDist n1 n2 ≤ h) then .zero
    else if S.dist n1 n2 ≤ h ∧ h ≤ S.maxDist n1 n2 then .inadmissible
    else if S.seems n1 n2 then .admissible else .inadmissible

/-- `diamUnion < horizonValue`, where `diamUnion = 0` for an infinite horizon (4088–4090, 4112, 4133). -/
def fits (S : Setup ν K) (n1 n2 : ν) : Bool :=
  match S.horizon with
  | none => true
  | some h => decide (S.sqrt (diam2 (mergeBoxes (S.box n1) (S.box n2))) < h)

/-- The pairs the recursion visits, in the order of the loops (4116–4131). -/
def childPairs (S : Setup ν K) (n1 n2 : ν) : List (ν × ν) :=
  if (S.children n1).isEmpty then (S.children n2).map fun t2 => (n1, t2)
  else if (S.children n2).isEmpty then (S.children n1).map fun t1 => (t1, n2)
  else (S.children n1).flatMap fun t1 => (S.children n2).map fun t2 => (t1, t2)

/-- `Pfar` and `Pnear`. -/
structure Pairs (ν : Type) where
  far : List (Nat × ν × ν)
  near : List (ν × ν)

/-- One call in the loops: `addedFarFieldClusters |= getAdmissibleClusters(…)`. -/
def visit (rec : ν → ν → Pairs ν → Pairs ν × Bool) (acc : Pairs ν × Bool) (p : ν × ν) : Pairs ν × Bool :=
  let r := rec p.1 p.2 acc.1
  (r.1, acc.2 || r.2)

/-- Lines 4132–4136, after the recursion: `st` is the state before it. -/
def merge (S : Setup ν K) (n1 n2 : ν) (st : Pairs ν) (r : Pairs ν × Bool) : Pairs ν × Bool :=
  if !r.2 && fits S n1 n2 then ({ r.1 with near := r.1.near.take st.near.length ++ [(n1, n2)] }, false) else r

/-- `getAdmissibleClusters` (4046–4136) at level `maxLevels - rem`. -/
def getAdmissible (S : Setup ν K) : Nat → ν → ν → Pairs ν → Pairs ν × Bool
  | 0, n1, n2, st =>
    match verdict S n1 n2 with
    | .zero => (st, true)
    | .admissible => ({ st with far := st.far ++ [(S.maxLevels, n1, n2)] }, true)
    | .inadmissible => ({ st with near := st.near ++ [(n1, n2)] }, false)
  | rem + 1, n1, n2, st =>
    match verdict S n1 n2 with
    | .zero => (st, true)
    | .admissible => ({ st with far := st.far ++ [(S.maxLevels - (rem + 1), n1, n2)] }, true)
    | .inadmissible =>
      if (S.children n1).isEmpty && (S.children n2).isEmpty then ({ st with near := st.near ++ [(n1, n2)] }, false)
      else if decide (S.farSize n1 n2 > S.numDofs n1 * S.numDofs n2) && fits S n1 n2 then ({ st with near := st.near ++ [(n1, n2)] }, false)
      else merge S n1 n2 st ((childPairs S n1 n2).foldl (visit (getAdmissible S rem)) (st, false))

/-- `dist > horizonValue` (4158) -/
def beyond (S : Setup ν K) (n1 n2 : ν) : Bool :=
  match S.horizon with
  | none => false
  | some h => decide (S.dist n1 n2 > h)

/-- `maxDist <= horizonValue` (4160) -/
def inside (S : Setup ν K) (n1 n2 : ν) : Bool :=
  match S.horizon with
  | none => true
  | some h => decide (S.maxDist n1 n2 ≤ h)

/-- `getCoveringClusters` (4140–4194) at level `maxLevels - rem`; the returned flag is not used. -/
def getCovering (S : Setup ν K) : Nat → ν → ν → List (ν × ν) → List (ν × ν)
  | rem, n1, n2, near =>
    if beyond S n1 n2 || S.numDofs n1 == 0 || S.numDofs n2 == 0 then near
    else if inside S n1 n2 then near ++ [(n1, n2)]
    else if ((S.children n1).isEmpty && (S.children n2).isEmpty) then near ++ [(n1, n2)]
    else match rem with
      | 0 => near ++ [(n1, n2)]
      | r + 1 => (childPairs S n1 n2).foldl (fun acc p => getCovering S r p.1 p.2 acc) near

end PyNucleus.ClusterPairs
