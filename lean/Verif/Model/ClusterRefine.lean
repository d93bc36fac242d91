import Verif.Model.ClusterPairs
import Verif.Model.IndexSet

/-!
# Refinement of clusters

`nl/PyNucleus_nl/clusterMethodCy.pyx` lines 42–60, 155–201, 354–663, 692–755.

Simplifications: real numbers are elements of an ordered field; `np.median` and the tolerance `1e-12` are parameters; the sets that are filled and turned into sorted index sets are
filters of the sorted list of dofs; `np.inf` in the box of a node is replaced by starting with the first dof; interpolation orders are not modelled; `none` and `error` stand for an
invalid list access or a failed assertion.
-/

namespace PyNucleus.ClusterRefine

open PyNucleus.ClusterPairs

/-- `refinementType` -/
inductive RefType where
  | geometric
  | barycenter
  | median
deriving DecidableEq

/-- `refinementParams` as far as `refine` reads them, and the data of the dofs. -/
structure Params (K : Type) where
  refType : RefType
  maxLevels : Nat
  maxLevelsMixed : Nat
  minSize : Nat
  minMixedSize : Nat
  splitEveryDim : Bool
  /-- `np.median` -/
  med : List K → K
  /-- `1e-12` -/
  eps : K
  /-- `self.coords[i, :]` -/
  coords : Nat → List K
  /-- `self.boxes[i, :, :]` -/
  boxes : Nat → Box K

variable {K : Type} [Field K] [LinearOrder K]

/-- `inBox` (52–60) -/
def inBox : Box K → List K → Bool
  | (a, b) :: r, v :: s => decide (a ≤ v) && decide (v < b) && inBox r s
  | _, _ => true

/-- The box of a node, computed by `init` (181–190). -/
def hull (P : Params K) : List Nat → Box K
  | [] => []
  | i :: r => r.foldl (fun b j => mergeBoxes b (P.boxes j)) (P.boxes i)

/-- `coords[i, j]` -/
def Params.coord (P : Params K) (i j : Nat) : K := (P.coords i).getD j 0

/-- Mean of the coordinates (400–407, 469–477). -/
def mean (P : Params K) (dofs : List Nat) (j : Nat) : K := (dofs.map fun i => P.coord i j).sum / (dofs.length : K)

/-- The centre of the box in dimension `j`. -/
def centre (box : Box K) (j : Nat) : K := 1 / 2 * ((box.getD j (0, 0)).1 + (box.getD j (0, 0)).2)

/-- `splitDimension` (584–589): the first dimension in which the box is largest. -/
def splitDimension (box : Box K) : Nat × K :=
  (List.range box.length).foldl (fun acc i =>
    if i = 0 then acc else
    let size := (box.getD i (0, 0)).2 - (box.getD i (0, 0)).1
    if size > acc.2 then (i, size) else acc) (0, (box.getD 0 (0, 0)).2 - (box.getD 0 (0, 0)).1)

/-- Two sets of dofs: those in the sub-box and the others (420–428, 609–617). -/
def halves (P : Params K) (dofs : List Nat) (subbox : Box K) : List (List Nat × Bool) :=
  [(dofs.filter fun i => inBox subbox (P.coords i), false), (dofs.filter fun i => !inBox subbox (P.coords i), false)]

/-- The four quadrants (493–502), which may be empty. -/
def quadrants (P : Params K) (dofs : List Nat) (s0 s1 : K) : List (List Nat × Bool) :=
  let k i := (if P.coord i 0 > s0 then 1 else 0) + (if P.coord i 1 > s1 then 2 else 0)
  (List.range 4).map fun q => (dofs.filter fun i => k i == q, true)

/-- Splitting by the median in both dimensions (519–552): the first set of each half may be empty. -/
def medians (P : Params K) (dofs : List Nat) : List (List Nat × Bool) :=
  let m0 := P.med (dofs.map fun i => P.coord i 0)
  let part (blob : List Nat) : List (List Nat × Bool) :=
    let m1 := P.med (blob.map fun i => P.coord i 1)
    [(blob.filter fun i => decide (P.coord i 1 < m1), true), (blob.filter fun i => !decide (P.coord i 1 < m1), false)]
  part (dofs.filter fun i => decide (P.coord i 0 < m0)) ++ part (dofs.filter fun i => decide (P.coord i 0 ≥ m0))

/-- `maxNumChildren` and the sets of dofs of the children in the order in which they are looked at, with a mark if an empty set is skipped. -/
def candidates (P : Params K) (mixed : Bool) (dofs : List Nat) (box : Box K) : Nat × List (List Nat × Bool) :=
  if box.length = 1 then
    let m0 := match P.refType with
      | .geometric => centre box 0
      | .barycenter => mean P dofs 0
      | .median => P.med (dofs.map fun i => P.coord i 0)
    (2, halves P dofs [((box.getD 0 (0, 0)).1, m0)])
  else if box.length = 2 ∧ !mixed ∧ P.splitEveryDim then
    (4, match P.refType with
      | .geometric => quadrants P dofs (centre box 0) (centre box 1)
      | .barycenter => quadrants P dofs (mean P dofs 0) (mean P dofs 1)
      | .median => medians P dofs)
  else
    let d := (splitDimension box).1
    let wide := box.map fun iv => (iv.1 - P.eps, iv.2 + P.eps)
    (2, halves P dofs (match P.refType with
      | .geometric => wide.modify d fun iv => (iv.1, centre box d)
      | .barycenter => wide
      | .median => wide.modify d fun iv => (iv.1, P.med (dofs.map fun i => P.coord i d))))

/-- Identifier of child `k` (lines 437–441 and the like); `//` is floor division. -/
def childId (lvl : Nat) (id : Int) (root M : Nat) (k : Nat) : Int :=
  if lvl > 0 then
    let lvlID := id - ((root : Int) * ((M : Int) ^ (lvl - 1) - 1) / ((M : Int) - 1) + 1)
    (root : Int) * ((M : Int) ^ lvl - 1) / ((M : Int) - 1) + 1 + (M : Int) * lvlID + k
  else k + 1

/-- What `refine` does with a node. -/
inductive Outcome where
  | leaf
  | split (children : List (List Nat × Int))
  | error
deriving DecidableEq

/-- The checks and appends for each set (430–458, 503–518, 553–580): `children[k].id = …` after `children.append`. -/
def collect (minSize n : Nat) (idOf : Nat → Int) : List (List Nat × Bool) → Nat → List (List Nat × Int) → Outcome
  | [], _, acc => .split acc
  | (s, skip) :: rest, k, acc =>
    if s.length ≥ minSize ∧ s.length < n then
      if k = acc.length then collect minSize n idOf rest (k + 1) (acc ++ [(s, idOf k)]) else .error
    else if s.length = 0 ∧ skip then collect minSize n idOf rest (k + 1) acc
    else .leaf

/-- Lines 642–655: at least two children, all dofs are in them. -/
def finish (n : Nat) : Outcome → Outcome
  | .split cs => if cs.length ≤ 1 then .leaf else if (cs.map fun c => c.1.length).sum = 0 ∨ (cs.map fun c => c.1.length).sum = n then .split cs else .error
  | o => o

/-- `refine(False)` (354–655) of a leaf on level `lvl` with identifier `id`; `root` is `numRootChildren`. -/
def refine (P : Params K) (mixed : Bool) (root : Nat) (lvl : Nat) (id : Int) (dofs : List Nat) : Outcome :=
  if (!mixed && (decide (lvl + 1 ≥ P.maxLevels) || decide (dofs.length ≤ P.minSize))) || (mixed && (decide (lvl + 1 ≥ P.maxLevelsMixed) || decide (dofs.length ≤ P.minMixedSize))) then .leaf
  else
    let c := candidates P mixed dofs (hull P dofs)
    finish dofs.length (collect P.minSize dofs.length (childId lvl id root c.1) c.2 0 [])

/-- A cluster tree: dofs are stored in the leaves only (642–651). -/
inductive Tree where
  | leaf (id : Int) (dofs : List Nat)
  | node (id : Int) (children : List Tree)

/-- `refine(True)` (354–663) of a node; `rem` bounds the number of further levels. -/
def build (P : Params K) (mixed : Bool) (root : Nat) : Nat → Nat → Int → List Nat → Option Tree
  | 0, _, id, dofs => some (.leaf id dofs)
  | rem + 1, lvl, id, dofs =>
    match refine P mixed root lvl id dofs with
    | .leaf => some (.leaf id dofs)
    | .error => none
    | .split cs => (cs.mapM fun c => build P mixed root rem (lvl + 1) c.2 c.1).map (.node id)

/-- `refine(True)` of the root: the number of its children is `numRootChildren` for all other nodes (339–352, with `irregularLevelsOffset = 1`). -/
def buildRoot (P : Params K) (mixed : Bool) (dofs : List Nat) : Option Tree :=
  match refine P mixed 0 0 0 dofs with
  | .leaf => some (.leaf 0 dofs)
  | .error => none
  | .split cs => (cs.mapM fun c => build P mixed cs.length (if mixed then P.maxLevelsMixed else P.maxLevels) 1 c.2 c.1).map (.node 0)

mutual

/-- `get_dofs` (249–258) -/
def Tree.getDofs : Tree → List Int
  | .leaf _ dofs => dofs.map Int.ofNat
  | .node _ cs => dofsList [] cs

/-- The loop of `get_dofs`. -/
def dofsList (acc : List Int) : List Tree → List Int
  | [] => acc
  | c :: cs => dofsList (IndexSet.unionFill acc c.getDofs) cs

end

mutual

/-- `get_num_dofs` (282–293) without the cache. -/
def Tree.numDofs : Tree → Nat
  | .leaf _ dofs => dofs.length
  | .node _ cs => numDofsList cs

/-- The loop of `get_num_dofs`. -/
def numDofsList : List Tree → Nat
  | [] => 0
  | c :: cs => c.numDofs + numDofsList cs

end

mutual

/-- The identifiers of all nodes, in the order of `get_tree_nodes` (697–703). -/
def Tree.ids : Tree → List Int
  | .leaf id _ => [id]
  | .node id cs => id :: idsList cs

/-- The loop of `get_tree_nodes`. -/
def idsList : List Tree → List Int
  | [] => []
  | c :: cs => c.ids ++ idsList cs

end

end PyNucleus.ClusterRefine
