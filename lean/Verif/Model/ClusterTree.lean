import Verif.Model.ClusterRefine
import Mathlib.Data.List.Dedup

/-!
# Model: traversals and trimming of cluster trees

Source: `/repo/nl/PyNucleus_nl/clusterMethodCy.pyx`.

Trees are `ClusterRefine.Tree` (identifier, dofs in the leaves). Generators are the lists of the values they yield. A node with its ancestors is a list, the node first and the root last.
Bit arrays (`bitArray`) are predicates or lists of the identifiers that have been set.
-/

namespace PyNucleus.ClusterTree

open PyNucleus.ClusterRefine

/-- `id` of a node. -/
def rootId : ClusterRefine.Tree → Int
  | .leaf id _ => id
  | .node id _ => id

/-- `children` of a node. -/
def children : ClusterRefine.Tree → List ClusterRefine.Tree
  | .leaf _ _ => []
  | .node _ cs => cs

mutual

/-- `leaves`, lines 687-695. -/
def leaves : ClusterRefine.Tree → List ClusterRefine.Tree
  | .leaf id dofs => [.leaf id dofs]
  | .node _ cs => leavesList cs

/-- Loop over the children in `leaves`, lines 693-695. -/
def leavesList : List ClusterRefine.Tree → List ClusterRefine.Tree
  | [] => []
  | c :: cs => leaves c ++ leavesList cs

end

mutual

/-- `get_tree_nodes`, lines 697-703. -/
def nodes : ClusterRefine.Tree → List ClusterRefine.Tree
  | .leaf id dofs => [.leaf id dofs]
  | .node id cs => .node id cs :: nodesList cs

/-- Loop over the children in `get_tree_nodes`, lines 701-703. -/
def nodesList : List ClusterRefine.Tree → List ClusterRefine.Tree
  | [] => []
  | c :: cs => nodes c ++ nodesList cs

end

/-- `get_nodes`, lines 305-309: the number of nodes. -/
def numNodes (t : ClusterRefine.Tree) : Nat := (nodes t).length

/-- `get_tree_nodes_up_to_level`, lines 705-713. -/
def upTo : Nat → ClusterRefine.Tree → List ClusterRefine.Tree
  | 0, t => [t]
  | l + 1, t => t :: (children t).flatMap (upTo l)

/-- `get_tree_nodes_on_level`, lines 715-723, for levels that are not negative. The recursive call is `get_tree_nodes_up_to_level`. -/
def onLevel : Nat → ClusterRefine.Tree → List ClusterRefine.Tree
  | 0, t => [t]
  | l + 1, t => (children t).flatMap (upTo l)

mutual

/-- `_getLevels`, lines 725-735. -/
def levels : ClusterRefine.Tree → Nat
  | .leaf _ _ => 1
  | .node _ cs => 1 + levelsList cs

/-- Loop over the children in `_getLevels`, lines 732-734. -/
def levelsList : List ClusterRefine.Tree → Nat
  | [] => 0
  | c :: cs => max (levels c) (levelsList cs)

end

mutual

/-- `getNumNodesOnLevel`, lines 742-751. The level becomes negative below it. -/
def numNodesOnLevel (l : Int) : ClusterRefine.Tree → Nat
  | .leaf _ _ => if l = 0 then 1 else 0
  | .node _ cs => (if l = 0 then 1 else 0) + numNodesOnLevelList (l - 1) cs

/-- Loop over the children in `getNumNodesOnLevel`, lines 749-750. -/
def numNodesOnLevelList (l : Int) : List ClusterRefine.Tree → Nat
  | [] => 0
  | c :: cs => numNodesOnLevel l c + numNodesOnLevelList l cs

end

mutual

/-- `getNumLeavesOnLevel`, lines 753-762. -/
def numLeavesOnLevel (l : Int) : ClusterRefine.Tree → Nat
  | .leaf _ _ => if l = 0 then 1 else 0
  | .node _ cs => (if l = 0 ∧ cs.length = 0 then 1 else 0) + numLeavesOnLevelList (l - 1) cs

/-- Loop over the children in `getNumLeavesOnLevel`, lines 760-761. -/
def numLeavesOnLevelList (l : Int) : List ClusterRefine.Tree → Nat
  | [] => 0
  | c :: cs => numLeavesOnLevel l c + numLeavesOnLevelList l cs

end

/-- The recursion of `getParent`, lines 773-777, for a negative argument `-1 - k`: `k` steps towards the root; `none` if there is no parent. -/
def climb : Nat → List ClusterRefine.Tree → Option ClusterRefine.Tree
  | _, [] => none
  | 0, n :: _ => some n
  | k + 1, _ :: r => climb k r

/-- `getParent`, lines 770-777, of the first node of the list. A level that is not negative counts from the root; the assertion fails for a level below the node. -/
def getParent (chain : List ClusterRefine.Tree) (l : Int) : Option ClusterRefine.Tree :=
  let l' := if l ≥ 0 then l - ((chain.length : Int) - 1) - 1 else l
  if l' < 0 then climb (-1 - l').toNat chain else none

mutual

/-- `findNodeForDoF`, lines 1820-1832. -/
def findNode (dof : Nat) : ClusterRefine.Tree → Option ClusterRefine.Tree
  | .leaf id dofs => if dof ∈ dofs then some (.leaf id dofs) else none
  | .node _ cs => findNodeList dof cs

/-- Loop over the children in `findNodeForDoF`, lines 1829-1832. -/
def findNodeList (dof : Nat) : List ClusterRefine.Tree → Option ClusterRefine.Tree
  | [] => none
  | c :: cs =>
    match findNode dof c with
    | some n => some n
    | none => findNodeList dof cs

end

mutual

/-- `set_id`, lines 1445-1451: the tree with the new identifiers and the result. -/
def setId (m : Int) : ClusterRefine.Tree → ClusterRefine.Tree × Int
  | .leaf _ dofs => (.leaf m dofs, m + 1)
  | .node _ cs => (.node m (setIdList (m + 1) cs).1, (setIdList (m + 1) cs).2)

/-- Loop over the children in `set_id`, lines 1449-1450. -/
def setIdList (m : Int) : List ClusterRefine.Tree → List ClusterRefine.Tree × Int
  | [] => ([], m)
  | c :: cs => ((setId m c).1 :: (setIdList (setId m c).2 cs).1, (setIdList (setId m c).2 cs).2)

end

mutual

/-- `get_max_id`, lines 1453-1459. -/
def maxId : ClusterRefine.Tree → Int
  | .leaf id _ => id
  | .node id cs => maxIdList id cs

/-- Loop over the children in `get_max_id`, lines 1457-1458. -/
def maxIdList (m : Int) : List ClusterRefine.Tree → Int
  | [] => m
  | c :: cs => maxIdList (max m (maxId c)) cs

end

mutual

/-- `idsAreUnique`, lines 665-678: the result and the identifiers that have been set. -/
def idsUnique (used : List Int) : ClusterRefine.Tree → Bool × List Int
  | .leaf id _ => if id ∈ used then (false, used) else (true, id :: used)
  | .node id cs =>
    if id ∈ (idsUniqueList used cs).2 then (false, (idsUniqueList used cs).2) else ((idsUniqueList used cs).1, id :: (idsUniqueList used cs).2)

/-- Loop over the children in `idsAreUnique`, lines 671-672. -/
def idsUniqueList (used : List Int) : List ClusterRefine.Tree → Bool × List Int
  | [] => (true, used)
  | c :: cs => ((idsUnique used c).1 && (idsUniqueList (idsUnique used c).2 cs).1, (idsUniqueList (idsUnique used c).2 cs).2)

end

/-- The children of the trimmed children, lines 1482-1486. -/
def adopt (ts : List ClusterRefine.Tree) : List ClusterRefine.Tree := ts.flatMap children

mutual

/-- `trim`, lines 1461-1490: `delNode` and the tree that is left. `keep` is `keep.inSet`; dofs of a node that becomes a leaf are those of `get_dofs`. -/
def trim (keep : Int → Bool) : ClusterRefine.Tree → Bool × ClusterRefine.Tree
  | .leaf id dofs => (!keep id, .leaf id dofs)
  | .node id cs =>
    let r := trimList keep cs
    let newChildren := r.filter fun x => !x.1
    let delNode := !keep id && newChildren.isEmpty
    let delAll := r.all Prod.fst
    if cs.length ≠ 0 ∧ newChildren.length = 0 then (delNode, .leaf id ((Tree.getDofs (.node id (r.map Prod.snd))).map Int.toNat))
    else if cs.length > 0 ∧ delAll then (delNode, .node id (adopt (r.map Prod.snd)))
    else (delNode, .node id (r.map Prod.snd))

/-- Loop over the children in `trim`, lines 1468-1473. -/
def trimList (keep : Int → Bool) : List ClusterRefine.Tree → List (Bool × ClusterRefine.Tree)
  | [] => []
  | c :: cs => trim keep c :: trimList keep cs

end

/-- `trimTree`, lines 4218-4239, without communicator: the identifiers of near-field and far-field pairs, of the nodes in `keep` and of the levels up to `irregularLevelsOffset` are set. -/
def trimTree (t : ClusterRefine.Tree) (near far : List (Int × Int)) (keep : List Int) (offset : Nat) : ClusterRefine.Tree :=
  let used := keep ++ near.flatMap (fun p => [p.1, p.2]) ++ far.flatMap (fun p => [p.1, p.2]) ++ (upTo offset t).map rootId
  (trim (fun i => decide (i ∈ used)) t).2

/-- `while` loop of `symmetrizeNearFieldClusters`, lines 4208-4215. `pop` is the position of the element that `set.pop` removes. -/
def symLoop (pop : List (Int × Int) → Nat) : Nat → List (Int × Int) → List (Int × Int) → List (Int × Int)
  | 0, _, out => out
  | fuel + 1, clusters, out =>
    if clusters.length > 0 then
      let p := clusters.getD (pop clusters % clusters.length) (0, 0)
      let rest := clusters.eraseIdx (pop clusters % clusters.length)
      if p.1 ≠ p.2 then
        if (p.2, p.1) ∉ rest then symLoop pop fuel rest (out ++ [(p.2, p.1)])
        else symLoop pop fuel (rest.erase (p.2, p.1)) out
      else symLoop pop fuel rest out
    else out

/-- `symmetrizeNearFieldClusters`, lines 4197-4215. A pair is the pair of its identifiers; `lookup` returns the node with an identifier. -/
def symmetrize (pop : List (Int × Int) → Nat) (near : List (Int × Int)) : List (Int × Int) :=
  symLoop pop near.dedup.length near.dedup near

end PyNucleus.ClusterTree
