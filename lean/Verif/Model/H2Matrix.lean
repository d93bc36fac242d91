import Mathlib.Algebra.BigOperators.Group.Finset.Basic
import Mathlib.Algebra.Ring.Defs

/-!
# Model: hierarchical matrices

Source: `/repo/nl/PyNucleus_nl/clusterMethodCy.pyx`, `H2Matrix` and the passes of `tree_node`.

Arrays are functions on the indices; sizes of coefficient arrays are stored with the nodes and matrices carry their shape. The attributes `coefficientsUp` and `coefficientsDown` of the
nodes are two stores indexed by the identifiers of the nodes, with arbitrary content before the product. `gemv` and `gemvT` with `beta = 1` are those of BLAS (`opt_true_blas.pxi`, the
default); the variant without BLAS is modelled in `Verif.Model.Blas`. The near-field operator is a matrix; its products are the subject of other properties. Vector-valued products,
timers and HDF5 are not modelled. The cache of `upwardPassMatrix` is left out: it returns for an identifier what is computed here.
-/

namespace PyNucleus.H2

variable {K : Type}

/-- A two-dimensional array with its shape. -/
structure Mat (K : Type) where
  rows : Nat
  cols : Nat
  entry : Nat → Nat → K

/-- `tree_node`: identifier, length of the coefficient arrays, `transferOperator` (not used for the root), and for leaves the dofs and `value[component, k, i]`. -/
inductive Node (K : Type) where
  | leaf (id size : Nat) (T : Mat K) (dofs : List Nat) (value : Nat → Nat → Nat → K)
  | inner (id size : Nat) (T : Mat K) (children : List (Node K))

def Node.id : Node K → Nat
  | .leaf i _ _ _ _ => i
  | .inner i _ _ _ => i

def Node.size : Node K → Nat
  | .leaf _ s _ _ _ => s
  | .inner _ s _ _ => s

def Node.T : Node K → Mat K
  | .leaf _ _ T _ _ => T
  | .inner _ _ T _ => T

mutual

/-- All nodes (`get_tree_nodes`, 697-703). -/
def Node.nodes : Node K → List (Node K)
  | .leaf i s T d v => [.leaf i s T d v]
  | .inner i s T cs => .inner i s T cs :: nodesList cs

def nodesList : List (Node K) → List (Node K)
  | [] => []
  | c :: cs => c.nodes ++ nodesList cs

end

/-- Coefficient arrays of all nodes, by identifier. -/
abbrev Store (K : Type) := Nat → Nat → K

/-- Assignment to the array of one node. -/
def Store.put (s : Store K) (id : Nat) (v : Nat → K) : Store K := fun j => if j = id then v else s j

section ops

variable [CommSemiring K]

/-- `gemv(A, x, y, 1.)`, `/repo/base/PyNucleus_base/opt_true_blas.pxi` 168-193: `y += A x`. -/
def gemv (A : Mat K) (x y : Nat → K) : Nat → K := fun i => if i < A.rows then y i + ∑ j ∈ Finset.range A.cols, A.entry i j * x j else y i

/-- `gemvT(A, x, y, 1.)`, `/repo/base/PyNucleus_base/opt_true_blas.pxi` 222-247: `y += Aᵀ x`. -/
def gemvT (A : Mat K) (x y : Nat → K) : Nat → K := fun j => if j < A.cols then y j + ∑ i ∈ Finset.range A.rows, A.entry i j * x i else y j

/-- Loop over the dofs of a leaf in `upwardPass`, 1111-1117; `k` is the position of the dof. -/
def leafUp (x : Nat → K) (v : Nat → Nat → K) : List Nat → Nat → (Nat → K) → Nat → K
  | [], _, c => c
  | d :: ds, k, c => leafUp x v ds (k + 1) fun i => c i + x d * v k i

/-- Loop over the dofs of a leaf in `downwardPass`, 1165-1172. -/
def leafDown (size : Nat) (c : Nat → K) (v : Nat → Nat → K) : List Nat → Nat → (Nat → K) → Nat → K
  | [], _, y => y
  | d :: ds, k, y => leafDown size c v ds (k + 1) fun j => if j = d then y j + ∑ i ∈ Finset.range size, v k i * c i else y j

mutual

/-- `upwardPass`, 1093-1122, for all dofs. With `skip` the arrays of leaves are left as they are. -/
def upward (x : Nat → K) (comp : Nat) (skip : Bool) : Node K → Store K → Store K
  | .leaf id _ _ dofs value, up => if skip then up else up.put id (leafUp x (value comp) dofs 0 fun _ => 0)
  | .inner id _ _ cs, up => upwardList x comp skip id cs (up.put id fun _ => 0)

/-- Loop over the children, 1120-1122. -/
def upwardList (x : Nat → K) (comp : Nat) (skip : Bool) (id : Nat) : List (Node K) → Store K → Store K
  | [], up => up
  | c :: cs, up =>
    let up := upward x comp skip c up
    upwardList x comp skip id cs (up.put id (gemv c.T (up c.id) (up id)))

end

/-- `resetCoefficientsDown`, 1127-1137. -/
def reset (t : Node K) (down : Store K) : Store K := t.nodes.foldl (fun s n => s.put n.id fun _ => 0) down

mutual

/-- `downwardPass`, 1152-1176, for all dofs. -/
def downward (comp : Nat) : Node K → Store K × (Nat → K) → Store K × (Nat → K)
  | .leaf id size _ dofs value, s => (s.1, leafDown size (s.1 id) (value comp) dofs 0 s.2)
  | .inner id _ _ cs, s => downwardList comp id cs s

/-- Loop over the children, 1174-1176. -/
def downwardList (comp : Nat) (id : Nat) : List (Node K) → Store K × (Nat → K) → Store K × (Nat → K)
  | [], s => s
  | c :: cs, s => downwardList comp id cs (downward comp c (s.1.put c.id (gemvT c.T (s.1 id) (s.1 c.id)), s.2))

end

/-- `farFieldClusterPair` with `kernelInterpolant`. -/
structure Pair (K : Type) where
  n1 : Node K
  n2 : Node K
  S : Mat K

/-- Loop over the far-field pairs in `matvec`, 2289-2292; the levels one after the other. -/
def far (pairs : List (Pair K)) (up down : Store K) : Store K := pairs.foldl (fun s p => s.put p.n1.id (gemv p.S (up p.n2.id) (s p.n1.id))) down

/-- Loop over the far-field pairs in `matvecTrans`, 2369-2372. -/
def farT (pairs : List (Pair K)) (up down : Store K) : Store K := pairs.foldl (fun s p => s.put p.n2.id (gemvT p.S (up p.n1.id) (s p.n2.id))) down

/-- Attributes of an `H2Matrix`: the tree, the far-field pairs, the near field with its number of entries, and the number of components of `value`. -/
structure HMat (K : Type) where
  tree : Node K
  pairs : List (Pair K)
  near : Nat → Nat → K
  nnz : Nat
  n : Nat
  comps : Nat

/-- Coefficient arrays and the result vector. -/
abbrev State (K : Type) := Store K × Store K × (Nat → K)

/-- One component of the far field in `matvec`, 2282-2294. -/
def component (H : HMat K) (tr skip : Bool) (x : Nat → K) (s : State K) (comp : Nat) : State K :=
  let up := upward x comp skip H.tree s.1
  let down := reset H.tree s.2.1
  let down := if tr then farT H.pairs up down else far H.pairs up down
  let r := downward comp H.tree (down, s.2.2)
  (up, r.1, r.2)

/-- The rows of the basis matrix that belong to a node, `constructBasisMatrix`, 1834-1852: for leaves component 0 of `value`. -/
def setLeaf (x : Nat → K) (s : Store K) : Node K → Store K
  | .leaf id _ _ dofs value => s.put id (leafUp x (value 0) dofs 0 fun _ => 0)
  | .inner .. => s

/-- `basis.matvec(x, leafCoefficientsUp)`, 2280: the arrays of the leaves are views of the result. -/
def basisMatvec (x : Nat → K) (t : Node K) (up : Store K) : Store K := t.nodes.foldl (setLeaf x) up

/-- The far field, 2278-2294. -/
def farField (H : HMat K) (tr skip : Bool) (x : Nat → K) (s : State K) : State K :=
  if H.pairs.length > 0 then
    let up := if skip then basisMatvec x H.tree s.1 else s.1
    (List.range H.comps).foldl (component H tr skip x) (up, s.2)
  else s

/-- `matvec`, 2268-2295. The dictionary `Pfar` has no empty levels. -/
def matvec (H : HMat K) (skip : Bool) (x : Nat → K) (s : State K) : State K :=
  let y := if H.nnz > 0 then fun i => ∑ j ∈ Finset.range H.n, H.near i j * x j else fun _ => 0
  farField H false skip x (s.1, s.2.1, y)

/-- `matvec_no_overwrite`, 2297-2316. -/
def matvecAdd (H : HMat K) (skip : Bool) (x : Nat → K) (s : State K) : State K :=
  farField H false skip x (s.1, s.2.1, fun i => s.2.2 i + ∑ j ∈ Finset.range H.n, H.near i j * x j)

/-- `matvecTrans`, 2348-2375, without the basis matrix. -/
def matvecTrans (H : HMat K) (x : Nat → K) (s : State K) : State K :=
  let y := if H.nnz > 0 then fun j => ∑ i ∈ Finset.range H.n, H.near i j * x i else fun _ => 0
  farField H true false x (s.1, s.2.1, y)

/-- `matvecTrans_no_overwrite`, 2377-2396. -/
def matvecTransAdd (H : HMat K) (x : Nat → K) (s : State K) : State K :=
  farField H true false x (s.1, s.2.1, fun j => s.2.2 j + ∑ i ∈ Finset.range H.n, H.near i j * x i)

mutual

/-- `upwardPassMatrix`, 1794-1818: dofs with their rows. -/
def passMatrix : Node K → List (Nat × (Nat → K))
  | .leaf _ _ _ dofs value => dofs.zipIdx.map fun d => (d.1, value 0 d.2)
  | .inner _ _ _ cs => passMatrixList cs

/-- Loop over the children, 1808-1817. -/
def passMatrixList : List (Node K) → List (Nat × (Nat → K))
  | [] => []
  | c :: cs => (passMatrix c).map (fun r => (r.1, fun m => ∑ j ∈ Finset.range c.T.cols, r.2 j * c.T.entry m j)) ++ passMatrixList cs

end

/-- One block of `toarray`, 2589-2596: `dense[I, J] = d[i, j]`. -/
def writeBlock (p : Pair K) (dense : Nat → Nat → K) : Nat → Nat → K :=
  (passMatrix p.n1).foldl (fun D r1 => (passMatrix p.n2).foldl (fun D r2 => fun I J =>
    if I = r1.1 ∧ J = r2.1 then ∑ a ∈ Finset.range p.S.rows, r1.2 a * ∑ b ∈ Finset.range p.S.cols, p.S.entry a b * r2.2 b else D I J) D) dense

/-- `toarray`, 2552-2601. -/
def toarray (H : HMat K) : Nat → Nat → K := H.pairs.foldl (fun D p => writeBlock p D) H.near

end ops

end PyNucleus.H2
