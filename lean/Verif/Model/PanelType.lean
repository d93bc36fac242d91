import Verif.Model.ShapeFunctions
import Verif.Model.DoFMap
import Verif.Model.Loops
import Mathlib.Data.Nat.Factorial.Basic
import Mathlib.Algebra.Order.Ring.Unbundled.Rat

/-!
# Model of the relation of two cells

/repo/nl/PyNucleus_nl/nonlocalOperator.pyx 49-86 and nonlocalOperator_{SCALAR}.pxi.  Integers of the masks and of the ranks are natural numbers where they cannot be negative.
Arrays that are not initialised are parameters (`old`).  `none`: an exception or an access outside of an array.
-/

namespace PyNucleus.PanelType

open PyNucleus.Loops PyNucleus.ShapeFunctions

/-- Python's `int.bit_count`. -/
def bitCount (n : Nat) : Nat := ((List.range n).filter n.testBit).length

/-- `onesCountLookup`, nonlocalOperator.pyx 55-57. -/
def onesCountLookup (N : Nat) : List Nat := (List.range (1 <<< N - 1)).map bitCount

/-- One entry of `lehmer`, 71-74: `seen` and the entries computed so far. -/
def lehmerStep (N : Nat) (perm : List Nat) (st : Nat × List Int) (i : Nat) : Option (Nat × List Int) :=
  let seen := st.1 ||| 1 <<< (N - 1 - perm.getD i 0)
  ((onesCountLookup N)[seen >>> (N - perm.getD i 0)]?).map fun ones : Nat => (seen, st.2 ++ [(perm.getD i 0 : Int) - (ones : Int)])

/-- `lehmer`, 68-75: one entry after the other. -/
def lehmer (N : Nat) (perm : List Nat) : Option (List Int) :=
  ((List.range' 1 (N - 1)).foldlM (lehmerStep N perm) (1 <<< (N - 1 - perm.getD 0 0), [(perm.getD 0 0 : Int)])).map Prod.snd

/-- `rank`, 64-79, with `factorials` of 59-61. -/
def rank (N : Nat) (perm : List Nat) : Option Int :=
  (lehmer N perm).map fun l => (List.range N).foldl (fun index i => index + l.getD i 0 * ((N - 1 - i).factorial : Nat)) 0

/-- The arrays of permutations, pxi 81-94; `all` is `itertools.permutations`. -/
def permTable (N : Nat) (all : List (List Nat)) (old : List (List Nat)) : Option (List (List Nat)) :=
  all.foldlM (fun perms perm => (rank N perm).map fun r => perms.set r.toNat perm) old

/-- `precomputedDoFPermutations[r, dofPerm]` for the row `perm`, 98-109: the first dof with the permuted node; `none`: `NotImplementedError`. -/
def dofPerm (nodes : List (List ℚ)) (perm : List Nat) (k : Nat) : Option Nat :=
  (List.range nodes.length).find? fun orig => (List.range perm.length).all fun j =>
    let x := (nodes.getD k []).getD j 0 - (nodes.getD orig []).getD (perm.getD j 0) 0
    decide (x ≤ 1 / 10000000000) && decide (-x ≤ 1 / 10000000000)

/-- Row of `precomputedDoFPermutations`. -/
def dofRow (nodes : List (List ℚ)) (perm : List Nat) : Option (List Nat) := (List.range nodes.length).mapM (dofPerm nodes perm)

/-- `precomputePermutations`, 66-109: the table `precomputedDoFPermutations`. -/
def precompute (N : Nat) (all old : List (List Nat)) (nodes : List (List ℚ)) : Option (List (List Nat)) := (permTable N all old).bind fun perms => perms.mapM (dofRow nodes)

/-- State of `getProtoPanelType`, pxi 313-325. -/
structure Common where
  perm1 : List Nat
  perm2 : List Nat
  mask1 : Nat
  mask2 : Nat
  num : Nat

/-- The inner loop over the vertices of the second cell, 315-325, from vertex number `j`. -/
def matchVertex (c1 c2 : List Nat) (i : Nat) (st : Common) : List Nat → Common
  | [] => st
  | j :: js =>
    if st.mask2 &&& 1 <<< j ≠ 0 then matchVertex c1 c2 i st js
    else if c1.getD i 0 = c2.getD j 0 then ⟨st.perm1.set st.num i, st.perm2.set st.num j, st.mask1 + 1 <<< i, st.mask2 + 1 <<< j, st.num + 1⟩
    else matchVertex c1 c2 i st js

/-- The loop over the vertices of the first cell, 313-325. -/
def findCommon (c1 c2 old1 old2 : List Nat) : Common :=
  (List.range c1.length).foldl (fun st i => matchVertex c1 c2 i st (List.range c2.length)) ⟨old1, old2, 0, 0, 0⟩

/-- `while mask & (1 << i): i += 1`. -/
def skip (mask : Nat) : Nat → Nat → Nat
  | 0, i => i
  | fuel + 1, i => if mask &&& 1 <<< i ≠ 0 then skip mask fuel (i + 1) else i

/-- Filling the other positions, 336-341 and 343-348. -/
def fillRest (num n : Nat) (perm : List Nat) (mask : Nat) : List Nat :=
  (forRange num n (perm, mask, 0) fun st k =>
    let i := skip st.2.1 st.2.1 st.2.2
    (st.1.set k i, st.2.1 + 1 <<< i, i)).1

/-- The loop writing `perm[n + k - shift] = n + row[k]`. -/
def copyDofs (n shift lo hi : Nat) (row : List Nat) (perm : List Nat) : List Nat :=
  forRange lo hi perm fun perm k => perm.set (n + k - shift) (n + row.getD k 0)

/-- The dofs of the second cell, 357-376; `nv` vertices, `n` dofs per element. -/
def secondDofs (E : DoFMap.Element) (nv n num : Nat) (row perm : List Nat) : List Nat :=
  let v := E.perVertex
  let e := E.perEdge
  let f := E.perFace
  if num = 1 then copyDofs n v v n row perm
  else if num = 2 then copyDofs n (2 * v + e) (nv * v + e) n row (copyDofs n (2 * v) (2 * v) (nv * v) row perm)
  else if num = 3 then copyDofs n (3 * v + 3 * e + f) (nv * v + 6 * e + f) n row
    (copyDofs n (3 * v + 3 * e) (nv * v + 3 * e) (nv * v + 6 * e) row (copyDofs n (3 * v) (3 * v) (nv * v) row perm))
  else perm

/-- Result of `getProtoPanelType`. -/
structure Panel where
  panel : Int
  perm1 : List Nat
  perm2 : List Nat
  perm : List Nat

/-- Writing the identity to the first `n` entries. -/
def identity (n : Nat) (perm : List Nat) : List Nat := forRange 0 n perm fun perm k => perm.set k k

/-- `getProtoPanelType`, 280-378.  `IDENTICAL` is minus the number of vertices of the first cell (51-58 with panelTypes.pxi); `IGNORED` is -6;
`table` is `precomputedDoFPermutations`, `n` the number of dofs per element. -/
def protoPanel (symmetricCells : Bool) (E : DoFMap.Element) (n : Nat) (table : List (List Nat)) (cellNo1 cellNo2 : Nat) (c1 c2 old1 old2 old : List Nat) : Option Panel :=
  if symmetricCells ∧ cellNo2 < cellNo1 then some ⟨-6, old1, old2, old⟩
  else if c1.length = c2.length ∧ cellNo1 = cellNo2 then some ⟨-(c1.length : Int), identity c1.length old1, identity c2.length old2, identity n old⟩
  else
    let st := findCommon c1 c2 old1 old2
    if st.num = 0 then some ⟨0, identity c1.length st.perm1, identity c2.length st.perm2, identity n old⟩
    else
      let perm1 := fillRest st.num c1.length st.perm1 st.mask1
      let perm2 := fillRest st.num c2.length st.perm2 st.mask2
      ((rank c1.length perm1).bind fun r => table[r.toNat]?).bind fun row1 =>
        let perm := forRange 0 n old fun perm k => perm.set k (row1.getD k 0)
        if c1.length = c2.length then ((rank c1.length perm2).bind fun r => table[r.toNat]?).map fun row2 => ⟨-(st.num : Int), perm1, perm2, secondDofs E c2.length n st.num row2 perm⟩
        else some ⟨-(st.num : Int), perm1, perm2, perm⟩

/-- The dofs per vertex, edge, face and cell of the elements, DoFMaps.pyx 1797, 1912, 1991-2027, 2121-2185. -/
def element : Nat → Nat → DoFMap.Element
  | 0, _ => ⟨0, 0, 0, 1⟩
  | 1, _ => ⟨1, 0, 0, 0⟩
  | 2, 1 => ⟨1, 0, 0, 1⟩
  | 2, _ => ⟨1, 1, 0, 0⟩
  | _, 1 => ⟨1, 0, 0, 2⟩
  | _, 2 => ⟨1, 2, 0, 1⟩
  | _, _ => ⟨1, 2, 1, 0⟩

section
variable {K : Type} [Field K] [LinearOrder K]

/-- `computeExtremeDistances`, 388-404; `inf` is a parameter larger than all distances. -/
def extremeDistances (dim n1 n2 : Nat) (inf : K) (s1 s2 : Nat → Nat → K) : K × K :=
  forRange 0 n1 (inf, 0) fun d i => forRange 0 n2 d fun d k =>
    let d2 := forRange 0 dim 0 fun d2 j => d2 + (s1 i j - s2 k j) ^ 2
    (min d.1 d2, max d.2 d2)

/-- The three cases of `computeCellPairIdentifier`, 477-491, for finite horizon. -/
inductive Identifier
  | base
  | ignored
  | onHorizon
  deriving DecidableEq

/-- `computeCellPairIdentifier`, 477-491, for finite horizon. -/
def pairIdentifier (dim n1 n2 : Nat) (inf horizon2 : K) (s1 s2 : Nat → Nat → K) : Identifier :=
  let d := extremeDistances dim n1 n2 inf s1 s2
  if d.2 ≤ horizon2 then .base else if horizon2 ≤ d.1 then .ignored else .onHorizon

end

end PyNucleus.PanelType
