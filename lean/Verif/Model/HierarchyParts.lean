import Mathlib.Data.List.Basic

/-!
# Hierarchies of elements, parts of hierarchies, and managers of hierarchies

Models `pCoarsenHierarchy` (multilevelSolver/PyNucleus_multilevelSolver/hierarchies.py:261-284), `meshLevel.copy` (levels.py:152-155),
`hierarchy.getSubHierarchy` (hierarchies.py:249-258, with the constructor 86-94), and on one rank of `hierarchyManager` the communicators
(308-323), `buildHierarchies` (341-360), `getLevelList` (421-425), `getHierarchy` (455-459), `getSubManager` (464-480), `getSubHierarchy` (499-506)
and `getPrintRank` (303-306).

Simplifications: levels and meshes are of any type; the first hierarchy is started by an `inputConnector`, the others by `repartitionConnector`s;
`none` is an exception.
-/

namespace PyNucleus.HierarchyParts

/-- `params['element']`: a list of names, or one name. -/
inductive Elem where
  | names (l : List String)
  | name (s : String)

/-- What `self.elements[i]` ranges over: a text is a sequence of its characters. -/
def Elem.entries : Elem → List String
  | .names l => l
  | .name s => s.toList.map fun c => String.ofList [c]

/-- A level: its mesh, its number, the element and the type of the algebraic level that has been built. -/
structure PLevel (M T : Type) where
  mesh : M
  no : Nat
  element : String
  type : T

/-- The levels, and the dictionary that all levels and the caller share. -/
structure PState (M T : Type) where
  levels : List (PLevel M T)
  param : Elem

variable {M T L : Type}

/-- The constructor (262-268) with the level of the connector (connectors.py:357-363). -/
def pStart (mesh : M) (startNo noRef : Nat) (type : T) (given : Elem) : Option (PState M T) :=
  if noRef + 1 = given.entries.length then
    some ⟨[⟨mesh, startNo, given.entries.getD 0 "", type⟩], .name (given.entries.getD 0 "")⟩
  else none

/-- `pCoarsenHierarchy.refine` (270-279); `copy` does not pass on the type of the algebraic level. -/
def pRefine (standard : T) (elements : List String) (s : PState M T) : PState M T :=
  match s.levels.getLast? with
  | none => s
  | some l =>
    let e := elements.getD s.levels.length ""
    ⟨s.levels ++ [⟨l.mesh, l.no + 1, e, standard⟩], .name e⟩

/-- The loop of `build` (141-142), after `k` refinements. -/
def pLoop (standard : T) (elements : List String) : Nat → PState M T → PState M T
  | 0, s => s
  | k + 1, s => pRefine standard elements (pLoop standard elements k s)

/-- Constructor and `build`. -/
def pBuild (standard : T) (mesh : M) (startNo noRef : Nat) (type : T) (given : Elem) : Option (PState M T) :=
  (pStart mesh startNo noRef type given).map (pLoop standard given.entries noRef)

/-- A hierarchy: its levels, whether it is set up, the number of levels of `multilevelAlgebraicOverlapManager`, and `buildInteriorBL`. -/
structure Hier (L : Type) where
  levels : List L
  setUp : Bool
  overlaps : Option Nat
  interiorBL : Bool

/-- `hierarchy.getSubHierarchy` (249-258); with `buildInteriorBL` the constructor uses the mesh of `None` (86-88). -/
def subHierarchy (h : Hier L) (n : Int) : Option (Hier L) :=
  if 0 ≤ n ∧ n < h.levels.length ∧ h.interiorBL = false then some ⟨h.levels.take (n.toNat + 1), false, h.overlaps, h.interiorBL⟩ else none

/-- `h['comm'] is not None` (310-318). -/
def takesPart (size : Nat) (ranks : List Nat) (rank : Nat) : Bool := if ranks.length < size then ranks.contains rank else true

/-- An entry of `builtHierarchies`: the label, and the hierarchy or an `EmptyHierarchy`. -/
abbrev Built (L : Type) := String × Option (Hier L)

/-- `buildHierarchies` (341-360) on one rank, for labels, ranks, and the hierarchies that the connectors and `build` make; `prev` says whether the
rank takes part in the hierarchy before. -/
def buildAll (size rank : Nat) : Bool → List (String × List Nat × Hier L) → List (Built L)
  | _, [] => []
  | prev, d :: ds =>
    let cur := takesPart size d.2.1 rank
    let globalComm := prev || cur
    (d.1, if globalComm then (if cur then some d.2.2 else none) else none) :: buildAll size rank cur ds

/-- `hierarchy.getLevelList` (180-193) and `getLevelList` of the connectors (connectors.py:107-111), from the newest hierarchy back; an
`EmptyHierarchy` has no such method. -/
def levelList : List (Built L) → Option (List L)
  | [] => some []
  | (_, none) :: _ => none
  | (_, some h) :: bs => (levelList bs).map fun l => l.dropLast ++ h.levels

/-- `hierarchyManager.getLevelList` (421-425); no entry is `None`. -/
def managerLevelList (bs : List (Built L)) : Option (List L) := if bs.isEmpty then none else levelList bs.reverse

/-- `getHierarchy` (455-459). -/
def getHierarchy (bs : List (Built L)) (label : String) : Option (Built L) := bs.find? fun b => b.1 == label

/-- `getSubManager` with a label (465-472): `builtHierarchies`. -/
def subManager (bs : List (Built L)) (label : String) : Option (List (Built L)) :=
  if bs.any (fun b => b.1 == label) then some (bs.take (bs.findIdx (fun b => b.1 == label) + 1)) else none

/-- `getSubManager` without label (473-480). -/
def subManagerLast (bs : List (Built L)) : List (Built L) := bs.take (bs.length - 1)

/-- `hierarchyManager.getSubHierarchy` (499-506): `builtHierarchies`. -/
def managerSubHierarchy (bs : List (Built L)) (n : Int) : Option (List (Built L)) :=
  match bs.getLast? with
  | some (label, some h) => (subHierarchy h n).map fun h' => bs.dropLast ++ [(label, some h')]
  | _ => none

/-- `getPrintRank` (303-306): the minimum over all ranks. -/
def printRank (size : Nat) (last : Nat → Bool) : Nat := (List.range size).foldl (fun m r => min m (if last r then r else size)) size

end PyNucleus.HierarchyParts
