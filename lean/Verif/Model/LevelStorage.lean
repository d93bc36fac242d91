import Mathlib.LinearAlgebra.Matrix.Notation

/-!
# Lists of levels, their storage, and the collapsed prolongation

Models multilevelSolver/PyNucleus_multilevelSolver: `getLevelDict` and `fromLevelDict` of mesh levels (levels.py 172-191) and of
algebraic levels (levels.py 309-326, 556-564), the links between levels (levels.py 162-164, 214-219), `hierarchy.getLevelList`,
`fromLevelList`, `buildCollapsedRestrictionProlongation` (hierarchies.py 180-217), `hierarchyConnector.getLevelList`
(connectors.py 107-111), `writeToHDF` and `readFromHDF` (geometricMG.py 174-202).

Simplifications: attributes and dictionaries are functions of the name, `none` stands for `None` and for missing entries; the values are
of any type, and writing a value to a file and reading it gives the value back; `multilevelAlgebraicOverlapManager` is left out.
-/

namespace PyNucleus.LevelStorage

/-- The attributes of an object, or the entries of a dictionary. -/
abbrev Attrs (α : Type) := String → Option α

/-- `getKeys` (levels.py 310-311, 557-558). -/
def algKeys : List String :=
  ["P", "R", "DoFMap", "algebraicOverlaps", "Timer", "A", "S", "D", "M", "surface_mass", "surface_stiffness"]

/-- The keys of a mesh level (levels.py 172-180). -/
def meshKeys : List String := ["mesh", "interfaces", "meshOverlaps"]

/-- The entries of the keys that are not `None`. -/
def dictOf {α : Type} (keys : List String) (a : Attrs α) : Attrs α := fun k => if k ∈ keys then a k else none

/-- `algebraicLevel.getLevelDict` (levels.py 313-318, 560-564); the name in 562 starts with a blank. -/
def algDict {α : Type} (a : Attrs α) : Attrs α := fun k =>
  if (a " neumannA").isSome ∧ k = "neumannA" then a "neumannA" else dictOf algKeys a k

/-- `d.update(d')`. -/
def update {α : Type} (d d' : Attrs α) : Attrs α := fun k => (d' k).or (d k)

/-- A level: the attributes of the algebraic level and of the mesh level. -/
structure Level (α : Type) where
  alg : Attrs α
  mesh : Attrs α

/-- The dictionary of a level (hierarchies.py 185-188). -/
def levelDict {α : Type} (l : Level α) : Attrs α := update (algDict l.alg) (dictOf meshKeys l.mesh)

/-- `fromLevelDict` (levels.py 182-191, 320-326). -/
def fromDict {α : Type} (d : Attrs α) : Level α := ⟨dictOf algKeys d, dictOf meshKeys d⟩

/-- `getLevelList` of a chain of hierarchies, the coarsest first (hierarchies.py 180-189). -/
def levelList {α : Type} (hs : List (List (Level α))) : List (Attrs α) :=
  hs.foldl (fun levels h => levels.dropLast ++ h.map levelDict) []

/-- `fromLevelList` (hierarchies.py 195-210); `meshLevels[0]` raises an exception if there are no levels. -/
def fromList {α : Type} (ls : List (Attrs α)) : Option (List (Level α)) := if ls = [] then none else some (ls.map fromDict)

/-- `previousLevel` of the algebraic levels (levels.py 214-219): the algebraic level that is entered in the previous mesh level, which
`getAlgebraicLevel` (162-164) does and `fromLevelDict` does not. -/
def previous (entered : Bool) (i : Nat) : Option Nat := if i = 0 then none else if entered then some (i - 1) else none

/-- The groups of a file: level, name, value. -/
abbrev File (α : Type) := List (Nat × String × α)

/-- The groups of one level (geometricMG.py 178-182). -/
def groups {α : Type} (i : Nat) (l : Attrs α) : File α :=
  ["P", "R", "A", "mesh"].filterMap fun k => (l k).map fun v => (i, k, v)

/-- `writeToHDF` (174-187): `i` is not defined if there are no levels; `f[str(i)]` raises an exception if the last level has no
group. -/
def write {α : Type} (levels : List (Attrs α)) (mesh : α) : Option (File α) :=
  match levels.getLast? with
  | none => none
  | some l =>
    let n := levels.length - 1
    if groups n l = [] then none
    else
      let f := (levels.zipIdx.map fun p => groups p.2 p.1).flatten
      some (if (l "mesh").isSome then f else f ++ [(n, "mesh", mesh)])

/-- The number of the last level in the file (194-196). -/
def maxLevel {α : Type} (f : File α) : Nat := f.foldr (fun g m => max g.1 m) 0

/-- `readFromHDF` (190-202). -/
def read {α : Type} (f : File α) : List (Attrs α) :=
  (List.range (maxLevel f + 1)).map fun i k =>
    if k ∈ ["P", "R", "A"] then (f.find? fun g => g.1 == i && g.2.1 == k).map (·.2.2) else none

/-- `self.P` of `buildCollapsedRestrictionProlongation` (hierarchies.py 212-216) for levels `0`, …, `k + 1`, where level `i` has `n i`
unknowns and `P i` goes from level `i` to level `i + 1`. -/
def collapsed {K : Type} [CommSemiring K] (n : Nat → Nat) (P : ∀ i, Matrix (Fin (n (i + 1))) (Fin (n i)) K) :
    ∀ k, Matrix (Fin (n (k + 1))) (Fin (n 0)) K
  | 0 => P 0
  | k + 1 => P (k + 1) * collapsed n P k

end PyNucleus.LevelStorage
