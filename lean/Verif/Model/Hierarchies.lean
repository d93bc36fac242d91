import Mathlib.Data.List.GetD

/-!
# Building a hierarchy of levels

Models multilevelSolver/PyNucleus_multilevelSolver: `level` (levels.py:53-77), `meshLevel.refine`, `getAlgebraicLevel`, `clean`
(levels.py:126-170), `algebraicLevelBase` (levels.py:213-307: what is built, and `clean`), `hierarchy` (hierarchies.py:43-96, 125-143).

Simplifications: of a level only its number, the flags and the presence of mesh, dof map and prolongation are
kept; `none` stands for a failing assertion or index.
-/

namespace PyNucleus.Hierarchies

/-- levels.py:35-46. -/
def DOFMAPS : Nat := 1
def RESTRICTION_PROLONGATION : Nat := 2
def SPARSITY_PATTERN : Nat := 4
def OVERLAPS : Nat := 8
def ASSEMBLY : Nat := 16
def NO_BUILD : Nat := 0
def RESTRICTION_PROLONGATION_ONLY : Nat := DOFMAPS + RESTRICTION_PROLONGATION
def SPARSITY_ONLY : Nat := DOFMAPS + OVERLAPS + RESTRICTION_PROLONGATION + SPARSITY_PATTERN
def FULL_BUILD : Nat := DOFMAPS + OVERLAPS + RESTRICTION_PROLONGATION + ASSEMBLY

/-- The values of `keepMeshes`. -/
inductive Keep where
  | all | last | none

/-- The values of `assemble`. -/
inductive Assemble where
  | all | ALL | last | firstLast | dofmapsOnly | none | restrictionProlongation | dofmapOnlyLast

/-- `meshInformationPolicy` (hierarchies.py:55-62); `true` is `KEEP_MESH`. -/
def policy (k : Keep) (noRef : Nat) : List Bool :=
  match k with
  | .all => List.replicate noRef true ++ [true]
  | .last => List.replicate noRef false ++ [true]
  | .none => List.replicate noRef false ++ [false]

/-- `buildType` (hierarchies.py:64-84); `moved` says whether there is a `meshTransformation`. -/
def buildTypes (a : Assemble) (moved : Bool) (noRef : Nat) : List Nat :=
  match a with
  | .all => if moved then List.replicate noRef FULL_BUILD ++ [FULL_BUILD]
      else List.replicate noRef SPARSITY_ONLY ++ [FULL_BUILD]
  | .ALL => List.replicate noRef FULL_BUILD ++ [FULL_BUILD]
  | .last => List.replicate noRef RESTRICTION_PROLONGATION_ONLY ++ [FULL_BUILD]
  | .firstLast => [FULL_BUILD] ++ List.replicate (noRef - 1) RESTRICTION_PROLONGATION_ONLY ++ [FULL_BUILD]
  | .dofmapsOnly => List.replicate (noRef + 1) DOFMAPS
  | .none => List.replicate (noRef + 1) NO_BUILD
  | .restrictionProlongation => List.replicate (noRef + 1) RESTRICTION_PROLONGATION_ONLY
  | .dofmapOnlyLast => List.replicate noRef NO_BUILD ++ [DOFMAPS]

/-- A mesh level with its algebraic level. -/
structure Level where
  /-- the level has a mesh -/
  mesh : Bool
  /-- `meshInformationPolicy` -/
  keep : Bool
  /-- `isLastLevel` -/
  last : Bool
  /-- the `buildType` of the algebraic level -/
  built : Nat
  /-- the algebraic level has a `DoFMap` -/
  dofMap : Bool
  /-- the algebraic level has `R` and `P` -/
  prolongation : Bool
deriving DecidableEq, Repr

/-- `buildType & flag`. -/
def hasFlag (b flag : Nat) : Bool := b &&& flag != 0

/-- `getLevelNo` (levels.py:71-75) of the newest level; the levels are given from the newest one back. -/
def levelNo (start : Nat) : List Level → Nat
  | [] => start
  | [_] => start
  | _ :: rest => levelNo start rest + 1

/-- The algebraic level (levels.py:214-296): the dof map, and the prolongation under the assertion that both dof maps
exist. -/
def algebraic (mesh keep last : Bool) (b : Nat) (previous : Option Level) : Option Level :=
  let dm := hasFlag b DOFMAPS
  match previous with
  | none => some ⟨mesh, keep, last, b, dm, false⟩
  | some p =>
    if hasFlag b RESTRICTION_PROLONGATION then
      if p.dofMap && dm then some ⟨mesh, keep, last, b, dm, true⟩ else none
    else some ⟨mesh, keep, last, b, dm, false⟩

/-- The constructor (hierarchies.py:90-92) for a level with the policy `keep0`. -/
def start (keep0 : Bool) (types : List Nat) : Option (List Level) :=
  match types[0]? with
  | some b => (algebraic true keep0 false b none).map ([·])
  | none => none

/-- `clean` of both levels (levels.py:166-170, 305-307). -/
def clean (keepAll first : Bool) (l : Level) : Level :=
  { l with mesh := l.mesh && l.keep, dofMap := if !keepAll && !first then false else l.dofMap }

/-- `hierarchy.refine` (hierarchies.py:125-138); the levels from the newest one back. -/
def refine (startNo : Nat) (policies : List Bool) (types : List Nat) (keepAll isLast : Bool) (ls : List Level) :
    Option (List Level) :=
  match ls with
  | [] => none
  | top :: rest =>
    match policies[levelNo startNo (top :: rest) + 1 - startNo]?, types[levelNo startNo (top :: rest) + 1 - startNo]? with
    | some keep, some b =>
      if top.last then none
      else (algebraic true keep isLast b (some top)).map fun new => new :: clean keepAll rest.isEmpty top :: rest
    | _, _ => none

/-- The loop of `build` (hierarchies.py:140-142) up to the refinement `k`. -/
def refineTimes (startNo noRef : Nat) (policies : List Bool) (types : List Nat) (keepAll keep0 : Bool) : Nat → Option (List Level)
  | 0 => start keep0 types
  | k + 1 => (refineTimes startNo noRef policies types keepAll keep0 k).bind
      (refine startNo policies types keepAll (k + 1 == noRef))

/-- `hierarchy(...).build()`. -/
def build (startNo noRef : Nat) (k : Keep) (a : Assemble) (moved keepAll keep0 : Bool) : Option (List Level) :=
  refineTimes startNo noRef (policy k noRef) (buildTypes a moved noRef) keepAll keep0 noRef

end PyNucleus.Hierarchies
