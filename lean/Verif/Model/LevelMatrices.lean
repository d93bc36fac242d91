import Mathlib.Algebra.Module.LinearMap.Defs

/-!
# The matrices on the levels of a hierarchy

Models multilevelSolver/PyNucleus_multilevelSolver/levels.py: `algebraicLevel.build` (355, 359-411) and
`algebraicLevel.buildCoarserMatrices` (508-554).

Simplifications: a matrix in CSR format is an element of a module over the scalars; the triple product of
`P.restrictMatrix(A, Ac)` is a map of matrices (it is the subject of C16), which is added to `Ac`; the matrices
of assembly are parameters; shapes, surface matrices and overlaps are left out.  `none` as a result stands
for an exception.
-/

namespace PyNucleus.LevelMatrices

variable {K V : Type}

/-- The attribute `A`: `None`, the same object as `S`, or a matrix of its own. -/
inductive ARef (V : Type) where
  | absent
  | alias
  | own (a : V)

/-- The parameter `reaction`: `None`, a float, or a function (391-411, 533-551). -/
inductive Reaction (K : Type) where
  | none
  | const (c : K)
  | func

/-- An algebraic level.  `P` is the triple product with the prolongation from the next coarser level
(`R` and `P` are set together, 291-296, 502-506), `dm` is multiplication from the left with the diagonal matrix of the
interpolated reaction, if there is a `DoFMap`. -/
structure Level (V : Type) where
  S : Option V
  D : Option V
  M : Option V
  A : ARef V
  P : Option (V → V)
  dm : Option (V → V)
  full : Bool

/-- The matrix that `A` refers to. -/
def Level.matA (l : Level V) : Option V :=
  match l.A with
  | .absent => none
  | .alias => l.S
  | .own a => some a

variable [Semiring K] [AddCommMonoid V] [Module K V]

/-- `SPARSITY_PATTERN` (359-371): matrices of zeros; the mass matrix if `buildMass or reaction is not None`. -/
def sparsity (mass drift : Bool) (P dm : Option (V → V)) : Level V :=
  ⟨some 0, if drift then some 0 else none, if mass then some 0 else none, .absent, P, dm, false⟩

/-- `ASSEMBLY` (373-411) from the assembled matrices. -/
def assemble (r : Reaction K) (S : V) (D : Option V) (M : V) (buildMass : Bool) (P dm : Option (V → V)) :
    Option (Level V) :=
  match r with
  | .none => some ⟨some S, D, if buildMass then some M else none, .alias, P, dm, true⟩
  | .const c => some ⟨some S, D, some M, .own (S + c • M), P, dm, true⟩
  | .func => dm.map fun scale => ⟨some S, D, some M, .own (S + scale M), P, dm, true⟩

/-- `self.P.restrictMatrix(X, previousLevel.X)` under its condition (514-530). -/
def restrictInto (P : Option (V → V)) (X X' : Option V) (full : Bool) : Option V :=
  match X, P, X' with
  | some x, some p, some x' => if full then some x' else some (x' + p x)
  | _, _, _ => X'

/-- The attribute `A` after 519-520. -/
def aliasA (P : Option (V → V)) (S S' : Option V) (full : Bool) (A : ARef V) : ARef V :=
  match S, P, S', A with
  | some _, some _, some _, .absent => if full then .absent else .alias
  | _, _, _, A => A

/-- Lines 514-530. -/
def restrictAll (cur prev : Level V) : Level V :=
  { prev with
    S := restrictInto cur.P cur.S prev.S prev.full
    A := aliasA cur.P cur.S prev.S prev.full prev.A
    D := restrictInto cur.P cur.D prev.D prev.full
    M := restrictInto cur.P cur.M prev.M prev.full }

/-- `A.data += X`, in place: an alias changes `S` as well (535, 544). -/
def addToA (l : Level V) (x : V) : Level V :=
  match l.A with
  | .absent => l
  | .alias => { l with S := l.S.map (· + x) }
  | .own a => { l with A := .own (a + x) }

/-- Condition and body of 531-551. -/
def addReaction (r : Reaction K) (cur prev : Level V) : Option (Level V) :=
  match cur.M, cur.matA, cur.P, prev.matA, prev.M with
  | some _, some _, some _, some _, some m =>
    match r with
    | .none => some prev
    | .const c => some (addToA prev (c • m))
    | .func => prev.dm.map fun scale => addToA prev (scale m)
  | _, _, _, _, _ => some prev

/-- The part of `buildCoarserMatrices` that changes `previousLevel` (514-553). -/
def coarsen (r : Reaction K) (cur prev : Level V) : Option (Level V) :=
  (addReaction r cur (restrictAll cur prev)).map fun l => { l with full := true }

/-- `buildCoarserMatrices` (508-554); the list goes from the level to the coarsest one. -/
def buildCoarser (r : Reaction K) (cur : Level V) : List (Level V) → Option (List (Level V))
  | [] => some [cur]
  | prev :: rest => (coarsen r cur prev).bind fun p => (buildCoarser r p rest).map (cur :: ·)

/-- A matrix in symmetric format: entries below the diagonal and the diagonal. -/
structure Sym (K : Type) where
  data : List K
  diagonal : List K

/-- `A += reaction*M` for a float and the symmetric format (391-397, 533-538): the loop over the diagonal is
inside the loop over the entries. -/
def addConstSym (c : K) (A M : Sym K) : Sym K :=
  (List.range A.data.length).foldl (fun s j =>
    ⟨s.data.set j (s.data.getD j 0 + c * M.data.getD j 0),
      (List.range s.diagonal.length).foldl (fun d i => d.set i (d.getD i 0 + c * M.diagonal.getD i 0)) s.diagonal⟩) A

end PyNucleus.LevelMatrices
