import Verif.Model.Parameters

/-! # Paths in nested dictionaries -/

namespace PyNucleus.Parameters

variable {V : Type}

/-- What is at the end of a path of keys. -/
def node : List Nat → Tree V → Option (Tree V)
  | [], t => some t
  | k :: p, .dict d => (d.get k).bind (node p)
  | _ :: _, .leaf _ => none

/-- The value at the end of a path of keys. -/
def value (p : List Nat) (t : Tree V) : Option V :=
  match node p t with
  | some (.leaf v) => some v
  | _ => none

mutual
/-- No dictionary has a key twice. -/
def Tree.WF : Tree V → Prop
  | .leaf _ => True
  | .dict d => d.WF

def Dict.WF : Dict V → Prop
  | .nil => True
  | .cons k t d => d.get k = none ∧ t.WF ∧ d.WF
end

/-- The difference of two values, each of which may be missing. -/
def expected (close : V → V → Bool) : Option V → Option V → Option (Mismatch V)
  | some v, some w => if close v w then none else some (some v, some w)
  | some v, none => some (some v, none)
  | none, some w => some (none, some w)
  | none, none => none

/-- A path leads to a value in one and to a dictionary in the other. -/
def Conflict (t u : Tree V) : Prop :=
  ∃ p v e, (node p t = some (.leaf v) ∧ node p u = some (.dict e)) ∨
    (node p t = some (.dict e) ∧ node p u = some (.leaf v))

variable {K : Type}

/-- What is read for a value that was written: lists of numbers come back as arrays. -/
def norm : Val K → Val K
  | .nums l => .arr l
  | v => v

mutual
def normTree : Tree (Val K) → Tree (Val K)
  | .leaf v => .leaf (norm v)
  | .dict d => .dict (normDict d)

def normDict : Dict (Val K) → Dict (Val K)
  | .nil => .nil
  | .cons k t d => .cons k (normTree t) (normDict d)
end

/-- Values that are stored as attribute. -/
def Tree.isAttr : Tree (Val K) → Prop
  | .leaf .none => True
  | .leaf (.num _) => True
  | .leaf (.str _) => True
  | _ => False

/-- The list is not empty, and neither is the first list in it. -/
def Val.Storable : Val K → Prop
  | .nums l => l ≠ []
  | .strs l => l ≠ []
  | .nested l => ∃ x xs ls, l = (x :: xs) :: ls
  | _ => True

mutual
/-- Dictionaries inside do not have a key `type` with a simple value, nor both `vertices` and `cells`. -/
def Tree.Storable : Tree (Val K) → Prop
  | .leaf v => v.Storable
  | .dict d => d.Storable ∧ (∀ t, d.get typeKey = some t → ¬ t.isAttr) ∧
      ¬ ∃ t u, d.get verticesKey = some t ∧ ¬ t.isAttr ∧ d.get cellsKey = some u ∧ ¬ u.isAttr

def Dict.Storable : Dict (Val K) → Prop
  | .nil => True
  | .cons _ t d => t.Storable ∧ d.Storable
end

end PyNucleus.Parameters
