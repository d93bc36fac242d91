/-!
# Computed properties with dependencies

Models `propertyBuilder` and `classWithComputedDependencies` (base/PyNucleus_base/utilsFem.py:1478-1546,
1571-1709): `addProperty` with its getter and setter, `invalidateDependencies`, the call of a builder with
its comparison of arguments.

Simplifications: properties and builders are numbers; one object, no remote properties, no
`postProcess`, no log messages; `none` as a value is Python's `None`. The comparison of two values is
equality. A builder method sets all of its properties and nothing else. A depth bounds the recursion;
`none` as a result is a failed assertion or a recursion that does not end.
-/

namespace PyNucleus.Dependencies

variable {V : Type}

/-- The builders with the properties they require and generate, and what they compute. `isArray` tells
for which values a copy is kept in any case. -/
structure System (V : Type) where
  builders : List Nat
  /-- `generatedPropToBuilder`; `none` for a property without method (1656-1658). -/
  builderOf : Nat → Option Nat
  req : Nat → List Nat
  gen : Nat → List Nat
  fn : Nat → List (Option V) → Nat → Option V
  isArray : V → Bool
  /-- Bound for the recursion. -/
  depth : Nat

/-- The values, the states (`VALID` or not), the arguments that each builder has kept, and the calls of
builder methods. -/
structure State (V : Type) where
  value : Nat → Option V
  valid : Nat → Bool
  cached : Nat → Nat → Option V
  calls : List Nat

/-- After `addProperty` (1660-1661). -/
def initial : State V := ⟨fun _ => none, fun _ => false, fun _ _ => none, []⟩

def setTo {α : Type} (f : Nat → α) (i : Nat) (a : α) : Nat → α := fun j => if j = i then a else f j

/-- `invalidateDependencies` (1695-1706). -/
def invalidate (S : System V) : Nat → (Nat → Bool) → Nat → Nat → Bool
  | 0, st, _ => st
  | fuel + 1, st, p =>
    (S.builders.filter fun b => (S.req b).contains p).foldl (fun st b =>
      (S.gen b).foldl (fun st g => invalidate S fuel (setTo st g false) g) st) st

/-- The setter (1680-1691). -/
def set (S : System V) (s : State V) (p : Nat) (v : Option V) : State V :=
  { s with
    value := setTo s.value p v
    valid := setTo (invalidate S S.depth s.valid p) p true }

/-- The comparison of an argument with the one that was kept (1508-1531). -/
def differs [DecidableEq V] (new old : Option V) : Bool := decide (new ≠ old)

/-- What is kept of an argument (1510, 1518, 1526): arrays in any case, other values if they differ. -/
def keep [DecidableEq V] (S : System V) (new old : Option V) : Option V :=
  match new with
  | none => none
  | some x => if S.isArray x then some x else if differs (some x) old then some x else none

/-- The arguments that the builder has kept after the loop (1501-1536). -/
def keepAll [DecidableEq V] (S : System V) (old : Nat → Option V) : List Nat → List (Option V) →
    Nat → Option V
  | r :: rs, a :: as => setTo (keepAll S old rs as) r (keep S a (old r))
  | _, _ => fun _ => none

/-- The end of the call of a builder (1539-1546): call the method or only change the states. -/
def finish [DecidableEq V] (S : System V) (s : State V) (b : Nat) (args : List (Option V)) : State V :=
  if ((S.req b).zip args).any fun ra => differs ra.2 (s.cached b ra.1) then
    (S.gen b).foldl (fun s g => set S s g (S.fn b args g))
      { s with
        cached := setTo s.cached b (keepAll S (s.cached b) (S.req b) args)
        calls := s.calls ++ [b] }
  else { s with valid := (S.gen b).foldl (fun st g => setTo st g true) s.valid }

/-- The arguments one after the other (1501-1506), with the given getter. -/
def getAll (getter : State V → Nat → Option (Option V × State V)) : State V → List Nat →
    Option (List (Option V) × State V)
  | s, [] => some ([], s)
  | s, p :: l =>
    match getter s p with
    | none => none
    | some (v, s1) =>
      match getAll getter s1 l with
      | none => none
      | some (vs, s2) => some (v :: vs, s2)

/-- The getter (1668-1678) and the call of a builder (1495-1546). -/
def get [DecidableEq V] (S : System V) : Nat → State V → Nat → Option (Option V × State V)
  | 0, _, _ => none
  | fuel + 1, s, p =>
    match S.builderOf p with
    | none => if s.valid p then some (s.value p, s) else none
    | some b =>
      if s.valid p then some (s.value p, s)
      else
        match getAll (get S fuel) s (S.req b) with
        | none => none
        | some (args, s1) =>
          if (finish S s1 b args).valid p then
            some ((finish S s1 b args).value p, finish S s1 b args)
          else none

end PyNucleus.Dependencies
