import Verif.Model.Dependencies
import Mathlib.Logic.Relation

/-! # Systems without cycles, solutions, sequences of operations -/

namespace PyNucleus.Dependencies

variable {V : Type}

/-- Systems as the class registers them: each property has one builder, no cycles. -/
structure System.OK (S : System V) (rank : Nat → Nat) : Prop where
  gen_iff : ∀ b g, g ∈ S.gen b ↔ S.builderOf g = some b
  mem : ∀ g b, S.builderOf g = some b → b ∈ S.builders
  lt : ∀ g b r, S.builderOf g = some b → r ∈ S.req b → rank r < rank g
  bound : ∀ p, rank p < S.depth

/-- The valuation is a solution of all equations of the builders. -/
def Solves (S : System V) (w : Nat → Option V) : Prop :=
  ∀ g b, S.builderOf g = some b → w g = S.fn b ((S.req b).map w) g

/-- What a user does with the object: set a property, get a property. -/
inductive Op (V : Type)
  | set (p : Nat) (v : Option V)
  | get (p : Nat)

/-- The state after an operation; a failing `get` leaves the state. -/
def Op.run [DecidableEq V] (S : System V) (s : State V) : Op V → State V
  | .set p v => Dependencies.set S s p v
  | .get p => match Dependencies.get S S.depth s p with | none => s | some (_, s') => s'

/-- Operations that set only properties without builder, and never to `None`. -/
def Op.Plain (S : System V) : Op V → Prop
  | .set p v => S.builderOf p = none ∧ v ≠ none
  | .get _ => True

/-- The state after a sequence of operations on a new object. -/
def after [DecidableEq V] (S : System V) (ops : List (Op V)) : State V := ops.foldl (Op.run S) initial

/-- The value that an input was set to last. -/
def lastSet (p : Nat) (ops : List (Op V)) : Option (Option V) :=
  ops.foldl (fun o op => match op with | .set q v => if q = p then some v else o | .get _ => o) none

end PyNucleus.Dependencies
