import Mathlib.Data.List.Basic

/-!
# Model of the object factory

/repo/base/PyNucleus_base/factory.py.  Names are elements of a type `N`; `canon` is `getCanonicalName` (16-20), i.e. lower case for
strings and the identity otherwise.  Dictionaries are association lists in insertion order.  Parameter values are either immutable or
references to mutable objects, whose contents are one value of type `V` on a heap; deeper nesting is not modelled.  Not modelled: `__str__`.
-/

namespace PyNucleus.Factory

variable {N C V : Type} [DecidableEq N]

/-- `d[k]`, none if missing. -/
def dget {A B : Type} [DecidableEq A] (d : List (A × B)) (k : A) : Option B := (d.find? fun e => decide (e.1 = k)).map Prod.snd

/-- `d[k] = v`: keeps the position of an existing key. -/
def dset {A B : Type} [DecidableEq A] : List (A × B) → A → B → List (A × B)
  | [], k, v => [(k, v)]
  | e :: d, k, v => if e.1 = k then (k, v) :: d else e :: dset d k v

/-- `d.update(e)`. -/
def dupdate {A B : Type} [DecidableEq A] (d e : List (A × B)) : List (A × B) := e.foldl (fun d p => dset d p.1 p.2) d

/-- Value of a parameter: immutable, or a reference. -/
inductive Val (V : Type)
  | imm (v : V)
  | ref (a : Nat)
  deriving DecidableEq

/-- The factory, 12-14; `K` are parameter names. -/
structure Factory (N C V : Type) where
  classes : List (N × (N × C × List (String × Val V)))
  aliases : List (N × (N × N))

/-- `__init__`. -/
def Factory.empty : Factory N C V := ⟨[], []⟩

/-- Arguments of `register`, 22. -/
structure Reg (N C V : Type) where
  name : N
  cls : C
  params : List (String × Val V)
  aliases : List N

/-- `register`, 22-27. -/
def Factory.register (canon : N → N) (F : Factory N C V) (r : Reg N C V) : Factory N C V :=
  { classes := dset F.classes (canon r.name) (r.name, r.cls, r.params)
    aliases := r.aliases.foldl (fun al a => dset al (canon a) (a, canon r.name)) F.aliases }

/-- `isRegistered`, 29-30. -/
def Factory.isRegistered (canon : N → N) (F : Factory N C V) (name : N) : Bool :=
  (dget F.classes (canon name)).isSome || (dget F.aliases name).isSome

/-- 36-41: the entry found by `build`; `none` is the `KeyError`. -/
def Factory.find (canon : N → N) (F : Factory N C V) (name : N) : Option (N × C × List (String × Val V)) :=
  dget F.classes (match dget F.aliases (canon name) with | some e => e.2 | none => canon name)

/-- `deepcopy(params)`: one new object for each distinct reference (`memo`). -/
def deepcopy (heap : List V) (memo : List (Nat × Nat)) : List (String × Val V) → List (String × Val V) × List V
  | [] => ([], heap)
  | (k, .imm v) :: p =>
    let q := deepcopy heap memo p
    ((k, .imm v) :: q.1, q.2)
  | (k, .ref a) :: p =>
    match dget memo a with
    | some b =>
      let q := deepcopy heap memo p
      ((k, .ref b) :: q.1, q.2)
    | none =>
      match heap[a]? with
      | some v =>
        let q := deepcopy (heap ++ [v]) ((a, heap.length) :: memo) p
        ((k, .ref heap.length) :: q.1, q.2)
      | none =>
        let q := deepcopy heap memo p
        ((k, .ref a) :: q.1, q.2)

/-- 35-44: class and keyword arguments with which the class is called, and the heap at that time. -/
def Factory.build (canon : N → N) (F : Factory N C V) (heap : List V) (name : N) (kwargs : List (String × Val V)) :
    Option (C × List (String × Val V) × List V) :=
  (F.find canon name).map fun e =>
    let q := deepcopy heap [] e.2.2
    (e.2.1, dupdate q.1 kwargs, q.2)

/-- `numRegistered`, 47-51. -/
def Factory.numRegistered (F : Factory N C V) (countAliases : Bool) : Nat :=
  if countAliases then F.classes.length + F.aliases.length else F.classes.length

/-- A sequence of `register` calls. -/
def Factory.after (canon : N → N) (h : List (Reg N C V)) : Factory N C V := h.foldl (Factory.register canon) Factory.empty

end PyNucleus.Factory
