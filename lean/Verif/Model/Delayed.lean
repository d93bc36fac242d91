import Mathlib.Logic.Basic

/-!
# Model of operators with delayed construction

/repo/base/PyNucleus_base/linear_operators.pyx, `delayedConstructionOperator` (1533-1608), with `construct`
of `delayedNonlocalOp` and `delayedFractionalLaplacianOp`, /repo/nl/PyNucleus_nl/helpers.py 636-669.

Dictionaries are partial functions.  Assembly is an arbitrary function of the keyword arguments that may
fail.  Python's `==` on parameter values is an arbitrary relation `eqv`.  All requests that construct first
(`matvec`, `matvec_no_overwrite`, `matvecTrans`, `toarray`, `to_csr`, `diagonal`, `isSparse`, `HDF5write`)
have the same form: an arbitrary function `answer` of the constructed operator.
-/

namespace PyNucleus.Delayed

variable {Key Val Op Q R : Type}

/-- What is fixed: keyword arguments of the constructor, assembly, sizes, answers. -/
structure Env (Key Val Op Q R : Type) where
  kwargs : Key → Option Val
  assemble : (Key → Option Val) → Option Op
  shape : Op → Nat × Nat
  rows : Nat
  cols : Nat
  eqv : Val → Val → Bool
  answer : Op → Q → R
  nnz : Op → R

/-- State of the operator; `builds` counts calls of `construct`. -/
structure St (Key Val Op : Type) where
  params : Key → Option Val
  constructed : Bool
  A : Option Op
  builds : Nat

/-- `__init__`, 1534-1537. -/
def start : St Key Val Op := ⟨fun _ => none, false, none, 0⟩

/-- `d = copy(self.kwargs); d.update(self.params)`, helpers.py 646-647. -/
def merged (kwargs params : Key → Option Val) : Key → Option Val := fun k => (params k).or (kwargs k)

/-- `assure_constructed`, 1542-1548: new state and success. -/
def assure (E : Env Key Val Op Q R) (s : St Key Val Op) : St Key Val Op × Bool :=
  if s.constructed then (s, true)
  else
    match E.assemble (merged E.kwargs s.params) with
    | none => ({ s with builds := s.builds + 1 }, false)
    | some a =>
      if E.shape a = (E.rows, E.cols) then (⟨s.params, true, some a, s.builds + 1⟩, true)
      else (⟨s.params, false, some a, s.builds + 1⟩, false)

/-- One key of `setParams`, 1597-1600. -/
def setParam [DecidableEq Key] (E : Env Key Val Op Q R) (s : St Key Val Op) (kv : Key × Val) : St Key Val Op :=
  match s.params kv.1 with
  | some v => if E.eqv v kv.2 then s else { s with params := fun k => if k = kv.1 then some kv.2 else s.params k, constructed := false }
  | none => { s with params := fun k => if k = kv.1 then some kv.2 else s.params k, constructed := false }

/-- Calls. -/
inductive Call (Key Val Q : Type)
  | setParams (kw : List (Key × Val))
  | use (q : Q)
  | nnz

/-- Effect and result of a call; `none` is an exception, or `None` for `nnz`. -/
def call [DecidableEq Key] (E : Env Key Val Op Q R) (s : St Key Val Op) : Call Key Val Q → St Key Val Op × Option R
  | .setParams kw => (kw.foldl (setParam E) s, none)
  | .use q =>
    let r := assure E s
    (r.1, if r.2 then r.1.A.map fun a => E.answer a q else none)
  | .nnz => (s, s.A.map E.nnz)  -- `getnnz`, 1588-1592: does not construct

/-- Results of a sequence of calls. -/
def run [DecidableEq Key] (E : Env Key Val Op Q R) : St Key Val Op → List (Call Key Val Q) → List (Option R)
  | _, [] => []
  | s, c :: cs => (call E s c).2 :: run E (call E s c).1 cs

/-- State after a sequence of calls. -/
def exec [DecidableEq Key] (E : Env Key Val Op Q R) (s : St Key Val Op) (cs : List (Call Key Val Q)) : St Key Val Op :=
  cs.foldl (fun s c => (call E s c).1) s

end PyNucleus.Delayed
