import Mathlib.Algebra.Order.Field.Basic
import Mathlib.Algebra.Order.Group.Abs
import Mathlib.Analysis.SpecialFunctions.Log.Basic

/-!
# Reports: timings of several ranks, comparison with references, rates of convergence

Models `TimerManager.setOutputGroup` with `mergeOrdered` (base/PyNucleus_base/utilsFem.py:73-135),
`roc` (196-212), `outputGroup.toDict`, `outputGroup.diff` (621-668), the mean of
`timerOutputGroup.__repr__` (698-741), and `seriesOutputGroup.getPair`, `roc`, `diff` (792-817,
868-874).

Simplifications: numbers are elements of an ordered field (no rounding, no NaN); labels are natural
numbers; dictionaries are lists of pairs without repeated keys; `None` stands for a raised error. Values
are numbers, flat lists of numbers, or other values that are compared with `!=` and have no length.
`np.argsort` is a parameter.
-/

namespace PyNucleus.Reports

section Merge
variable {α : Type} [DecidableEq α]

/-- The loop of `mergeOrdered` (76-96), with the length of `a_list` as fuel: each pass removes one
element from `a_list`. `a_list.remove` raises an error if there is nothing to remove. -/
def mergeLoop : Nat → List α → List α → Option (List α)
  | _, [], b => some b
  | _, x :: a, [] => some (x :: a)
  | 0, _ :: _, _ :: _ => none
  | n + 1, x :: a, y :: b =>
    if x ∈ y :: b then
      if x = y then (mergeLoop n a b).map (x :: ·)
      else if y ∈ x :: a then (mergeLoop n ((x :: a).erase y) b).map (y :: ·)
      else none
    else (mergeLoop n a (y :: b)).map (x :: ·)

/-- `mergeOrdered` (75-96). -/
def mergeOrdered (a b : List α) : Option (List α) := mergeLoop a.length a b

/-- `keys` (122-124): the merged keys of all ranks. -/
def mergeAll : List (List α) → Option (List α)
  | [] => none
  | a :: l => l.foldl (fun keys b => keys.bind fun k => mergeOrdered k b) (some a)

/-- `pData[key].append(d)` or `pData[key] = [d]` (129-132). -/
def append {V : Type} (p : α → Option (List V)) (key : α) (d : V) : α → Option (List V) := fun k =>
  if k = key then some (match p key with | some l => l ++ [d] | none => [d]) else p k

/-- The table of all ranks (125-132): the data of a rank is a dictionary, `dflt` is used for missing
timers. -/
def table {V : Type} (dflt : V) (keys : List α) (data : List (α → Option V)) : α → Option (List V) :=
  data.foldl (fun p d => keys.foldl (fun p key => append p key ((d key).getD dflt)) p) fun _ => none

end Merge

section Mean
variable {K : Type} [Field K]

/-- The number of calls and their mean, of the entries of a timer (107). -/
def callsAndMean (val : List K) : Nat × K := (val.length, val.sum / (val.length : K))

/-- `meanCall` (720). -/
def meanCall (data : List (Nat × K)) : K :=
  (data.map fun p => (p.1 : K) * p.2).sum / ((data.map Prod.fst).sum : Nat)

end Mean

section Diff
variable {K : Type} [Field K] [LinearOrder K]

inductive Value (K : Type)
  | num (x : K)
  | list (l : List K)
  | other (s : Nat)
  deriving DecidableEq

/-- `outputParam` (563-582), the fields used here. -/
structure Param (K : Type) where
  label : Nat
  value : Value K
  aTol : Option K
  rTol : Option K
  tested : Bool

/-- `np.isclose`: the tolerance is relative to the second argument. -/
def isClose (rTol aTol x y : K) : Bool := decide (|x - y| ≤ aTol + rTol * |y|)

/-- The tolerance that is used (643-644). -/
def tol (t : Option K) : K := t.getD (1 / 10 ^ 12)

/-- The comparison of one value with the reference (645-663); `none` for a raised error. The two numbers
of 658 are never NaN. -/
def agrees (p : Param K) : Value K → Option Bool := fun d =>
  match p.value, d with
  | .num x, .num y => some (isClose (tol p.rTol) (tol p.aTol) x y)
  | .num x, .list l => some (l.all fun y => isClose (tol p.rTol) (tol p.aTol) x y)
  | .num _, .other _ => none
  | .list l, .list m =>
    if l.length = m.length then
      some ((l.zip m).all fun q => isClose (tol p.rTol) (tol p.aTol) q.1 q.2)
    else some false
  | .list _, _ => none
  | .other s, d => some (decide (Value.other s = d))

/-- Both sides of a difference; `none` is `'Not available'`. -/
abbrev Mismatch (K : Type) := Option (Value K) × Option (Value K)

/-- `result[key] = v`; the position of a key that is there already is not kept. -/
def insert {V : Type} (r : List (Nat × V)) (key : Nat) (v : V) : List (Nat × V) :=
  r.filter (fun q => q.1 ≠ key) ++ [(key, v)]

/-- One entry of the loop of `diff` (640-666): the state is the result and what remains of the
reference. -/
def diffStep (s : List (Nat × Mismatch K) × List (Nat × Value K)) (p : Param K) :
    Option (List (Nat × Mismatch K) × List (Nat × Value K)) :=
  if p.tested then
    match s.2.lookup p.label with
    | some v =>
      (agrees p v).map fun ok =>
        (if ok then s.1 else insert s.1 p.label (some p.value, some v), s.2.filter fun q => q.1 ≠ p.label)
    | none => some (insert s.1 p.label (some p.value, none), s.2)
  else some s

/-- The loop over all entries. -/
def diffLoop : List (Param K) → List (Nat × Mismatch K) × List (Nat × Value K) →
    Option (List (Nat × Mismatch K) × List (Nat × Value K))
  | [], s => some s
  | p :: l, s => (diffStep s p).bind (diffLoop l)

/-- `outputGroup.diff` (637-668). -/
def diff (entries : List (Param K)) (d : List (Nat × Value K)) : Option (List (Nat × Mismatch K)) :=
  (diffLoop entries ([], d)).map fun s =>
    s.2.foldl (fun r q => insert r q.1 (none, some q.2)) s.1

/-- `outputGroup.toDict` (621-625). -/
def toDict (tested : Bool) (entries : List (Param K)) : List (Nat × Value K) :=
  (if tested then entries.filter (·.tested) else entries).foldl (fun d p => insert d p.label p.value) []

/-- `seriesOutputGroup.diff` (868-874): only the own groups are visited; a missing reference raises an
error. -/
def seriesDiff : List (Nat × List (Param K)) → List (Nat × List (Nat × Value K)) →
    Option (List (Nat × List (Nat × Mismatch K)))
  | [], _ => some []
  | (label, entries) :: l, d =>
    (d.lookup label).bind fun ref => (diff entries ref).bind fun p =>
      (seriesDiff l d).map fun r => if p.length > 0 then (label, p) :: r else r

end Diff

section Series
variable {K : Type}

/-- `getattr(group, name)` (631-635): the value of the first entry with this label. -/
def attr (g : List (Nat × K)) (name : Nat) : Option K := (g.find? fun p => p.1 == name).map Prod.snd

/-- The loop of `getPair` (797-807): groups without one of the three are skipped. -/
def collect (keyName valueName sortBy : Nat) (groups : List (List (Nat × K))) : List (K × K × K) :=
  groups.filterMap fun g =>
    (attr g keyName).bind fun k => (attr g valueName).bind fun v => (attr g sortBy).map fun s => (k, v, s)

/-- `getPair` (792-813); `groups` in the order of the sorted labels, `argsort` gives positions. -/
def getPair [Inhabited K] (argsort : List K → List Nat) (keyName valueName : Nat) (sortBy : Option Nat)
    (reverse : Bool) (groups : List (List (Nat × K))) : List K × List K :=
  let rows := collect keyName valueName (sortBy.getD keyName) groups
  let idx := argsort (rows.map fun r => r.2.2)
  let idx := if reverse then idx.reverse else idx
  (idx.map fun i => (rows.map fun r => r.1)[i]!, idx.map fun i => (rows.map fun r => r.2.1)[i]!)

/-- `roc` (196-212) for one column, without `FillUp`. -/
noncomputable def roc (exp : Bool) : List ℝ → List ℝ → List ℝ
  | x :: y :: idx, v :: w :: val =>
    (if exp then Real.log (v / w) / (x - y) else Real.log (v / w) / Real.log (x / y)) ::
      roc exp (y :: idx) (w :: val)
  | _, _ => []

end Series

end PyNucleus.Reports
