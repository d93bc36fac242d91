import Mathlib.Data.Rat.Defs
import Mathlib.Data.Nat.Notation

/-!
# Dictionaries for YAML files

Models `processDictForYaml` (base/PyNucleus_base/utilsFem.py:371-405), which prepares the results of a driver for a YAML file (1239).

Simplifications: floating point numbers are rational, with the same value as number of numpy and of python; integer arrays have one dimension;
all values that are left as they are and can be written (numbers of python, texts, `None`) are `float`, `int` and `text`.
-/

namespace PyNucleus.YamlDict

mutual
/-- The values in a dictionary. -/
inductive Val where
  | real (q : ℚ)                         -- REAL of numpy
  | index (z : Int)                      -- INDEX of numpy
  | float (q : ℚ)
  | int (z : Int)
  | text (s : String)
  | func (s : String)                    -- a function, `str` of which is `s`
  | arr0 (q : ℚ)                         -- arrays of dtype REAL
  | arr1 (l : List ℚ)
  | arr2 (l : List (List ℚ))
  | arr3 (l : List (List (List ℚ)))
  | iarr (l : List Int)                  -- array of another dtype
  | list (l : Vals)
  | dict (d : Dict)
/-- Lists of values. -/
inductive Vals where
  | nil
  | cons (v : Val) (l : Vals)
/-- Dictionaries: keys and values in the order in which they have been added. -/
inductive Dict where
  | nil
  | cons (key : String) (v : Val) (d : Dict)
end

/-- A list of python. -/
def ofList : List Val → Vals
  | [] => .nil
  | v :: l => .cons v (ofList l)

/-- One entry of a list (397-399). -/
def item : Val → Val
  | .real q => .float q
  | v => v

/-- The loop over a list (397-399). -/
def items : Vals → Vals
  | .nil => .nil
  | .cons v l => .cons (item v) (items l)

mutual
/-- One value (375-404); `none` is `NotImplementedError`. -/
def process : Val → Option Val
  | .dict d => (processDict d).map .dict
  | .real q => some (.float q)
  | .arr0 q => some (.float q)
  | .arr1 l => some (.list (ofList (l.map .float)))
  | .arr2 l => some (.list (ofList (l.map fun r => .list (ofList (r.map .float)))))
  | .arr3 _ => none
  | .iarr l => some (.list (ofList (l.map .int)))
  | .list l => some (.list (items l))
  | .func s => some (.text s)
  | .index z => some (.index z)
  | .float q => some (.float q)
  | .int z => some (.int z)
  | .text s => some (.text s)
/-- `processDictForYaml` (371-405). -/
def processDict : Dict → Option Dict
  | .nil => some .nil
  | .cons k v d => match process v, processDict d with
    | some v', some d' => some (.cons k v' d')
    | _, _ => none
end

mutual
/-- A value of the given dictionary after a call that raises no exception: lists are changed in place (396-399). -/
def after : Val → Val
  | .dict d => .dict (afterDict d)
  | .list l => .list (items l)
  | v => v
/-- The given dictionary after the call. -/
def afterDict : Dict → Dict
  | .nil => .nil
  | .cons k v d => .cons k (after v) (afterDict d)
end

end PyNucleus.YamlDict
