/-!
# Nested dictionaries: defaults, differences, files

Models `saveDictToHDF5`, `loadDictFromHDF5` (base/PyNucleus_base/utilsFem.py:246-368),
`updateFromDefaults` (408-413) and `diffDict` (1337-1368).

Simplifications: keys are natural numbers; a dictionary is a list of keys with values; `none` stands for
a raised error. A value that is no dictionary is a leaf; asking a leaf for a key and comparing a leaf
with a dictionary raises an error (for strings Python would look for substrings, or compare with `!=`).
Shared references are not modelled. A file is a tree; attributes and members of a group are in one list
(a dictionary uses each key only once), and reading keeps the order. Values with methods of their own
(`HDF5write`, `toarray`), pickled values, and lists of mixed kinds are left out. `pickle.loads` applied
to a number that was stored as attribute is a parameter.
-/

namespace PyNucleus.Parameters

mutual
/-- A value or a dictionary. -/
inductive Tree (V : Type)
  | leaf (v : V)
  | dict (d : Dict V)

/-- A dictionary. -/
inductive Dict (V : Type)
  | nil
  | cons (key : Nat) (t : Tree V) (d : Dict V)
end

variable {V : Type}

/-- `d[key]`, `none` if there is none. -/
def Dict.get : Dict V → Nat → Option (Tree V)
  | .nil, _ => none
  | .cons k t d, key => if key = k then some t else d.get key

/-- `d[key] = t`. -/
def Dict.set : Dict V → Nat → Tree V → Dict V
  | .nil, key, t => .cons key t .nil
  | .cons k u d, key, t => if key = k then .cons k t d else .cons k u (d.set key t)

/-- `len(d) > 0`. -/
def Dict.nonempty : Dict V → Bool
  | .nil => false
  | .cons _ _ _ => true

mutual
/-- What happens to the value of a key of `params` for the value of `defaults` (410-413): `none` for a
key that is not in `params`. -/
def updateEntry : Option (Tree V) → Tree V → Option (Tree V)
  | none, t => some t
  | some u, .leaf _ => some u
  | some (.dict d), .dict e => (updateFromDefaults d e).map .dict
  | some (.leaf v), .dict e => match e with
    | .nil => some (.leaf v)
    | .cons _ _ _ => none

/-- `updateFromDefaults` (408-413): the updated `params`. -/
def updateFromDefaults : Dict V → Dict V → Option (Dict V)
  | params, .nil => some params
  | params, .cons k t rest =>
    (updateEntry (params.get k) t).bind fun u => updateFromDefaults (params.set k u) rest
end

/-- Both sides of a difference; `none` is `'Not available'`. -/
abbrev Mismatch (V : Type) := Option V × Option V

/-- `if len(p) > 0: diff[key] = p` (1343-1348). -/
def keep (p : Dict (Mismatch V)) : Option (Tree (Mismatch V)) :=
  if p.nonempty then some (.dict p) else none

def enter (acc : Dict (Mismatch V)) (k : Nat) : Option (Tree (Mismatch V)) → Dict (Mismatch V)
  | none => acc
  | some m => acc.set k m

mutual
/-- The body of the second loop (1360-1367), for a key that is not in `d1`. -/
def rightEntry : Tree V → Option (Tree (Mismatch V))
  | .leaf v => some (.leaf (none, some v))
  | .dict e => keep (rightLoop .nil e .nil)

/-- The second loop (1359-1367). -/
def rightLoop : Dict V → Dict V → Dict (Mismatch V) → Dict (Mismatch V)
  | _, .nil, acc => acc
  | d1, .cons k t rest, acc =>
    match d1.get k with
    | some _ => rightLoop d1 rest acc
    | none => rightLoop d1 rest (enter acc k (rightEntry t))
end

mutual
/-- The body of the first loop (1340-1358); `close` compares two values, by `np.allclose` or `!=`. -/
def leftEntry (close : V → V → Bool) : Tree V → Option (Tree V) → Option (Option (Tree (Mismatch V)))
  | .leaf v, none => some (some (.leaf (some v, none)))
  | .leaf v, some (.leaf w) => some (if close v w then none else some (.leaf (some v, some w)))
  | .leaf _, some (.dict _) => none
  | .dict _, some (.leaf _) => none
  | .dict e, none => (leftLoop close e .nil .nil).map fun p => keep (rightLoop e .nil p)
  | .dict e, some (.dict e2) => (leftLoop close e e2 .nil).map fun p => keep (rightLoop e e2 p)

/-- The first loop (1339-1358). -/
def leftLoop (close : V → V → Bool) : Dict V → Dict V → Dict (Mismatch V) → Option (Dict (Mismatch V))
  | .nil, _, acc => some acc
  | .cons k t rest, d2, acc =>
    (leftEntry close t (d2.get k)).bind fun o => leftLoop close rest d2 (enter acc k o)
end

/-- `diffDict` (1337-1368). -/
def diffDict (close : V → V → Bool) (d1 d2 : Dict V) : Option (Dict (Mismatch V)) :=
  (leftLoop close d1 d2 .nil).map fun acc => rightLoop d1 d2 acc

/-! ## Files -/

/-- Values of parameters: `None`, numbers, strings, arrays, lists of numbers, of strings, of lists of
numbers. -/
inductive Val (K : Type)
  | none
  | num (x : K)
  | str (s : Nat)
  | arr (l : List K)
  | nums (l : List K)
  | strs (l : List Nat)
  | nested (l : List (List K))
  deriving DecidableEq

inductive Attr (K : Type)
  | empty
  | num (x : K)
  | str (s : Nat)
  deriving DecidableEq

inductive Data (K : Type)
  | nums (l : List K)
  | bytes (l : List Nat)
  | ptr (l : List Nat)
  deriving DecidableEq

mutual
inductive Entry (K : Type)
  | attr (a : Attr K)
  | data (d : Data K)
  | group (f : File K)

inductive File (K : Type)
  | nil
  | cons (key : Nat) (e : Entry K) (f : File K)
end

variable {K : Type}

/-- The names `type`, `vertices`, `cells`, `indptr`, `data`, and the string `compressedList`. -/
def typeKey : Nat := 0
def verticesKey : Nat := 1
def cellsKey : Nat := 2
def indptrKey : Nat := 3
def dataKey : Nat := 4
def compressedTag : Nat := 0

def File.get : File K → Nat → Option (Entry K)
  | .nil, _ => none
  | .cons k e f, key => if key = k then some e else f.get key

/-- The loop over the lists (273-278): positions and values. -/
def compress : Nat → List (List K) → List Nat × List K
  | n, [] => ([n], [])
  | n, l :: ls => (n :: (compress (n + l.length) ls).1, l ++ (compress (n + l.length) ls).2)

/-- The loop of reading (339-340). -/
def uncompress (data : List K) : List Nat → List (List K)
  | i :: j :: ptr => (data.drop i).take (j - i) :: uncompress data (j :: ptr)
  | _ => []

/-- One value (251-307). An empty list, and a list whose first list is empty, raise an error in the
handler (262). -/
def saveVal : Val K → Option (Entry K)
  | .none => some (.attr .empty)
  | .num x => some (.attr (.num x))
  | .str s => some (.attr (.str s))
  | .arr l => some (.data (.nums l))
  | .nums [] => Option.none
  | .nums l => some (.data (.nums l))
  | .strs [] => Option.none
  | .strs l => some (.data (.bytes l))
  | .nested [] => Option.none
  | .nested ([] :: _) => Option.none
  | .nested l => some (.group (.cons typeKey (.attr (.str compressedTag))
      (.cons indptrKey (.data (.ptr (compress 0 l).1)) (.cons dataKey (.data (.nums (compress 0 l).2)) .nil))))

mutual
def saveEntry : Tree (Val K) → Option (Entry K)
  | .leaf v => saveVal v
  | .dict d => (save d).map .group

/-- `saveDictToHDF5` (246-307) without keys to ignore. -/
def save : Dict (Val K) → Option (File K)
  | .nil => some .nil
  | .cons k t d => (saveEntry t).bind fun e => (save d).map fun f => .cons k e f
end

/-- A member of the group that is no attribute. -/
def File.member (f : File K) (key : Nat) : Bool :=
  match f.get key with
  | some (.attr _) => false
  | some _ => true
  | none => false

/-- `isinstance(f[key], h5py.Group)` with `type` in the attributes (325-326). -/
def File.type (f : File K) : Option (Attr K) :=
  match f.get typeKey with
  | some (.attr a) => some a
  | _ => none

/-- An attribute (315-323). -/
def loadAttr (unpickle : K → Option (Val K)) : Attr K → Val K
  | .empty => .none
  | .num x => (unpickle x).getD (.num x)
  | .str s => .str s

/-- A dataset (360-368): bytes are decoded to a list. Positions of compressed lists are only read there. -/
def loadData : Data K → Option (Val K)
  | .nums l => some (.arr l)
  | .bytes l => some (.strs l)
  | .ptr _ => Option.none

/-- A compressed list (332-341). -/
def loadCompressed (f : File K) : Option (Val K) :=
  match f.get indptrKey, f.get dataKey with
  | some (.data (.ptr p)), some (.data (.nums d)) => some (.nested (uncompress d p))
  | _, _ => none

mutual
/-- A member (324-368). Groups with another type, and groups with vertices and cells, are handed to
other classes. -/
def loadEntry (unpickle : K → Option (Val K)) : Entry K → Option (Tree (Val K))
  | .attr a => some (.leaf (loadAttr unpickle a))
  | .data d => (loadData d).map .leaf
  | .group f => match f.type with
    | some (.str t) => if t = compressedTag then (loadCompressed f).map .leaf else none
    | some _ => none
    | none =>
      if f.member verticesKey && f.member cellsKey then none
      else (load unpickle f).map .dict

/-- `loadDictFromHDF5` (310-369). -/
def load (unpickle : K → Option (Val K)) : File K → Option (Dict (Val K))
  | .nil => some .nil
  | .cons k e f => (loadEntry unpickle e).bind fun t => (load unpickle f).map fun d => .cons k t d
end

end PyNucleus.Parameters
