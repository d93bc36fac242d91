/-!
# Model of the index set classes

/repo/base/PyNucleus_base/tupleDict.pyx.  `INDEX_t` values are `Int`; the result `none`
stands for an access outside an array.
-/

namespace PyNucleus.IndexSet

/-- `for mid in range(low, high): if indexArray[mid] == i: return mid` (lines 167-170,
188-191).  `n` iterations left, loop variable `mid`. -/
def linearSearch (a : List Int) (i : Int) : Nat → Nat → Option (Option Nat)
  | 0, _ => some none
  | n + 1, mid =>
    match a[mid]? with
    | none => none
    | some x => if x = i then some (some mid) else linearSearch a i n (mid + 1)

/-- The `while` loop of `inSet`/`position`, lines 172-180 and 193-201. -/
def binarySearch (a : List Int) (i : Int) (low high : Nat) : Option (Option Nat) :=
  match a[low]? with
  | none => none
  | some x =>
    if x = i then some (some low)
    else if _h : high - low ≤ 1 then some none
    else
      match a[(low + high) / 2]? with
      | none => none
      | some y =>
        if y ≤ i then binarySearch a i ((low + high) / 2) high
        else binarySearch a i low ((low + high) / 2)
termination_by high - low
decreasing_by all_goals omega

/-- Search with the size threshold, lines 163-180 and 184-201. -/
def search (a : List Int) (i : Int) : Option (Option Nat) :=
  if a.length < 20 then linearSearch a i a.length 0 else binarySearch a i 0 a.length

/-- `arrayIndexSet.inSet`, lines 161-180. -/
def inSet (a : List Int) (i : Int) : Option Bool := (search a i).map Option.isSome

/-- `arrayIndexSet.position`, lines 182-201: `-1` when absent. -/
def position (a : List Int) (i : Int) : Option Int :=
  (search a i).map fun r => match r with | some k => (k : Int) | none => -1

/-- First pass of `union`, lines 244-263: number of entries of the result.  The pair of
cursors `(k1, k2)` is represented by the remaining suffixes of both arrays. -/
def unionCount : List Int → List Int → Nat
  | [], l2 => l2.length
  | l1, [] => l1.length
  | i1 :: t1, i2 :: t2 =>
    if i1 = i2 then unionCount t1 t2 + 1
    else if i1 < i2 then unionCount t1 (i2 :: t2) + 1
    else unionCount (i1 :: t1) t2 + 1
termination_by l1 l2 => l1.length + l2.length

/-- Second pass of `union`, lines 267-293: the values written. -/
def unionFill : List Int → List Int → List Int
  | [], l2 => l2
  | l1, [] => l1
  | i1 :: t1, i2 :: t2 =>
    if i1 = i2 then i1 :: unionFill t1 t2
    else if i1 < i2 then i1 :: unionFill t1 (i2 :: t2)
    else i2 :: unionFill (i1 :: t1) t2
termination_by l1 l2 => l1.length + l2.length

/-- First pass of `inter`, lines 307-320. -/
def interCount : List Int → List Int → Nat
  | [], _ => 0
  | _, [] => 0
  | i1 :: t1, i2 :: t2 =>
    if i1 = i2 then interCount t1 t2 + 1
    else if i1 < i2 then interCount t1 (i2 :: t2)
    else interCount (i1 :: t1) t2
termination_by l1 l2 => l1.length + l2.length

/-- Second pass of `inter`, lines 324-338. -/
def interFill : List Int → List Int → List Int
  | [], _ => []
  | _, [] => []
  | i1 :: t1, i2 :: t2 =>
    if i1 = i2 then i1 :: interFill t1 t2
    else if i1 < i2 then interFill t1 (i2 :: t2)
    else interFill (i1 :: t1) t2
termination_by l1 l2 => l1.length + l2.length

/-- First pass of `setminus`, lines 352-369. -/
def minusCount : List Int → List Int → Nat
  | [], _ => 0
  | l1, [] => l1.length
  | i1 :: t1, i2 :: t2 =>
    if i1 = i2 then minusCount t1 t2
    else if i1 < i2 then minusCount t1 (i2 :: t2) + 1
    else minusCount (i1 :: t1) t2
termination_by l1 l2 => l1.length + l2.length

/-- Second pass of `setminus`, lines 373-393. -/
def minusFill : List Int → List Int → List Int
  | [], _ => []
  | l1, [] => l1
  | i1 :: t1, i2 :: t2 =>
    if i1 = i2 then minusFill t1 t2
    else if i1 < i2 then i1 :: minusFill t1 (i2 :: t2)
    else minusFill (i1 :: t1) t2
termination_by l1 l2 => l1.length + l2.length

/-- Writing the values `xs` into a freshly allocated array of `n` entries: `none` when a
write is outside the array or an entry stays uninitialised. -/
def fillNew (n : Nat) (xs : List Int) : Option (List Int) :=
  if xs.length = n then some xs else none

/-- `union`, lines 234-295. -/
def union (a b : List Int) : Option (List Int) := fillNew (unionCount a b) (unionFill a b)

/-- `inter`, lines 297-340. -/
def inter (a b : List Int) : Option (List Int) := fillNew (interCount a b) (interFill a b)

/-- `setminus`, lines 342-395. -/
def setminus (a b : List Int) : Option (List Int) := fillNew (minusCount a b) (minusFill a b)

/-- The `int` value of a 32 bit difference. -/
def wrap32 (x : Int) : Int := (x + 2147483648) % 4294967296 - 2147483648

/-- `compareIndices`, lines 145-149 (the difference is computed in C `int`). -/
def compareIndices (a b : Int) : Int := wrap32 (a - b)

/-- `arrayIndexSet.__init__` with `sorted=False`, lines 153-159.  `qsort` is modelled as an
insertion sort driven by the comparator `compareIndices` (trusted: `qsort` sorts whenever
the comparator is a total preorder). -/
def insertBy (x : Int) : List Int → List Int
  | [] => [x]
  | y :: t => if compareIndices x y ≤ 0 then x :: y :: t else y :: insertBy x t

def ofArray : List Int → List Int
  | [] => []
  | x :: t => insertBy x (ofArray t)

/-! ### rangeIndexSet -/

/-- `rangeIndexSetIterator.step` at counter value `k` (after `self.k += 1`), lines 125-142. -/
def rangeStep (start stop increment : Int) (k : Nat) : Option Int :=
  if increment > 0 then
    if start + increment * k < stop then some (start + increment * k) else none
  else if increment < 0 then
    if start + increment * k > stop then some (start + increment * k) else none
  else none

/-- Draining the iterator (`for i in rangeSet`, `__next__` lines 100-104): the values
produced from counter `k` on, at most `fuel` of them; `none` when the fuel did not reach the
end. -/
def rangeCollect (start stop increment : Int) : Nat → Nat → Option (List Int)
  | 0, _ => none
  | fuel + 1, k =>
    match rangeStep start stop increment k with
    | none => some []
    | some x => (rangeCollect start stop increment fuel (k + 1)).map (x :: ·)

/-- `indexSet.isSorted`, lines 67-79, on the values produced by the iterator. -/
def isSortedFrom (acc : Bool) : Int → List Int → Bool
  | _, [] => acc
  | i, j :: t => isSortedFrom (acc && decide (i < j)) j t

def isSorted : List Int → Bool
  | [] => true
  | i :: t => isSortedFrom true i t

end PyNucleus.IndexSet
