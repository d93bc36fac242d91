/-!
# Model of `bitArray` and its iterator

/repo/base/PyNucleus_base/tupleDict.pyx, lines 479-620.  `MEM_t` is `uint64`.  Indices are
natural numbers (a negative index is a caller error).  Allocation is assumed to succeed.
-/

namespace PyNucleus.BitArray

abbrev Word := BitVec 64

/-- `__init__`, lines 480-484. -/
def init (hintMaxLength maxElement : Nat) : List Word :=
  List.replicate (max hintMaxLength (maxElement / 64 + 1)) 0#64

/-- The reallocation branch of `set`, lines 492-497. -/
def grow (a : List Word) (k : Nat) : List Word :=
  if k ≥ a.length then a ++ List.replicate (k + 1 - a.length) 0#64 else a

/-- `set`, lines 486-498. -/
def set (a : List Word) (i : Nat) : List Word :=
  let k := i / 64
  let n := i - k * 64
  (grow a k).modify k fun w => w ||| (1#64 <<< n)

/-- `inSet`, lines 503-510. -/
def inSet (a : List Word) (i : Nat) : Bool :=
  let k := i / 64
  let n := i - k * 64
  match a[k]? with
  | some w => (w >>> n) &&& 1#64 != 0#64
  | none => false

/-- `fromSet`, lines 520-525: `empty` (lines 539-543) and one `set` per element. -/
def empty (a : List Word) : List Word := a.map fun _ => 0#64

def fromSet (a : List Word) (s : List Nat) : List Word := s.foldl set (empty a)

/-- Inner loop of `getNumEntries`, lines 532-535, `m` iterations. -/
def popcount : Nat → Word → Nat → Nat
  | 0, _, c => c
  | m + 1, v, c => popcount m (v >>> 1) (if v &&& 1#64 != 0#64 then c + 1 else c)

/-- `getNumEntries`, lines 527-537. -/
def getNumEntries (a : List Word) : Nat := a.foldl (fun c w => popcount 64 w c) 0

/-- `union`, lines 551-565. -/
def union : List Word → List Word → List Word
  | [], bs => bs
  | as, [] => as
  | a :: as, b :: bs => (a ||| b) :: union as bs

/-- `inter`, lines 567-575 (both lengths are at least one, so the new array has
`min(self.length, other.length)` words). -/
def inter : List Word → List Word → List Word
  | a :: as, b :: bs => (a &&& b) :: inter as bs
  | _, _ => []

/-- Iterator fields `k`, `n`, `i` of `bitArrayIterator`. -/
structure Iter where
  k : Int
  n : Nat
  i : Int
  deriving DecidableEq, Repr

/-- `reset`, lines 583-586. -/
def Iter.reset : Iter := { k := -1, n := 63, i := -1 }

/-- `for n in range(n, 64): if v & 1: return n; v = v >> 1`, `m` iterations left
(lines 603-609 and 613-619). -/
def scanWord : Nat → Nat → Word → Option Nat
  | 0, _, _ => none
  | m + 1, n, v => if v &&& 1#64 != 0#64 then some n else scanWord m (n + 1) (v >>> 1)

/-- `for k in range(k0+1, bA.length)`, lines 611-619; the list holds the words from `k` on. -/
def scanWords : Nat → List Word → Option (Nat × Nat)
  | _, [] => none
  | k, w :: ws =>
    match scanWord 64 0 w with
    | some n => some (k, n)
    | none => scanWords (k + 1) ws

/-- Result of one `step`. -/
inductive StepResult where
  | outOfBounds
  | done
  | value (it : Iter)
  deriving DecidableEq, Repr

/-- `step`, lines 588-620.  The read of `bA.a[k0]` on line 601 is not guarded; reading past
the end of the array is reported as `outOfBounds`. -/
def step (a : List Word) (it : Iter) : StepResult :=
  let p : Int × Nat := if it.n = 63 then (it.k + 1, 0) else (it.k, it.n + 1)
  let k0 := p.1
  let n0 := p.2
  if k0 < 0 then .outOfBounds
  else
    match a[k0.toNat]? with
    | none => .outOfBounds
    | some w =>
      match scanWord (64 - n0) n0 (w >>> n0) with
      | some n => .value { k := k0, n := n, i := k0 * 64 + n }
      | none =>
        match scanWords (k0.toNat + 1) (a.drop (k0.toNat + 1)) with
        | some (k, n) => .value { k := k, n := n, i := k * 64 + n }
        | none => .done

/-- `while it.step(): s.add(it.i)` (`toSet`, lines 512-518): the values in the order in
which they are produced.  `none` when memory outside the array is read (or the fuel is used
up). -/
def drain (a : List Word) : Nat → Iter → Option (List Int)
  | 0, _ => none
  | fuel + 1, it =>
    match step a it with
    | .outOfBounds => none
    | .done => some []
    | .value it' => (drain a fuel it').map (it'.i :: ·)

end PyNucleus.BitArray
