/-!
# Growable sorted rows

Model of the memory layout shared by `sparsityPattern`
(/repo/base/PyNucleus_base/sparsityPattern.pyx) and `tupleDict`
(/repo/base/PyNucleus_base/tupleDict_{VALUE}.pxi): per row a heap buffer, a count of
used slots and a recorded capacity held in a small unsigned integer.

A result `none` means that the C code would touch memory outside the allocated buffer.
-/

namespace PyNucleus.SortedRow

/-- One row.  `buf` is the allocated memory (its length is what `PyMem_Realloc` was asked
for), `count` is `self.counts[I]`, `length` is `self.lengths[I]`.
/repo/base/PyNucleus_base/tupleDict_decl_{VALUE}.pxi lines 9-16,
/repo/base/PyNucleus_base/sparsityPattern.pxd lines 12-18.
Simplification: `indexL[I]` and `vals[I]` always have the same size and are kept as one
buffer of pairs. -/
structure Row (V : Type) where
  buf : List (Int × V)
  count : Nat
  length : Nat
deriving Repr, DecidableEq

/-- The used part of a row (an observer, used in specifications only). -/
def Row.live {V : Type} (r : Row V) : List (Int × V) := r.buf.take r.count

/-- The column indices in use. -/
def Row.keys {V : Type} (r : Row V) : List Int := r.live.map Prod.fst

/-- A store to `buf[n]`; fails outside the allocation. -/
def store {α : Type} (buf : List α) (n : Nat) (x : α) : Option (List α) :=
  if n < buf.length then some (buf.set n x) else none

/-- Linear search, sparsityPattern.pyx lines 35-45 and tupleDict_{VALUE}.pxi lines 51-61:
`n` is the number of iterations left, `m` the loop variable. -/
def findLinear {V : Type} (buf : List (Int × V)) (J : Int) : Nat → Nat → Option (Bool × Nat)
  | 0, m => some (false, m)
  | n + 1, m =>
    match buf[m]? with
    | none => none
    | some (K, _) =>
      if K = J then some (true, m)
      else if K > J then some (false, m)
      else findLinear buf J n (m + 1)

/-- Binary search, sparsityPattern.pyx lines 47-62 and tupleDict_{VALUE}.pxi lines 63-78. -/
def findBinary {V : Type} (buf : List (Int × V)) (J : Int) (low high : Nat) :
    Option (Bool × Nat) :=
  match buf[low]? with
  | none => none
  | some (K, _) =>
    if K = J then some (true, low)
    else if h : high - low ≤ 1 then
      if K > J then some (false, low) else some (false, low + 1)
    else
      match buf[(low + high) / 2]? with
      | none => none
      | some (K', _) =>
        if K' ≤ J then findBinary buf J ((low + high) / 2) high
        else findBinary buf J low ((low + high) / 2)
termination_by high - low
decreasing_by all_goals omega

/-- `findIndex`, sparsityPattern.pyx lines 29-62, tupleDict_{VALUE}.pxi lines 45-78.
Returns the flag and `self.index`.  `W` is the modulus of the unsigned type holding
`low`, `high`, `mid` and `index` (2^16 for `sparsityPattern`, 2^8 for `tupleDictINDEX`). -/
def findIndex {V : Type} (W : Nat) (r : Row V) (J : Int) : Option (Bool × Nat) :=
  if r.count < 20 then (findLinear r.buf J r.count 0).map fun p => (p.1, p.2 % W)
  else (findBinary r.buf J 0 (r.count % W)).map fun p => (p.1, p.2 % W)

/-- `for n in range(hi, m, -1): buf[n] = buf[n-1]`,
sparsityPattern.pyx lines 76-77, tupleDict_{VALUE}.pxi lines 111-113.
The first argument is the number of iterations left, `hi = m + it`. -/
def shiftUp {α : Type} (m : Nat) : Nat → List α → Option (List α)
  | 0, buf => some buf
  | it + 1, buf =>
    match buf[m + it]? with
    | none => none
    | some x =>
      match store buf (m + it + 1) x with
      | none => none
      | some buf' => shiftUp m it buf'

/-- `for n in range(m+1, hi): buf[n-1] = buf[n]`, tupleDict_{VALUE}.pxi lines 93-95 and
129-131.  The first argument is the number of iterations left. -/
def shiftDown {α : Type} : Nat → Nat → List α → Option (List α)
  | 0, _, buf => some buf
  | it + 1, m, buf =>
    match buf[m + 1]? with
    | none => none
    | some x =>
      match store buf m x with
      | none => none
      | some buf' => shiftDown it (m + 1) buf'

/-- `PyMem_Realloc` to `n` slots: keeps the common prefix, new slots hold junk. -/
def realloc {α : Type} (junk : α) (buf : List α) (n : Nat) : List α :=
  buf.take n ++ List.replicate (n - buf.length) junk

end PyNucleus.SortedRow
