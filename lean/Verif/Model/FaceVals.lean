import Verif.Model.SortedRow

/-!
# Model of `faceVals`

/repo/fem/PyNucleus_fem/meshCy.pyx, lines 2025-2150 (members: meshCy.pxd, lines 91-106): a map from triples of numbers to
numbers. `counts` and `lengths` are arrays of `np.uint8`.
-/

namespace PyNucleus.FaceVals

open PyNucleus.SortedRow (store shiftUp shiftDown realloc)

/-- One row. `indexL[I]`, `indexR[I]` and `vals[I]` always have the same size and are kept as one buffer of triples. -/
structure Row where
  buf : List (Int × Int × Int)
  count : Nat
  length : Nat
deriving Repr, DecidableEq

/-- Object state; the length of `rows` is `num_dofs`. -/
structure Dict where
  rows : List Row
  nnz : Int
  lengthInc : Nat
  deleteHits : Bool
deriving Repr, DecidableEq

/-- `__init__`, lines 2026-2050. -/
def init (numDofs initialLength lengthInc : Nat) (deleteHits : Bool) : Dict where
  rows := List.replicate numDofs { buf := List.replicate initialLength (0, 0, 0), count := 0, length := initialLength }
  nnz := 0
  lengthInc := lengthInc
  deleteHits := deleteHits

/-- `for m in range(counts[I]): if ...: (leave the loop)`: the first position with `p`; outer `none` is a read outside of the
buffer. The first argument is the number of iterations left. -/
def scan (p : Int × Int × Int → Bool) (buf : List (Int × Int × Int)) : Nat → Nat → Option (Option Nat)
  | 0, _ => some none
  | n + 1, m =>
    match buf[m]? with
    | none => none
    | some e => if p e then some (some m) else scan p buf n (m + 1)

/-- `indexL[I][m] == J and indexR[I][m] == K` (lines 2056, 2108). -/
def isKey (J K : Int) (e : Int × Int × Int) : Bool := decide (e.1 = J ∧ e.2.1 = K)

/-- `indexL[I][m] > J or (indexL[I][m] == J and indexR[I][m] > K)` (line 2087). -/
def isGreater (J K : Int) (e : Int × Int × Int) : Bool := decide (J < e.1 ∨ (e.1 = J ∧ K < e.2.1))

/-- A hit in `enterValue` (lines 2057-2065). -/
def hitRow (deleteHits : Bool) (r : Row) (m : Nat) : Option (Row × Int × Int) :=
  match r.buf[m]? with
  | none => none
  | some e =>
    if deleteHits then
      match shiftDown (r.count - (m + 1)) m r.buf with
      | none => none
      | some b => some ({ r with buf := b, count := (r.count + 255) % 256 }, -1, e.2.2)
    else some (r, 0, e.2.2)

/-- More memory (lines 2069-2083): the sum is computed as an `int` for the allocation, and stored as `uint8`. -/
def grow (lengthInc : Nat) (r : Row) : Row :=
  if r.count = r.length then
    { r with buf := realloc (0, 0, 0) r.buf (r.length + lengthInc), length := (r.length + lengthInc) % 256 }
  else r

/-- Insertion of a new key (lines 2084-2104); the end of the loop without `break` is the position `counts[I]`, where nothing is
moved. -/
def insertRow (lengthInc : Nat) (r : Row) (J K val : Int) : Option (Row × Int × Int) :=
  match scan (isGreater J K) (grow lengthInc r).buf (grow lengthInc r).count 0 with
  | none => none
  | some o =>
    match shiftUp (o.getD (grow lengthInc r).count) ((grow lengthInc r).count - o.getD (grow lengthInc r).count)
        (grow lengthInc r).buf with
    | none => none
    | some b =>
      match store b (o.getD (grow lengthInc r).count) (J, K, val) with
      | none => none
      | some b' => some ({ grow lengthInc r with buf := b', count := ((grow lengthInc r).count + 1) % 256 }, 1, val)

/-- `enterValue` on one row (lines 2052-2104): the new row, the change of `nnz` and the returned value. -/
def enterRow (lengthInc : Nat) (deleteHits : Bool) (r : Row) (J K val : Int) : Option (Row × Int × Int) :=
  match scan (isKey J K) r.buf r.count 0 with
  | none => none
  | some (some m) => hitRow deleteHits r m
  | some none => insertRow lengthInc r J K val

/-- `getValue` on one row (lines 2106-2111). -/
def getRow (r : Row) (J K : Int) : Option Int :=
  match scan (isKey J K) r.buf r.count 0 with
  | none => none
  | some none => some (-1)
  | some (some m) => (r.buf[m]?).map fun e => e.2.2

/-- Row `I`; `none` is an access outside of the arrays. -/
def row? (d : Dict) (I : Int) : Option Row := if 0 ≤ I then d.rows[I.toNat]? else none

/-- `enterValue`. -/
def enterValue (d : Dict) (I J K val : Int) : Option (Dict × Int) :=
  match row? d I with
  | none => none
  | some r =>
    match enterRow d.lengthInc d.deleteHits r J K val with
    | none => none
    | some (r', dn, out) => some ({ d with rows := d.rows.set I.toNat r', nnz := d.nnz + dn }, out)

/-- `getValue`. -/
def getValue (d : Dict) (I J K : Int) : Option Int :=
  match row? d I with
  | none => none
  | some r => getRow r J K

/-- Calls a client can make. -/
inductive Op
  | enter (I J K val : Int)
  | get (I J K : Int)

/-- One call. -/
def step (d : Dict) : Op → Option (Dict × Int)
  | .enter I J K val => enterValue d I J K val
  | .get I J K => (getValue d I J K).map fun v => (d, v)

/-- A history of calls with the list of returned values. -/
def run (d : Dict) : List Op → Option (Dict × List Int)
  | [] => some (d, [])
  | op :: ops =>
    match step d op with
    | none => none
    | some (d', out) =>
      match run d' ops with
      | none => none
      | some (d'', outs) => some (d'', out :: outs)

/-- `while i < num_dofs and counts[i] == 0: i += 1` (lines 2130-2131, 2147-2148). -/
def skipEmpty (rows : List Row) (i : Nat) : Nat :=
  if h : i < rows.length then
    if rows[i].count = 0 then skipEmpty rows (i + 1) else i
  else i
termination_by rows.length - i

/-- `startIter` (lines 2128-2132) and then `while next(f, &val)` (lines 2134-2151) with at most `fuel` calls from the cursor
`(i, jj)`; `none` is a read outside of a buffer or an exhausted fuel. -/
def iterate (d : Dict) : Nat → Nat → Nat → Option (List ((Int × Int × Int) × Int))
  | 0, _, _ => none
  | fuel + 1, i, jj =>
    match d.rows[i]? with
    | none => some []
    | some r =>
      match r.buf[jj]? with
      | none => none
      | some e =>
        (if (jj : Int) < (r.count : Int) - 1 then iterate d fuel i (jj + 1) else iterate d fuel (skipEmpty d.rows (i + 1)) 0).map
          fun l => (((i : Int), e.1, e.2.1), e.2.2) :: l

/-- All items in the order of the iteration. -/
def items (d : Dict) (fuel : Nat) : Option (List ((Int × Int × Int) × Int)) := iterate d fuel (skipEmpty d.rows 0) 0

end PyNucleus.FaceVals
