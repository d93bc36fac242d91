import Verif.Model.SortedRow

/-!
# Model of `tupleDict{VALUE}`

/repo/base/PyNucleus_base/tupleDict_{VALUE}.pxi, instantiated in
/repo/base/setup.py lines 136-142 with `LENGTH_t = np.uint8_t`.
-/

namespace PyNucleus.TupleDict

open PyNucleus.SortedRow

/-- Constructor arguments (tupleDict_{VALUE}.pxi lines 9-14) together with the modulus `W`
of `LENGTH_t` (2^8 for `tupleDictINDEX`) and the value `invalid` (line 32). -/
structure Config (V : Type) where
  W : Nat
  initialLength : Nat
  lengthInc : Nat
  deleteHits : Bool
  logicalAndHits : Bool
  invalid : V

/-- Object state; the length of `rows` is `num_dofs`. -/
structure Dict (V : Type) where
  rows : List (Row V)
  nnz : Int
deriving Repr, DecidableEq

/-- `__init__`, tupleDict_{VALUE}.pxi lines 17-30. -/
def init {V : Type} (c : Config V) (numDofs : Nat) : Dict V where
  rows := List.replicate numDofs
    { buf := List.replicate (c.initialLength % c.W) (0, c.invalid), count := 0
      length := c.initialLength % c.W }
  nnz := 0

/-- Removal of slot `m`, tupleDict_{VALUE}.pxi lines 93-96 and 129-132
(`counts[I] -= 1` wraps in `LENGTH_t`). -/
def deleteAt {V : Type} (c : Config V) (r : Row V) (m : Nat) : Option (Row V) :=
  match shiftDown (r.count - (m + 1)) m r.buf with
  | none => none
  | some b => some { r with buf := b, count := (r.count + (c.W - 1)) % c.W }

/-- `increaseSize`, tupleDict_{VALUE}.pxi lines 80-83: the recorded capacity wraps first,
then memory is reallocated to the wrapped size. -/
def increaseSize {V : Type} (c : Config V) (r : Row V) : Row V :=
  let l := (r.length + c.lengthInc) % c.W
  { r with buf := realloc (0, c.invalid) r.buf l, length := l }

/-- The insertion branch of `enterValue`, tupleDict_{VALUE}.pxi lines 105-117. -/
def insertAt {V : Type} (c : Config V) (r : Row V) (m : Nat) (J : Int) (val : V) :
    Option (Row V) :=
  let r1 := if r.count = r.length then increaseSize c r else r
  match shiftUp m (r1.count - m) r1.buf with
  | none => none
  | some b =>
    match store b m (J, val) with
    | none => none
    | some b' => some { r1 with buf := b', count := (r1.count + 1) % c.W }

/-- `enterValue` on one row, tupleDict_{VALUE}.pxi lines 85-119.  Returns the new row, the
change of `nnz` and the returned value. -/
def enterRow {V : Type} [OrOp V] (c : Config V) (r : Row V) (J : Int) (val : V) :
    Option (Row V × Int × V) :=
  match findIndex c.W r J with
  | none => none
  | some (true, m) =>
    match r.buf[m]? with
    | none => none
    | some (K, old) =>
      if c.deleteHits then
        match deleteAt c r m with
        | none => none
        | some r' => some (r', -1, old)
      else if c.logicalAndHits then
        match store r.buf m (K, old ||| val) with
        | none => none
        | some b => some ({ r with buf := b }, 0, old ||| val)
      else some (r, 0, old)
  | some (false, m) =>
    match insertAt c r m J val with
    | none => none
    | some r' => some (r', 1, val)

/-- `removeValue` on one row, tupleDict_{VALUE}.pxi lines 121-135. -/
def removeRow {V : Type} (c : Config V) (r : Row V) (J : Int) : Option (Row V × Int × V) :=
  match findIndex c.W r J with
  | none => none
  | some (true, m) =>
    match r.buf[m]? with
    | none => none
    | some (_, old) =>
      match deleteAt c r m with
      | none => none
      | some r' => some (r', -1, old)
  | some (false, _) => some (r, 0, c.invalid)

/-- `getValue` on one row, tupleDict_{VALUE}.pxi lines 143-149. -/
def getRow {V : Type} (c : Config V) (r : Row V) (J : Int) : Option V :=
  match findIndex c.W r J with
  | none => none
  | some (true, m) => (r.buf[m]?).map Prod.snd
  | some (false, _) => some c.invalid

/-- Calls a client can make. -/
inductive Op (V : Type) where
  | enter (I : Nat) (J : Int) (val : V)
  | remove (I : Nat) (J : Int)
  | get (I : Nat) (J : Int)

/-- One call: new state and returned value; `none` is an access outside the allocated
memory. -/
def step {V : Type} [OrOp V] (c : Config V) (d : Dict V) : Op V → Option (Dict V × V)
  | .enter I J val =>
    match d.rows[I]? with
    | none => none
    | some r =>
      match enterRow c r J val with
      | none => none
      | some (r', dn, out) => some ({ rows := d.rows.set I r', nnz := d.nnz + dn }, out)
  | .remove I J =>
    match d.rows[I]? with
    | none => none
    | some r =>
      match removeRow c r J with
      | none => none
      | some (r', dn, out) => some ({ rows := d.rows.set I r', nnz := d.nnz + dn }, out)
  | .get I J =>
    match d.rows[I]? with
    | none => none
    | some r => (getRow c r J).map fun v => (d, v)

/-- A history of calls with the list of returned values. -/
def run {V : Type} [OrOp V] (c : Config V) (d : Dict V) : List (Op V) → Option (Dict V × List V)
  | [] => some (d, [])
  | op :: ops =>
    match step c d op with
    | none => none
    | some (d', out) =>
      match run c d' ops with
      | none => none
      | some (d'', outs) => some (d'', out :: outs)

/-- `while i < num_dofs and counts[i] == 0: i += 1`,
tupleDict_{VALUE}.pxi lines 166-167 and 185-186. -/
def skipEmpty {V : Type} (rows : List (Row V)) (i : Nat) : Nat :=
  if h : i < rows.length then
    if rows[i].count = 0 then skipEmpty rows (i + 1) else i
  else i
termination_by rows.length - i

/-- Iterator cursor `(self.i, self.jj)`. -/
structure Cursor where
  i : Nat
  jj : Nat
deriving Repr, DecidableEq

/-- `startIter`, tupleDict_{VALUE}.pxi lines 164-168. -/
def startIter {V : Type} (d : Dict V) : Cursor := ⟨skipEmpty d.rows 0, 0⟩

/-- Result of `next`: end of iteration, or an item and the advanced cursor. -/
inductive NextResult (V : Type) where
  | stop
  | item (key : Nat × Int) (val : V) (cur : Cursor)
deriving Repr, DecidableEq

/-- `next`, tupleDict_{VALUE}.pxi lines 170-188; `none` is an access outside the buffer.
`jj < counts[i]-1` is evaluated in C `int`. -/
def next {V : Type} (d : Dict V) (cur : Cursor) : Option (NextResult V) :=
  match d.rows[cur.i]? with
  | none => some .stop
  | some r =>
    match r.buf[cur.jj]? with
    | none => none
    | some (j, v) =>
      if (cur.jj : Int) < (r.count : Int) - 1 then
        some (.item (cur.i, j) v ⟨cur.i, cur.jj + 1⟩)
      else some (.item (cur.i, j) v ⟨skipEmpty d.rows (cur.i + 1), 0⟩)

/-- `while d.next(e, &val): ...` with at most `fuel` calls; the flag tells whether the end
was reported. -/
def iterate {V : Type} (d : Dict V) : Nat → Cursor → Option (List ((Nat × Int) × V) × Bool)
  | 0, _ => some ([], false)
  | fuel + 1, cur =>
    match next d cur with
    | none => none
    | some .stop => some ([], true)
    | some (.item k v cur') =>
      match iterate d fuel cur' with
      | none => none
      | some (l, b) => some ((k, v) :: l, b)

/-- `getData`, tupleDict_{VALUE}.pxi lines 190-203. -/
def getData {V : Type} (d : Dict V) : List (Int × V) :=
  (d.rows.map fun r => r.buf.take r.count).flatten

/-- Pickled state `__getstate__`, tupleDict_{VALUE}.pxi lines 205-207 (the constructor
flags are kept in `Config`). -/
def getState {V : Type} (d : Dict V) : List Nat × List (Int × V) :=
  (d.rows.map Row.count, getData d)

/-- The row filling loop of `__setstate__`, tupleDict_{VALUE}.pxi lines 217-224. -/
def splitCounts {V : Type} : List Nat → List (Int × V) → List (Row V)
  | [], _ => []
  | n :: ns, data =>
    { buf := data.take n, count := n, length := n } :: splitCounts ns (data.drop n)

/-- `__setstate__`, tupleDict_{VALUE}.pxi lines 209-225. -/
def setState {V : Type} (s : List Nat × List (Int × V)) : Dict V where
  rows := splitCounts s.1 s.2
  nnz := s.2.length

/-- `merge`, tupleDict_{VALUE}.pxi lines 227-235 (iteration over `other`, entering every
item). -/
def mergeItems {V : Type} [OrOp V] (c : Config V) (d : Dict V) (items : List ((Nat × Int) × V)) :
    Option (Dict V) :=
  (run c d (items.map fun p => Op.enter p.1.1 p.1.2 p.2)).map Prod.fst

end PyNucleus.TupleDict
