import Verif.Model.SortedRow

/-!
# Model of `sparsityPattern`

/repo/base/PyNucleus_base/sparsityPattern.pyx
-/

namespace PyNucleus.SparsityPattern

open PyNucleus.SortedRow

/-- 2^16, the modulus of `uint16_t` (sparsityPattern.pxd lines 9, 16-19). -/
def W : Nat := 65536

/-- State of a `sparsityPattern` object (sparsityPattern.pxd lines 12-19).
`rows` stands for `indexL`, `counts` and `lengths`; its length is `num_dofs`. -/
structure SP where
  initialLength : Nat
  rows : List (Row Unit)
  nnz : Nat
deriving Repr, DecidableEq

/-- `__init__`, sparsityPattern.pyx lines 16-27. -/
def SP.init (numDofs initialLength : Nat) : SP where
  initialLength := initialLength
  rows := List.replicate numDofs
    { buf := List.replicate initialLength (0, ()), count := 0, length := initialLength }
  nnz := 0

/-- Body of `add` for one row, sparsityPattern.pyx lines 67-80.  The realloc size is
computed in C `int`, the recorded capacity wraps in `uint16_t` (lines 71-72).
Returns the row and whether a new entry was made. -/
def addRow (initialLength : Nat) (r : Row Unit) (J : Int) : Option (Row Unit × Bool) :=
  match findIndex W r J with
  | none => none
  | some (true, _) => some (r, false)
  | some (false, m) =>
    let r1 : Row Unit :=
      if r.count = r.length then
        { r with buf := realloc (0, ()) r.buf (r.length + initialLength)
                 length := (r.length + initialLength) % W }
      else r
    match shiftUp m (r1.count - m) r1.buf with
    | none => none
    | some b =>
      match store b m (J, ()) with
      | none => none
      | some b' => some ({ r1 with buf := b', count := r1.count + 1 }, true)

/-- `add(I, J)`, sparsityPattern.pyx lines 64-81.  `none` is an access outside the
allocated memory (including `I` out of range). -/
def SP.add (s : SP) (I : Nat) (J : Int) : Option SP :=
  match s.rows[I]? with
  | none => none
  | some r =>
    match addRow s.initialLength r J with
    | none => none
    | some (r', isNew) =>
      some { s with rows := s.rows.set I r', nnz := if isNew then s.nnz + 1 else s.nnz }

/-- A sequence of `add` calls. -/
def SP.addAll (s : SP) : List (Nat × Int) → Option SP
  | [] => some s
  | (I, J) :: t =>
    match s.add I J with
    | none => none
    | some s' => s'.addAll t

/-- The `indptr` loop of `freeze`, sparsityPattern.pyx lines 104-108. -/
def indptrFrom : Nat → List Nat → List Nat
  | nnz, [] => [nnz]
  | nnz, c :: cs => nnz :: indptrFrom (nnz + c) cs

/-- `freeze`, sparsityPattern.pyx lines 83-109: `(indptr, indices)`. -/
def SP.freeze (s : SP) : List Nat × List Int :=
  (indptrFrom 0 (s.rows.map Row.count),
   (s.rows.map fun r => (r.buf.take r.count).map Prod.fst).flatten)

end PyNucleus.SparsityPattern
