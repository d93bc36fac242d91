/-!
# Model of `productIterator`

/repo/base/PyNucleus_base/intTuple.pyx, lines 107-132.
-/

namespace PyNucleus.ProductIterator

/-- `reset`, lines 113-118 (for `dim ≥ 1`). -/
def reset (dim : Nat) : List Int := List.replicate (dim - 1) 0 ++ [-1]

/-- The `while` loop of `step`, lines 125-132, at position `i`.  Returns the array and the
result of `step`. -/
def carry (m : Int) (idx : List Int) : Nat → List Int × Bool
  | 0 => if idx.getD 0 0 = m then (idx.set 0 0, false) else (idx, true)
  | i + 1 =>
    if idx.getD (i + 1) 0 = m then
      carry m ((idx.set (i + 1) 0).modify i (· + 1)) i
    else (idx, true)

/-- `step`, lines 120-132 (for `dim ≥ 1`). -/
def step (m : Int) (idx : List Int) : List Int × Bool :=
  carry m (idx.modify (idx.length - 1) (· + 1)) (idx.length - 1)

/-- `while it.step(): use it.idx`: the arrays seen, `none` when the fuel is used up. -/
def drain (m : Int) : Nat → List Int → Option (List (List Int))
  | 0, _ => none
  | fuel + 1, idx =>
    match step m idx with
    | (_, false) => some []
    | (idx', true) => (drain m fuel idx').map (idx' :: ·)

end PyNucleus.ProductIterator
