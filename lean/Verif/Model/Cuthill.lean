import Verif.Model.Transpose

/-!
# Model of the Cuthill-McKee ordering

/repo/base/PyNucleus_base/sparseGraph.pyx 156-252.  The two `argsort` results are parameters
(`inds`, `rev`); for an empty graph `np.max` fails (the error is dropped, `cpdef void`) and `order` is
empty as it is here.  The `while` loop over the levels carries a step budget; Props/C18 shows that it
is never used up.
-/

namespace PyNucleus.Cuthill

open PyNucleus.Loops PyNucleus.CSR

/-- `_node_degrees`, 156-173. -/
def degrees (ind ptr : List Nat) (n : Nat) : List Nat :=
  forRange 0 n (List.replicate n 0) fun degree ii =>
    (forRange (ptr.getD ii 0) (ptr.getD (ii + 1) 0)
      (degree.set ii (ptr.getD (ii + 1) 0 - ptr.getD ii 0), false) fun s jj =>
        if s.2 then s
        else if ind.getD jj 0 = ii then (s.1.modify ii (· + 1), true)
        else s).1

/-- `np.max(degree)`. -/
def maxDegree (degree : List Nat) : Nat := degree.foldl max 0

/-- Arrays and counter of the search. -/
structure St where
  order : List Nat
  N : Nat
  inds : List Int
  td : List Nat

/-- 213-220: append the unvisited neighbours of `i`. -/
def visit (G : Graph) (rev : List Nat) (i : Nat) (s : St) : St :=
  forRange (G.indptr.getD i 0) (G.indptr.getD (i + 1) 0) s fun s jj =>
    let j := G.indices.getD jj 0
    if s.inds.getD (rev.getD j 0) 0 ≠ -1 then
      { s with inds := s.inds.set (rev.getD j 0) (-1), order := s.order.set s.N j, N := s.N + 1 }
    else s

/-- 230-238: the `while` loop and the two writes after it; `(temp_degrees, order)`. -/
def sinkDeg (off temp temp2 : Nat) : Nat → List Nat × List Nat → List Nat × List Nat
  | 0, s => (s.1.set 0 temp, s.2.set off temp2)
  | ll + 1, s =>
    if temp < s.1.getD ll 0 then
      sinkDeg off temp temp2 ll
        (s.1.set (ll + 1) (s.1.getD ll 0), s.2.set (off + ll + 1) (s.2.getD (off + ll) 0))
    else (s.1.set (ll + 1) temp, s.2.set (off + ll + 1) temp2)

/-- 222-238: sort the new nodes by degree. -/
def sortNew (degree : List Nat) (nOld : Nat) (s : St) : St :=
  let r := forRange nOld s.N (s.td, 0) fun r kk =>
    (r.1.set r.2 (degree.getD (s.order.getD kk 0) 0), r.2 + 1)
  let levelLen := r.2
  let r := forRange 1 levelLen (r.1, s.order) fun r kk =>
    sinkDeg nOld (r.1.getD kk 0) (r.2.getD (nOld + kk) 0) kk r
  { s with td := r.1, order := r.2 }

/-- One pass over a level, 209-238. -/
def level (G : Graph) (degree rev : List Nat) (ls le : Nat) (s : St) : St :=
  forRange ls le s fun s ii => sortNew degree s.N (visit G rev (s.order.getD ii 0) s)

/-- The `while` loop, 208-242, with at most `fuel` passes; returns the last `level_start`,
`level_end` and the state. -/
def levels (G : Graph) (degree rev : List Nat) : Nat → Nat → Nat → St → Nat × Nat × St
  | 0, ls, le, s => (ls, le, s)
  | fuel + 1, ls, le, s =>
    if ls < le then
      let s' := level G degree rev ls le s
      levels G degree rev fuel le s'.N s'
    else (ls, le, s)

/-- One search from the seed `inds[zz]`, 201-242. -/
def search (G : Graph) (degree rev : List Nat) (seed : Nat) (s : St) : Nat × Nat × St :=
  let s1 : St := { s with
    order := s.order.set s.N seed
    N := s.N + 1
    inds := s.inds.set (rev.getD seed 0) (-1) }
  levels G degree rev (G.numRows + 1) (s1.N - 1) s1.N s1

/-- The loop over `zz`, 199-245; the flag is the `break`. -/
def outer (G : Graph) (degree rev : List Nat) (s : St) : St :=
  (forRange 0 G.numRows (s, false) fun (r : St × Bool) zz =>
    if r.2 then r
    else
      let s := if r.1.inds.getD zz 0 ≠ -1 then
          (search G degree rev (r.1.inds.getD zz 0).toNat r.1).2.2
        else r.1
      (s, s.N = G.numRows)).1

/-- `cuthill_mckee`, 177-252.  `order` and `u`: uninitialised arrays of length `num_rows`. -/
def cuthillMcKee (G : Graph) (inds rev : List Nat) (order u : List Nat) (reverse : Bool) : List Nat :=
  let degree := degrees G.indices G.indptr G.numRows
  let s := outer G degree rev
    ⟨order, 0, inds.map Int.ofNat, List.replicate (maxDegree degree) 0⟩
  if reverse then
    let r := forRange 0 G.numRows u fun r i => r.set (G.numRows - 1 - i) (s.order.getD i 0)
    forRange 0 G.numRows s.order fun o i => o.set i (r.getD i 0)
  else s.order

end PyNucleus.Cuthill
