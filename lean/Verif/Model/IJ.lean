import Verif.Model.EdgeKey
import Verif.Model.SSS

/-!
# Model of the coordinate format operator

/repo/base/PyNucleus_base/IJOperator_{SCALAR}.pxi.  The Python dictionary `entries` is the list
of its items in insertion order.  `MAX_VAL` (linear_operators.pyx 35) is the same number as
`MAX_VAL_EDGE` of meshCy.pyx, so keys are made with `EdgeKey.encodeEdge`.
-/

namespace PyNucleus.IJ

open PyNucleus.Loops PyNucleus.Spec PyNucleus.EdgeKey PyNucleus.SSS

variable {K : Type}

/-- Items of the dictionary. -/
abbrev Entries (K : Type) := List (Int × K)

/-- `hv = MAX_VAL*I+J`, line 15. -/
def key (I J : Nat) : Int := encodeEdge ((I : Int), (J : Int))

/-- `d.get(hv, 0.)`. -/
def dget [Zero K] : Entries K → Int → K
  | [], _ => 0
  | (k, v) :: t, hv => if k = hv then v else dget t hv

/-- `d[hv] = val`: a present key keeps its place, a new key goes to the end. -/
def dset : Entries K → Int → K → Entries K
  | [], hv, val => [(hv, val)]
  | (k, v) :: t, hv, val => if k = hv then (k, val) :: t else (k, v) :: dset t hv val

/-- The dictionary after `d.pop(hv, 0.)`. -/
def dpop (d : Entries K) (hv : Int) : Entries K := d.filter fun e => e.1 ≠ hv

/-- `setEntry`, 13-16. -/
def setEntry (d : Entries K) (I J : Nat) (val : K) : Entries K := dset d (key I J) val

/-- `addToEntry`, 18-23, real scalars. -/
def addToEntry [Add K] [Zero K] (d : Entries K) (I J : Nat) (val : K) : Entries K :=
  dset (dpop d (key I J)) (key I J) (dget d (key I J) + val)

/-- `addToEntry` for complex scalars: `oldVal` is declared `REAL_t`, so a stored complex number
cannot be converted (`TypeError`) and the call ends after the `pop`. -/
def addToEntryComplex [Add K] [Zero K] (d : Entries K) (I J : Nat) (val : K) : Entries K :=
  if d.any fun e => e.1 = key I J then dpop d (key I J)
  else dset (dpop d (key I J)) (key I J) (0 + val)

/-- `getEntry`, 25-28. -/
def getEntry [Zero K] (d : Entries K) (I J : Nat) : K := dget d (key I J)

/-- `for I in range(n-1, 0, -1): p[I] = p[I-1]` and `p[0] = 0`, 66-68. -/
def shiftIJ (n : Nat) (p : List Nat) : List Nat :=
  ((List.range' 1 (n - 1)).reverse.foldl (fun p i => p.set i (p.getD (i - 1) 0)) p).set 0 0

/-- `to_csr_linear_operator`, 49-71, real scalars.  `u`, `v`: the uninitialised arrays. -/
def toCSR (d : Entries K) (n m : Nat) (u : List Nat) (v : List K) : CSR K :=
  let p := d.foldl (fun p e => p.modify ((decodeEdge e.1).1.toNat + 1) (· + 1)) (List.replicate (n + 1) 0)
  let p := cumsum n p
  let s := d.foldl (fun s e => put s (decodeEdge e.1).1.toNat (decodeEdge e.1).2.toNat e.2) (p, u, v)
  ⟨shiftIJ n s.1, s.2.1, s.2.2, n, m⟩

/-- A call of a client. -/
inductive Op (K : Type) where
  | set (I J : Nat) (val : K)
  | add (I J : Nat) (val : K)

/-- Position of a call. -/
def Op.pos : Op K → Nat × Nat
  | .set I J _ => (I, J)
  | .add I J _ => (I, J)

/-- One call (real scalars). -/
def step [Add K] [Zero K] (d : Entries K) : Op K → Entries K
  | .set I J val => setEntry d I J val
  | .add I J val => addToEntry d I J val

/-- One call (complex scalars). -/
def stepComplex [Add K] [Zero K] (d : Entries K) : Op K → Entries K
  | .set I J val => setEntry d I J val
  | .add I J val => addToEntryComplex d I J val

end PyNucleus.IJ
