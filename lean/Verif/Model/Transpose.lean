import Verif.Model.CSR

/-!
# Model of `transpose`

/repo/base/PyNucleus_base/linear_operators.pyx 41-105 (the non-inplace branch for CSR matrices,
reached through `A.transpose()`), and 211-237 for graphs without values.
-/

namespace PyNucleus.CSR

open PyNucleus.Loops PyNucleus.Spec

variable {K : Type}

/-- `for i in range(nrow): for j in range(indptr[i], indptr[i+1]): f(i, indices[j], data[j])`. -/
def forEntries {σ : Type} [Zero K] (A : CSR K) (s : σ) (f : σ → Nat → Nat → K → σ) : σ :=
  forRange 0 A.numRows s fun s i => forRow A i s fun s c d => f s i c d

/-- `transpose`, linear_operators.pyx 41-102.  `newindices`, `newdata` are the contents of the
uninitialised arrays. -/
def transpose [Zero K] (A : CSR K) (newindices : List Nat) (newdata : List K) : CSR K :=
  -- 61-64
  let p := forEntries A (List.replicate (A.numCols + 1) 0) fun p _ c _ => p.modify (c + 1) (· + 1)
  -- 66-67
  let p := cumsum A.numCols p
  -- 70-75
  let s := forEntries A (p, newindices, newdata) fun s i c d =>
    (s.1.modify c (· + 1), s.2.1.set (s.1.getD c 0) i, s.2.2.set (s.1.getD c 0) d)
  -- 83-85, 99-102
  { indptr := rotate A.numCols s.1
    indices := s.2.1
    data := s.2.2
    numRows := A.numCols
    numCols := A.numRows }

/-- `sparseGraph.transpose`, linear_operators.pyx 211-237 (in place; the result is the new
state), with the graph as a matrix whose values are all `()`. -/
structure Graph where
  indptr : List Nat
  indices : List Nat
  numRows : Nat
  numCols : Nat

/-- The loop nest over the graph entries. -/
def Graph.forEntries {σ : Type} (G : Graph) (s : σ) (f : σ → Nat → Nat → σ) : σ :=
  forRange 0 G.numRows s fun s i =>
    forRange (G.indptr.getD i 0) (G.indptr.getD (i + 1) 0) s fun s j => f s i (G.indices.getD j 0)

def Graph.transpose (G : Graph) (newindices : List Nat) : Graph :=
  let p := G.forEntries (List.replicate (G.numCols + 1) 0) fun p _ c => p.modify (c + 1) (· + 1)
  let p := cumsum G.numCols p
  let s := G.forEntries (p, newindices) fun s i c =>
    (s.1.modify c (· + 1), s.2.set (s.1.getD c 0) i)
  { indptr := rotate G.numCols s.1
    indices := s.2
    numRows := G.numCols
    numCols := G.numRows }

end PyNucleus.CSR
