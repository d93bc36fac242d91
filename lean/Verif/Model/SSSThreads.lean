import Verif.Model.SSS

/-!
# Model of the product with several threads

/repo/base/PyNucleus_base/SSS_LinearOperator_{SCALAR}.pxi 33-43, `matvec` with `NoThreads > 1`.  The rows of each loop are divided between the threads; `chunks` has
the rows of each thread.  The threads share `y`; an execution is a list of events in which the events of each thread appear in the order of its program.  There is a barrier
between the two loops.  An update `y[k] += v` is a load and a store.  The memory is sequentially consistent.
-/

namespace PyNucleus.SSSThreads

open PyNucleus.Loops PyNucleus.Spec PyNucleus.CSR

variable {K : Type}

inductive Event (K : Type) where
  /-- `y[i] = v`. -/
  | write (t i : Nat) (v : K)
  /-- The value of `y[k]` is read into a register of the thread. -/
  | load (t k : Nat)
  /-- The register plus `v` is written to `y[k]`. -/
  | store (t k : Nat) (v : K)
deriving DecidableEq

/-- The thread of an event. -/
def Event.thread : Event K → Nat
  | .write t _ _ => t
  | .load t _ => t
  | .store t _ _ => t

/-- Registers of the threads and the shared vector. -/
abbrev State (K : Type) := (Nat → K) × List K

def step [Add K] [Zero K] (s : State K) : Event K → State K
  | .write _ i v => (s.1, s.2.set i v)
  | .load t k => (fun t' => if t' = t then s.2.getD k 0 else s.1 t', s.2)
  | .store t k v => (s.1, s.2.set k (s.1 t + v))

def run [Add K] [Zero K] (evs : List (Event K)) (s : State K) : State K := evs.foldl step s

/-- The first loop, 35-39: the rows of thread `t`. -/
def firstLoop [Semiring K] (S : SSS K) (x : List K) (t : Nat) (rows : List Nat) : List (Event K) :=
  rows.map fun i => .write t i (forRow S.lower i (S.diagonal.getD i 0 * x.getD i 0) fun temp j d => temp + d * x.getD j 0)

/-- The second loop, 40-42. -/
def secondLoop [Semiring K] (S : SSS K) (x : List K) (t : Nat) (rows : List Nat) : List (Event K) :=
  rows.flatMap fun i => forRow S.lower i [] fun l j d => l ++ [.load t j, .store t j (d * x.getD i 0)]

/-- The events of thread `t` are the program `prog t`, for all threads. -/
def Interleaves (evs : List (Event K)) (prog : Nat → List (Event K)) : Prop := ∀ t, evs.filter (fun e => e.thread = t) = prog t

/-- `r` is a possible result of `matvec` with rows `chunks[t]` for thread `t`. -/
def Possible [Semiring K] (S : SSS K) (x : List K) (chunks : List (List Nat)) (y r : List K) : Prop :=
  ∃ (e1 e2 : List (Event K)) (regs : Nat → K), Interleaves e1 (fun t => firstLoop S x t (chunks.getD t [])) ∧ Interleaves e2 (fun t => secondLoop S x t (chunks.getD t [])) ∧
    r = (run (e1 ++ e2) (regs, List.replicate y.length 0)).2

end PyNucleus.SSSThreads
