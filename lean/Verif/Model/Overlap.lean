import Verif.Model.Loops
import Mathlib.Algebra.Field.Basic
import Mathlib.Logic.Function.Basic
import Mathlib.Data.List.Dedup

/-!
# Model of the algebraic overlaps

/repo/fem/PyNucleus_fem/algebraicOverlaps.pyx: `algebraicOverlap` (30-179) and `algebraicOverlapManager` (516-1508), overlaps of type
"standard" (two-sided messages), real vectors.

The ranks run the same sequence of collective calls of `accumulate` and `unique`, with arbitrary local computations in between.
`Step` is one step of one rank or of the message system; its executions are all interleavings.  A non-blocking send leaves
its buffer (`myExchangeOut`) with the message system, which reads it at some later time; the send is complete after that.  A
message is matched by sender, receiver and tag; tags count the messages from one rank to another (89, 98), here the number of
the call is used instead.  The buffer of a receive (`myExchangeIn`) is not used for anything else before it is processed, so arrival and
processing are one step.  Not modelled: one-sided overlaps, `vecNo` other than 0.
-/

namespace PyNucleus.Overlap

open PyNucleus.Loops

/-- `algebraicOverlapManager`: number of dofs and the dictionary `overlaps` in insertion order, with `shared_dofs` of each overlap. -/
structure Manager where
  n : Nat
  overlaps : List (Nat × List Nat)

/-- Keys of the dictionary. -/
def Manager.keys (M : Manager) : List Nat := M.overlaps.map Prod.fst

/-- `overlaps[s].shared_dofs`. -/
def Manager.shared (M : Manager) (s : Nat) : List Nat := ((M.overlaps.find? fun e => decide (e.1 = s)).map Prod.snd).getD []

variable {K : Type}

/-- `send`, 87-88: the contents of the buffer, which has `num_shared_dofs` entries (60). -/
def gather [Zero K] (x : List K) (shared : List Nat) : List K := shared.map fun d => x.getD d 0

/-- `accumulateProcess`, 109-110. -/
def accumulateProcess [Zero K] [Add K] (shared : List Nat) (msg : List K) (vec : List K) : List K :=
  forRange 0 shared.length vec fun v j => v.set (shared.getD j 0) (v.getD (shared.getD j 0) 0 + msg.getD j 0)

/-- `uniqueProcess`, 161-162. -/
def uniqueProcess [Zero K] (shared : List Nat) (msg : List K) (vec : List K) : List K :=
  forRange 0 shared.length vec fun v j => v.set (shared.getD j 0) (msg.getD j 0)

/-- The collective calls. -/
inductive Kind
  | accumulate
  | unique
  deriving DecidableEq

/-- To whom a rank sends: 892-908, 1047-1053. -/
def sendList (k : Kind) (M : Manager) (rank : Nat) : List Nat :=
  match k with
  | .accumulate => M.keys
  | .unique => M.keys.filter fun s => decide (s < rank)

/-- From whom a rank receives: 909, 1054-1056. -/
def recvList (k : Kind) (M : Manager) (rank : Nat) : List Nat :=
  match k with
  | .accumulate => M.keys
  | .unique => M.keys.filter fun s => decide (¬ s < rank)

/-- What happens with a message: 934, 1065. -/
def process [Zero K] [Add K] (k : Kind) (shared : List Nat) (msg vec : List K) : List K :=
  match k with
  | .accumulate => accumulateProcess shared msg vec
  | .unique => uniqueProcess shared msg vec

/-- State of a rank: calls done; whether it is in a call, and then what is left to send and to receive; the vector; all other memory;
incomplete sends (receiver and call). -/
structure Local (K M : Type) where
  call : Nat
  inCall : Bool
  toSend : List Nat
  toRecv : List Nat
  vec : List K
  mem : M
  pend : List (Nat × Nat)

/-- All ranks, send buffers by sender and receiver, messages on their way by sender, receiver and call. -/
structure State (K M : Type) where
  loc : Nat → Local K M
  buf : Nat → Nat → List K
  net : Nat → Nat → Nat → Option (List K)

/-- Write to a table with two indices. -/
def upd2 {A : Type} (f : Nat → Nat → A) (r s : Nat) (v : A) : Nat → Nat → A := fun a b => if a = r ∧ b = s then v else f a b

/-- Write to a table with three indices. -/
def upd3 {A : Type} (f : Nat → Nat → Nat → A) (r s t : Nat) (v : A) : Nat → Nat → Nat → A :=
  fun a b c => if a = r ∧ b = s ∧ c = t then v else f a b c

/-- The steps.  `prog` are the calls, `f` the local computation of a rank after a call. -/
inductive Step [Zero K] [Add K] {M : Type} (P : Nat) (ov : Nat → Manager) (prog : List Kind) (f : Nat → Nat → M × List K → M × List K) :
    State K M → State K M → Prop
  /-- Start of a call; `accumulate` waits for its earlier sends (887). -/
  | start (σ : State K M) (r : Nat) (k : Kind) (hr : r < P) (hin : (σ.loc r).inCall = false) (hk : prog[(σ.loc r).call]? = some k)
      (hwait : k = .accumulate → (σ.loc r).pend = []) :
      Step P ov prog f σ { σ with loc := Function.update σ.loc r { σ.loc r with
        inCall := true, toSend := sendList k (ov r) r, toRecv := recvList k (ov r) r } }
  /-- 907-909, 1050-1056: fill the buffer and post the send. -/
  | send (σ : State K M) (r s : Nat) (rest : List Nat) (hr : r < P) (hin : (σ.loc r).inCall = true) (hs : (σ.loc r).toSend = s :: rest) :
      Step P ov prog f σ { σ with
        loc := Function.update σ.loc r { σ.loc r with toSend := rest, pend := (s, (σ.loc r).call) :: (σ.loc r).pend }
        buf := upd2 σ.buf r s (gather (σ.loc r).vec ((ov r).shared s)) }
  /-- The message system takes the contents of the buffer. -/
  | copy (σ : State K M) (r s t : Nat) (hr : r < P) (hp : (s, t) ∈ (σ.loc r).pend) :
      Step P ov prog f σ { σ with
        loc := Function.update σ.loc r { σ.loc r with pend := (σ.loc r).pend.erase (s, t) }
        net := upd3 σ.net r s t (some (σ.buf r s)) }
  /-- 927-934 in any order; 1058-1065 in the order of the dictionary. -/
  | recv (σ : State K M) (r s : Nat) (k : Kind) (msg : List K) (hr : r < P) (hin : (σ.loc r).inCall = true) (hsend : (σ.loc r).toSend = [])
      (hk : prog[(σ.loc r).call]? = some k) (hs : s ∈ (σ.loc r).toRecv) (horder : k = .unique → (σ.loc r).toRecv.head? = some s)
      (hmsg : σ.net s r (σ.loc r).call = some msg) :
      Step P ov prog f σ { σ with
        loc := Function.update σ.loc r { σ.loc r with
          toRecv := (σ.loc r).toRecv.erase s, vec := process k ((ov r).shared s) msg (σ.loc r).vec }
        net := upd3 σ.net s r (σ.loc r).call none }
  /-- End of a call, and local computation; `unique` waits for its own sends (1066). -/
  | finish (σ : State K M) (r : Nat) (hr : r < P) (hin : (σ.loc r).inCall = true) (hsend : (σ.loc r).toSend = []) (hrecv : (σ.loc r).toRecv = [])
      (hwait : prog[(σ.loc r).call]? = some .unique → ∀ e ∈ (σ.loc r).pend, e.2 ≠ (σ.loc r).call) :
      Step P ov prog f σ { σ with loc := Function.update σ.loc r { σ.loc r with
        call := (σ.loc r).call + 1, inCall := false, mem := (f r (σ.loc r).call ((σ.loc r).mem, (σ.loc r).vec)).1
        vec := (f r (σ.loc r).call ((σ.loc r).mem, (σ.loc r).vec)).2 } }

/-- Executions, with the number of steps. -/
inductive Steps [Zero K] [Add K] {M : Type} (P : Nat) (ov : Nat → Manager) (prog : List Kind) (f : Nat → Nat → M × List K → M × List K) :
    State K M → Nat → State K M → Prop
  | refl (σ : State K M) : Steps P ov prog f σ 0 σ
  | tail (σ τ ρ : State K M) (n : Nat) : Steps P ov prog f σ n τ → Step P ov prog f τ ρ → Steps P ov prog f σ (n + 1) ρ

/-- Start: no messages; buffers contain anything. -/
def initial {M : Type} (x : Nat → M × List K) (buf : Nat → Nat → List K) : State K M where
  loc := fun r => ⟨0, false, [], [], (x r).2, (x r).1, []⟩
  buf := buf
  net := fun _ _ _ => none

/-! ## Distribution -/

/-- `dofCount[dof] += 1`, or 2 if new, 566-569. -/
def countOne (d : List (Nat × Nat)) (dof : Nat) : List (Nat × Nat) :=
  if (d.find? fun e => decide (e.1 = dof)).isSome then d.map fun e => if e.1 = dof then (e.1, e.2 + 1) else e else d ++ [(dof, 2)]

/-- `prepareDistribute`, 558-579: `dofCount`. -/
def Manager.dofCount (M : Manager) : List (Nat × Nat) :=
  M.overlaps.foldl (fun d o => o.2.foldl countOne d) []

/-- `Didx`, `Dval`. -/
def Manager.prepareDistribute [Field K] (M : Manager) : List (Nat × K) := M.dofCount.map fun e => (e.1, 1 / (e.2 : K))

/-! ## Counting and numbering -/

/-- `countDoFs`, 1291-1295, before `allreduce`: dofs that no lower rank has. -/
def Manager.countLocal (M : Manager) (rank : Nat) : Nat :=
  M.n - ((M.overlaps.filter fun o => decide (o.1 < rank)).flatMap Prod.snd).dedup.length

/-- `countDoFs` with `allreduce`. -/
def countDoFs (P : Nat) (ov : Nat → Manager) : Nat := ((List.range P).map fun r => (ov r).countLocal r).sum

/-- `getGlobalIndices`, 1299-1300. -/
def ranks (ov : Nat → Manager) (rank : Nat) : List Nat := List.replicate (ov rank).n rank

/-- 1305-1308. -/
def countOwned (rank : Nat) (v : List Nat) : Nat := forRange 0 v.length 0 fun k i => if v.getD i 0 = rank then k + 1 else k

/-- 1309-1310: `scan` minus the own contribution; `v` are the vectors of all ranks. -/
def offset (v : Nat → List Nat) (rank : Nat) : Nat := ((List.range rank).map fun q => countOwned q (v q)).sum

/-- 1311-1314. -/
def numberOwned (rank m : Nat) (v : List Nat) : List Nat :=
  (forRange 0 v.length (v, m) fun vm i => if vm.1.getD i 0 = rank then (vm.1.set i vm.2, vm.2 + 1) else vm).1

/-- `distribute`, 820-822. -/
def distribute [Field K] (D : List (Nat × K)) (vec : List K) : List K :=
  D.foldl (fun v e => v.set e.1 (v.getD e.1 0 * e.2)) vec

end PyNucleus.Overlap
