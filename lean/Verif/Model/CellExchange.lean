import Mathlib.Logic.Function.Basic

/-!
# Exchange of cells and vertices in a repartitioning

Models fem/PyNucleus_fem/repartitioner.pyx: `getNumPartitions` (165-169) and from `Repartitioner.getRepartitionedSubdomains` the
packing of cells (401-436), their exchange (443-498), the exchange of vertices (503-566) and the overlaps of old and new
subdomains (589-617).

Simplifications: arrays are functions or lists; the vertices of one cell are sent as one block (so the multiplication with
`numVerticesPerCell` in 486-490 and the division in 615-616 are left out); messages are delivered completely (`Alltoallv`, `Send`,
`Recv` are functions of what the other processes send); the order of the elements of a set is a parameter.
-/

namespace PyNucleus.CellExchange

/-- The number of partitions that a process sees (165-169): `new` is the size of `newComm` if the process belongs to it. -/
def numPartitions (globalSize oldSize : Nat) (new : Option Nat) : Nat :=
  match new with
  | some n => n
  | none => globalSize - oldSize

/-- The values of `np.unique(part)`, increasing (403). -/
def uniq (part : List Nat) : List Nat := (List.range (part.foldr max 0 + 1)).filter part.contains

/-- `sendCount` (412-417): `rk` is `newSubdomainGlobalRank_c`, `P` the size of the global communicator. -/
def sendCount (P : Nat) (rk : Nat → Nat) (part : List Nat) : List Nat :=
  (uniq part).foldl (fun c s => c.set (rk s) (part.count s)) (List.replicate P 0)

/-- Sums of the entries before `r`: `sendDispl` (418-420), `recvDispl` (467-469). -/
def displ (counts : List Nat) (r : Nat) : Nat := (counts.take r).sum

/-- Pointers `cellsToSendPtr` and the buffer that is filled. -/
structure Buf (α : Type) where
  ptr : Nat → Nat
  out : Nat → α

/-- One turn of the loops 422-426 and 431-436: write at the pointer of the rank and move it on. -/
def put {α : Type} (b : Buf α) (c : Nat × α) : Buf α :=
  ⟨Function.update b.ptr c.1 (b.ptr c.1 + 1), Function.update b.out (b.ptr c.1) c.2⟩

/-- The loop over all cells; `rs` are the ranks of the cells. -/
def fill {α : Type} (b : Buf α) (rs : List Nat) (vals : List α) : Buf α := (rs.zip vals).foldl put b

/-- The loop 427-429, from `rank` downwards. -/
def shiftBack : Nat → (Nat → Nat) → Nat → Nat
  | 0, p => Function.update p 0 0
  | r + 1, p => shiftBack r (Function.update p (r + 1) (p r))

/-- What a process of the old communicator has: partition of the cells, `cell_offset`, and the vertices of each cell. -/
structure Proc where
  part : List Nat
  offset : Nat
  cells : List (List Nat)

/-- `globalCellIdxToSend` with the pointers after the loop 422-426. -/
def packIdx (P : Nat) (rk : Nat → Nat) (p : Proc) : Buf Nat :=
  fill ⟨displ (sendCount P rk p.part), fun _ => 0⟩ (p.part.map rk) ((List.range p.part.length).map (· + p.offset))

/-- `cellsToSend` (427-436). -/
def packCells (P : Nat) (rk : Nat → Nat) (p : Proc) : Buf (List Nat) :=
  fill ⟨shiftBack P (packIdx P rk p).ptr, fun _ => []⟩ (p.part.map rk) p.cells

/-- `recvCount` on rank `q` (450-462), a message from each process that has cells for it. -/
def recvCount (P : Nat) (rk : Nat → Nat) (procs : List Proc) (q : Nat) : List Nat :=
  procs.map fun p => (sendCount P rk p.part).getD q 0

/-- The part of a buffer for rank `q`. -/
def segment {α : Type} (P : Nat) (rk : Nat → Nat) (p : Proc) (b : Buf α) (q : Nat) : List α :=
  (List.range ((sendCount P rk p.part).getD q 0)).map fun k => b.out (displ (sendCount P rk p.part) q + k)

/-- `Alltoallv` (477-478): `globalCellIdxToRecv` on rank `q`. -/
def recvIdx (P : Nat) (rk : Nat → Nat) (procs : List Proc) (q : Nat) : List Nat :=
  (procs.map fun p => segment P rk p (packIdx P rk p) q).flatten

/-- `Alltoallv` (497-498): `cellsToRecv` on rank `q`. -/
def recvCells (P : Nat) (rk : Nat → Nat) (procs : List Proc) (q : Nat) : List (List Nat) :=
  (procs.map fun p => segment P rk p (packCells P rk p) q).flatten

/-- `overlapCells[s]` (595-600), `OM.overlaps` (602-607). -/
def overlapCells (part : List Nat) (s : Nat) : List Nat := (List.range part.length).filter fun i => part.getD i 0 == s

/-- `OMnew.overlaps[rank]` (613-617). -/
def overlapNew (counts : List Nat) (r : Nat) : List Nat := List.range' (displ counts r) (counts.getD r 0)

/-- What a process has for sending vertices to the new subdomain `s`: local cells, `globalVertexIndices`, coordinates, and the elements
of the set `partitionVertices[s]` in some order (507-512). -/
structure Sender (α : Type) where
  part : List Nat
  cells : List (List Nat)
  globalIdx : Nat → Nat
  coords : Nat → α
  order : List Nat

/-- `globalVertexIndicesToSend[s]` and `verticesToSend[s]` (514-531). -/
def Sender.msg {α : Type} (d : Sender α) : List (Nat × α) := d.order.map fun v => (d.globalIdx v, d.coords v)

/-- The keys of `globalToLocal` in their order (536-547): `msgs` are the messages, pairs of global number and coordinates. -/
def keys {α : Type} (msgs : List (List (Nat × α))) : List Nat :=
  msgs.flatten.foldl (fun ks m => if ks.contains m.1 then ks else ks ++ [m.1]) []

/-- `newVertices` (549-556): the coordinates of the first message that holds the vertex. -/
def newVertices {α : Type} (msgs : List (List (Nat × α))) : List (Option α) :=
  (keys msgs).map fun g => (msgs.flatten.find? fun m => m.1 == g).map (·.2)

/-- `globalToLocal[g]` after 555; `none` stands for a `KeyError`. -/
def globalToLocal {α : Type} (msgs : List (List (Nat × α))) (g : Nat) : Option Nat :=
  if (keys msgs).contains g then some ((keys msgs).idxOf g) else none

/-- `cellsToRecv2` (561-566). -/
def newCells {α : Type} (msgs : List (List (Nat × α))) (cells : List (List Nat)) : Option (List (List Nat)) :=
  cells.mapM fun c => c.mapM (globalToLocal msgs)

end PyNucleus.CellExchange
