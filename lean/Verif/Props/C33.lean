import Verif.Proof.Overlap2
import Verif.Proof.OverlapExample

/-!
# C33: unique

Full statement: after `unique` every rank holds at each dof the value of the highest rank that has the dof, for every order of the dictionary of overlaps and every
interleaving, and other communication is unaffected.

Both parts fail.  `unique` overwrites the send buffers without waiting for the sends of an earlier `accumulate` (which does wait for its earlier sends, 887).
And the result depends on the order of the dictionary, which after `HDF5read` is the order of the keys as strings.
-/

namespace PyNucleus.Props.C33

open PyNucleus.Overlap

variable {K M : Type} [AddCommMonoid K] {P : Nat} {ov : Nat → Manager} {gid : Nat → Nat → Nat}

/-- Calls of `accumulate` and `unique` with arbitrary local computations in between, where no `unique` directly follows an `accumulate` and the dictionaries are in
increasing order: there is one sequence of results, given by sums over the ranks and values of the highest ranks, which all executions follow, without deadlock.
Missing for the full statement: `unique` directly after `accumulate` (`unique_after_accumulate_fails`), other orders of the dictionary
(`unique_dictionary_order_fails`). -/
theorem unique_every_schedule_partial (hc : Consistent P ov gid) {prog : List Kind} (hsafe : Safe prog)
    (hsorted : ∀ r, r < P → (ov r).keys.Pairwise (· < ·))
    (f : Nat → Nat → M × List K → M × List K) (hf : ∀ r c z, z.2.length = (ov r).n → (f r c z).2.length = (ov r).n)
    (x : Nat → M × List K) (hx : ∀ r, r < P → (x r).2.length = (ov r).n) :
    ∃ (Z : Nat → Nat → M × List K) (Y : Nat → Nat → List K) (N : Nat), Follows P ov gid prog f x Z Y ∧
      ∀ buf n σ, Steps P ov prog f (initial x buf) n σ →
        (∀ r, r < P → (σ.loc r).inCall = false → ((σ.loc r).mem, (σ.loc r).vec) = Z (σ.loc r).call r) ∧
        ((∃ r, r < P ∧ ((σ.loc r).inCall = true ∨ (σ.loc r).call < prog.length)) → ∃ τ, Step P ov prog f σ τ) ∧
        n ≤ N ∧ ((¬ ∃ τ, Step P ov prog f σ τ) → n = N ∧ ∀ r, r < P → (σ.loc r).call = prog.length ∧ (σ.loc r).inCall = false) :=
  schedule hc hsafe (fun _ => hsorted) f hf x hx

/-- One call: a rank that has returned holds the values of the highest ranks. -/
theorem unique_highest_rank_partial (hc : Consistent P ov gid) (hsorted : ∀ r, r < P → (ov r).keys.Pairwise (· < ·)) (x : Nat → List K)
    (hx : ∀ r, r < P → (x r).length = (ov r).n) (buf : Nat → Nat → List K) (n : Nat) (σ : State K Unit)
    (h : Steps P ov [.unique] (fun _ _ z => z) (initial (fun r => ((), x r)) buf) n σ) (r : Nat) (hr : r < P) (hin : (σ.loc r).inCall = false)
    (hcall : (σ.loc r).call = 1) (i : Nat) (hi : i < (ov r).n) (s j : Nat) (hs : s < P) (hj : j < (ov s).n) (hg : gid s j = gid r i)
    (hmax : ∀ s' j', s' < P → j' < (ov s').n → gid s' j' = gid r i → s' ≤ s) : (σ.loc r).vec.getD i 0 = (x s).getD j 0 := by
  obtain ⟨Z, Y, N, ⟨f1, f2, f3⟩, hall⟩ := unique_every_schedule_partial hc (prog := [.unique])
    (fun c h => by cases c <;> simp at h) hsorted (fun _ _ z => z) (fun _ _ _ h => h) (fun r => ((), x r)) hx
  have h1 := (hall buf n σ h).1 r hr hin
  rw [hcall, f3 0 (by simp) r hr] at h1
  have h2 : (Y 0 r).getD i 0 = (Z 0 s).2.getD j 0 := (f2 0 .unique rfl r hr).2 i hi s j hs hj hg hmax
  have h3 : (σ.loc r).vec = Y 0 r := congrArg Prod.snd h1
  rw [h3, h2, f1 s hs]

/-- Example: the overlaps of three ranks are in increasing order; calls may alternate as long as `accumulate` is not directly followed by `unique`. -/
example : (∀ r, r < 3 → (ov3 r).keys.Pairwise (· < ·)) ∧ Safe [.unique, .accumulate, .accumulate] ∧ Consistent 3 ov3 gid3 := by
  refine ⟨by decide, fun c h => ?_, consistent3⟩
  match c with
  | 0 => simp at h
  | 1 => simp
  | 2 => simp
  | c + 3 => simp at h

/-! ## A `unique` directly after an `accumulate` -/

/-- Two ranks with one dof. -/
def ov2 (r : Nat) : Manager :=
  match r with
  | 0 => ⟨1, [(1, [0])]⟩
  | _ => ⟨1, [(0, [0])]⟩

theorem ov2_shared (r s : Nat) : (ov2 r).shared s = [0] ∨ (ov2 r).shared s = [] := by
  by_cases h0 : s = 0
  · subst h0
    match r with
    | 0 => right; rfl
    | r + 1 => left; rfl
  by_cases h1 : s = 1
  · subst h1
    match r with
    | 0 => left; rfl
    | r + 1 => right; rfl
  right
  match r with
  | 0 => simp [Manager.shared, ov2, Ne.symm h1]
  | r + 1 => simp [Manager.shared, ov2, Ne.symm h0]

theorem ov2_n (r : Nat) : (ov2 r).n = 1 := by
  match r with
  | 0 => rfl
  | r + 1 => rfl

theorem consistent2 : Consistent 2 ov2 fun _ i => i where
  keys_nodup := by decide
  keys_lt := by decide
  symm := by decide
  shared_lt := fun r _ s i hi => by
    rw [ov2_n]
    rcases ov2_shared r s with h | h <;> rw [h] at hi <;> simp at hi
    omega
  inj := fun r hr i j hi hj h => h
  nodup := fun r _ s => by rcases ov2_shared r s with h | h <;> rw [h] <;> simp
  same := fun r s hr hs => by interval_cases r <;> interval_cases s <;> decide
  complete := fun r s i j hr hs hne hi hj h => by
    rw [ov2_n] at hi
    obtain rfl : i = 0 := by omega
    interval_cases r <;> interval_cases s <;> first | omega | decide

/-- After `accumulate` rank 1 computes a new vector, `[10]`. -/
def local2 (r c : Nat) (z : Unit × List Nat) : Unit × List Nat := if r = 1 ∧ c = 0 then ((), [10]) else z

/-- Rank 0 starts with `[1]`, rank 1 with `[2]`. -/
def start2 (r : Nat) : Unit × List Nat := ((), [r + 1])

/-- With `unique` directly after `accumulate`, `accumulate` can return 11 instead of 3 on rank 0: rank 1 has already written the next message, `[10]`, into
the buffer. -/
theorem unique_after_accumulate_fails :
    Consistent 2 ov2 (fun _ i => i) ∧ total 2 ov2 (fun _ i => i) (fun r => (start2 r).2) 0 = 3 ∧
    ∃ buf n σ, Steps 2 ov2 [.accumulate, .unique] local2 (initial start2 buf) n σ ∧ (σ.loc 0).inCall = false ∧ (σ.loc 0).call = 1 ∧
      (σ.loc 0).vec = [11] := by
  have h0 := Steps.refl (P := 2) (ov := ov2) (prog := [.accumulate, .unique]) (f := local2) (initial start2 fun _ _ => [0])
  have h1 := Steps.tail _ _ _ _ h0 (Step.start _ 1 .accumulate (by omega) rfl rfl (fun _ => rfl))
  have h2 := Steps.tail _ _ _ _ h1 (Step.send _ 1 0 [] (by omega) rfl rfl)
  have h3 := Steps.tail _ _ _ _ h2 (Step.start _ 0 .accumulate (by omega) rfl rfl (fun _ => rfl))
  have h4 := Steps.tail _ _ _ _ h3 (Step.send _ 0 1 [] (by omega) rfl rfl)
  have h5 := Steps.tail _ _ _ _ h4 (Step.copy _ 0 1 0 (by omega) (List.mem_cons_self))
  have h6 := Steps.tail _ _ _ _ h5 (Step.recv _ 1 0 .accumulate [1] (by omega) rfl rfl rfl (List.mem_cons_self) (fun h => by cases h) rfl)
  have h7 := Steps.tail _ _ _ _ h6 (Step.finish _ 1 (by omega) rfl rfl rfl (fun h => by cases h))
  have h8 := Steps.tail _ _ _ _ h7 (Step.start _ 1 .unique (by omega) rfl rfl (fun h => by cases h))
  have h9 := Steps.tail _ _ _ _ h8 (Step.send _ 1 0 [] (by omega) rfl rfl)
  have h10 := Steps.tail _ _ _ _ h9 (Step.copy _ 1 0 0 (by omega) (List.mem_cons_of_mem _ List.mem_cons_self))
  have h11 := Steps.tail _ _ _ _ h10 (Step.recv _ 0 1 .accumulate [10] (by omega) rfl rfl rfl (List.mem_cons_self) (fun h => by cases h) rfl)
  have h12 := Steps.tail _ _ _ _ h11 (Step.finish _ 0 (by omega) rfl rfl rfl (fun h => by cases h))
  exact ⟨consistent2, by decide, fun _ _ => [0], _, _, h12, rfl, rfl, rfl⟩

/-! ## Order of the dictionary -/

/-- Ranks 0, 2 and 10 share a dof; the other ranks have none.  The dictionary of rank 0 is in the order of the strings "10", "2". -/
def ov11 (r : Nat) : Manager :=
  match r with
  | 0 => ⟨1, [(10, [0]), (2, [0])]⟩
  | 2 => ⟨1, [(0, [0]), (10, [0])]⟩
  | 10 => ⟨1, [(0, [0]), (2, [0])]⟩
  | _ => ⟨0, []⟩

/-- Alphabetical order, in which `HDF5read` (1345-1362) gets the names of the groups. -/
def strLt (a b : Nat) : Prop := (toString a).toList < (toString b).toList

theorem keys11 : (ov11 0).keys.Pairwise strLt ∧ (ov11 2).keys.Pairwise strLt ∧ (ov11 10).keys.Pairwise strLt := by
  refine ⟨?_, ?_, ?_⟩ <;> simp only [Manager.keys, ov11, List.map_cons, List.map_nil, List.pairwise_cons, List.mem_cons, List.not_mem_nil, or_false,
    forall_eq, strLt, and_true, false_implies, implies_true, List.Pairwise.nil] <;> decide +kernel

theorem ov11_shared (r s : Nat) : (ov11 r).shared s = [] ∨ ((ov11 r).shared s = [0] ∧ (ov11 r).n = 1) := by
  unfold ov11 Manager.shared
  split <;> simp only [List.find?_cons, List.find?_nil] <;> repeat' split
  all_goals simp

theorem ov11_n (r : Nat) : (ov11 r).n ≤ 1 := by
  unfold ov11
  split <;> simp

theorem consistent11 : Consistent 11 ov11 fun _ i => i where
  keys_nodup := by decide
  keys_lt := by decide
  symm := by decide
  shared_lt := fun r _ s i hi => by
    rcases ov11_shared r s with h | ⟨h, hn⟩ <;> rw [h] at hi <;> simp at hi
    omega
  inj := fun r hr i j hi hj h => h
  nodup := fun r _ s => by rcases ov11_shared r s with h | ⟨h, _⟩ <;> rw [h] <;> simp
  same := fun r s hr hs => by interval_cases r <;> interval_cases s <;> decide
  complete := fun r s i j hr hs hne hi hj h => by
    have h1 := ov11_n r
    obtain rfl : i = 0 := by omega
    obtain rfl : j = 0 := h.symm
    interval_cases r <;> first | exact absurd hi (by decide) | skip
    all_goals interval_cases s <;> first | exact absurd hj (by decide) | omega | decide

/-- Rank `r` starts with `[r + 1]`. -/
def start11 (r : Nat) : Unit × List Nat := ((), if r = 0 ∨ r = 2 ∨ r = 10 then [r + 1] else [])

/-- With the order that `HDF5read` produces, rank 0 gets the value of rank 2 instead of the value of rank 10. -/
theorem unique_dictionary_order_fails :
    Consistent 11 ov11 (fun _ i => i) ∧ ((ov11 0).keys.Pairwise strLt ∧ (ov11 2).keys.Pairwise strLt ∧ (ov11 10).keys.Pairwise strLt) ∧
    (∀ r, r < 11 → (start11 r).2.length = (ov11 r).n) ∧ (start11 10).2 = [11] ∧
    ∃ buf n σ, Steps 11 ov11 [.unique] (fun _ _ z => z) (initial start11 buf) n σ ∧ (σ.loc 0).inCall = false ∧ (σ.loc 0).call = 1 ∧ (σ.loc 0).vec = [3] := by
  have h0 := Steps.refl (P := 11) (ov := ov11) (prog := [.unique]) (f := fun _ _ z => z) (initial start11 fun _ _ => [0])
  have h1 := Steps.tail _ _ _ _ h0 (Step.start _ 10 .unique (by omega) rfl rfl (fun h => by cases h))
  have h2 := Steps.tail _ _ _ _ h1 (Step.send _ 10 0 [2] (by omega) rfl rfl)
  have h3 := Steps.tail _ _ _ _ h2 (Step.copy _ 10 0 0 (by omega) (List.mem_cons_self))
  have h4 := Steps.tail _ _ _ _ h3 (Step.start _ 2 .unique (by omega) rfl rfl (fun h => by cases h))
  have h5 := Steps.tail _ _ _ _ h4 (Step.send _ 2 0 [] (by omega) rfl rfl)
  have h6 := Steps.tail _ _ _ _ h5 (Step.copy _ 2 0 0 (by omega) (List.mem_cons_self))
  have h7 := Steps.tail _ _ _ _ h6 (Step.start _ 0 .unique (by omega) rfl rfl (fun h => by cases h))
  have h8 := Steps.tail _ _ _ _ h7 (Step.recv _ 0 10 .unique [11] (by omega) rfl rfl rfl (List.mem_cons_self) (fun _ => rfl) rfl)
  have h9 := Steps.tail _ _ _ _ h8 (Step.recv _ 0 2 .unique [3] (by omega) rfl rfl rfl (List.mem_cons_self) (fun _ => rfl) rfl)
  have h10 := Steps.tail _ _ _ _ h9 (Step.finish _ 0 (by omega) rfl rfl rfl (fun _ e he => by cases he))
  exact ⟨consistent11, keys11, by decide, rfl, fun _ _ => [0], _, _, h10, rfl, rfl, rfl⟩

end PyNucleus.Props.C33
