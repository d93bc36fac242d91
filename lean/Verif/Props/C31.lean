import Verif.Proof.Overlap2
import Verif.Proof.OverlapExample

/-!
# C31: accumulate

Full statement: after `accumulate` every rank holds, at each dof, the sum over all ranks that share it, whatever the order of the
messages and whatever the interleaving of the ranks; entries that are not shared are unchanged.
-/

namespace PyNucleus.Props.C31

open PyNucleus.Overlap

variable {K M : Type} [AddCommMonoid K] {P : Nat} {ov : Nat → Manager} {gid : Nat → Nat → Nat}

/-- Any number of calls of `accumulate` with any local computations in between.  There is one sequence of results, in which each
call returns the sums over all sharing ranks, and every execution follows it: a rank outside of a call has the memory and the
vector of this sequence, no execution deadlocks, and all complete executions have the same number of steps. -/
theorem accumulate_every_schedule (hc : Consistent P ov gid) {prog : List Kind} (hprog : ∀ k ∈ prog, k = .accumulate)
    (f : Nat → Nat → M × List K → M × List K) (hf : ∀ r c z, z.2.length = (ov r).n → (f r c z).2.length = (ov r).n)
    (x : Nat → M × List K) (hx : ∀ r, r < P → (x r).2.length = (ov r).n) :
    ∃ (Z : Nat → Nat → M × List K) (Y : Nat → Nat → List K) (N : Nat), Follows P ov gid prog f x Z Y ∧
      ∀ buf n σ, Steps P ov prog f (initial x buf) n σ →
        (∀ r, r < P → (σ.loc r).inCall = false → ((σ.loc r).mem, (σ.loc r).vec) = Z (σ.loc r).call r) ∧
        ((∃ r, r < P ∧ ((σ.loc r).inCall = true ∨ (σ.loc r).call < prog.length)) → ∃ τ, Step P ov prog f σ τ) ∧
        n ≤ N ∧ ((¬ ∃ τ, Step P ov prog f σ τ) → n = N ∧ ∀ r, r < P → (σ.loc r).call = prog.length ∧ (σ.loc r).inCall = false) :=
  schedule hc (fun c _ h => by cases hprog _ (List.mem_of_getElem? h)) (fun h => by cases hprog _ h) f hf x hx

/-- One call: as soon as a rank has returned, its entries are the sums over all sharing ranks. -/
theorem accumulate_sums (hc : Consistent P ov gid) (x : Nat → List K) (hx : ∀ r, r < P → (x r).length = (ov r).n)
    (buf : Nat → Nat → List K) (n : Nat) (σ : State K Unit)
    (h : Steps P ov [.accumulate] (fun _ _ z => z) (initial (fun r => ((), x r)) buf) n σ) (r : Nat) (hr : r < P) (hin : (σ.loc r).inCall = false)
    (hcall : (σ.loc r).call = 1) (i : Nat) (hi : i < (ov r).n) :
    (σ.loc r).vec.getD i 0 = ∑ s ∈ Finset.range P, ∑ j ∈ Finset.range (ov s).n, if gid s j = gid r i then (x s).getD j 0 else 0 := by
  obtain ⟨Z, Y, N, ⟨f1, f2, f3⟩, hall⟩ := accumulate_every_schedule hc (prog := [.accumulate]) (by simp) (fun _ _ z => z) (fun _ _ _ h => h)
    (fun r => ((), x r)) hx
  have h1 := (hall buf n σ h).1 r hr hin
  rw [hcall, f3 0 (by simp) r hr] at h1
  have h2 := (f2 0 .accumulate rfl r hr).2 i hi
  have h3 : (σ.loc r).vec = Y 0 r := congrArg Prod.snd h1
  dsimp only at h2
  rw [h3, h2]
  unfold total
  refine Finset.sum_congr rfl fun s hs => ?_
  dsimp only
  rw [f1 s (Finset.mem_range.1 hs)]

/-- Entries that no other rank has are unchanged. -/
theorem accumulate_keeps_unshared (hc : Consistent P ov gid) (x : Nat → List K) (hx : ∀ r, r < P → (x r).length = (ov r).n)
    (buf : Nat → Nat → List K) (n : Nat) (σ : State K Unit)
    (h : Steps P ov [.accumulate] (fun _ _ z => z) (initial (fun r => ((), x r)) buf) n σ) (r : Nat) (hr : r < P) (hin : (σ.loc r).inCall = false)
    (hcall : (σ.loc r).call = 1) (i : Nat) (hi : i < (ov r).n) (hun : ∀ s j, s < P → s ≠ r → j < (ov s).n → gid s j ≠ gid r i) :
    (σ.loc r).vec.getD i 0 = (x r).getD i 0 := by
  rw [accumulate_sums hc x hx buf n σ h r hr hin hcall i hi, Finset.sum_eq_single_of_mem r (Finset.mem_range.2 hr), hc.own x hr hi]
  intro s hs hne
  refine Finset.sum_eq_zero fun j hj => ?_
  rw [if_neg (hun s j (Finset.mem_range.1 hs) hne (Finset.mem_range.1 hj))]

/-- Example: three ranks share dof 0, two calls. -/
example : ∃ (Z : Nat → Nat → Unit × List ℤ) (Y : Nat → Nat → List ℤ) (N : Nat),
    Follows 3 ov3 gid3 [.accumulate, .accumulate] (fun _ _ z => z) (fun r => ((), [(r : ℤ) + 1, 7])) Z Y ∧ ∀ buf n σ,
      Steps 3 ov3 [.accumulate, .accumulate] (fun _ _ z => z) (initial (fun r => ((), [(r : ℤ) + 1, 7])) buf) n σ → n ≤ N := by
  obtain ⟨Z, Y, N, h1, h2⟩ := accumulate_every_schedule consistent3 (prog := [.accumulate, .accumulate]) (by simp)
    (fun _ _ z => z) (fun _ _ _ h => h) (fun r => ((), [(r : ℤ) + 1, 7])) (fun r _ => (ov3_n r).symm)
  exact ⟨Z, Y, N, h1, fun buf n σ h => (h2 buf n σ h).2.2.1⟩

/-- In the example the sum at the shared dof is 1 + 2 + 3. -/
example : total 3 ov3 gid3 (fun r => [(r : ℤ) + 1, 7]) 0 = 6 := by decide

end PyNucleus.Props.C31
