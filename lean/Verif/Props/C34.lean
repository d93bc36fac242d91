import Verif.Proof.Overlap4
import Verif.Proof.OverlapExample
import Verif.Props.C33

/-!
# C34: counting and numbering

Full statement: `countDoFs` returns the number of distinct dofs, and `getGlobalIndices` numbers them from 0 to N-1: the same number on all ranks that
share a dof, different numbers otherwise.

The two calls of `unique` in `getGlobalIndices` are described by their result (C33: the highest rank's value, for dictionaries in increasing order); between them every
rank takes part in `scan`.
-/

namespace PyNucleus.Props.C34

open PyNucleus.Overlap

variable {P : Nat} {ov : Nat → Manager} {gid : Nat → Nat → Nat}

/-- `countDoFs` counts each dof once. -/
theorem countDoFs_counts_once (hc : Consistent P ov gid) :
    countDoFs P ov = ((Finset.range P).biUnion fun r => (Finset.range (ov r).n).image (gid r)).card := by
  classical
  have hlow : ∀ r i, r < P → i < (ov r).n → ((∀ o ∈ (ov r).overlaps, o.1 < r → i ∉ o.2) ↔ ∀ s j, s < P → j < (ov s).n → gid s j = gid r i → r ≤ s) := by
    intro r i hr hi
    constructor
    · intro h s j hs hj e
      by_contra hlt
      obtain ⟨hk, hm⟩ := hc.complete r s i j hr hs (by omega) hi hj e.symm
      obtain ⟨o, ho, rfl⟩ := List.mem_map.1 hk
      rw [shared_of_mem (hc.keys_nodup r hr) ho] at hm
      exact h o ho (by omega) hm
    · intro h o ho hlt hm
      have hk : o.1 ∈ (ov r).keys := List.mem_map_of_mem ho
      obtain ⟨h1, h2⟩ := hc.keys_lt r hr _ hk
      rw [← shared_of_mem (hc.keys_nodup r hr) ho] at hm
      obtain ⟨j, hj, e⟩ := (hc.sharing_iff hr hi h1 h2).2 hm
      have := h o.1 j h1 hj e
      omega
  have := card_distinct hc (fun r i => ∀ o ∈ (ov r).overlaps, o.1 < r → i ∉ o.2)
    (fun r i hr hi => by
      obtain ⟨s, j, h1, h2, h3, h4⟩ := exists_lowest (gid := gid) hr hi
      exact ⟨s, j, h1, h2, h3, (hlow s j h1 h2).2 fun s' j' q1 q2 q3 => h4 s' j' q1 q2 (q3.trans h3)⟩)
    (fun r s i j hr hs hi hj e h1 h2 => by
      have a := (hlow r i hr hi).1 h1 s j hs hj e.symm
      have b := (hlow s j hs hj).1 h2 r i hr hi e
      omega)
  unfold distinct at this
  rw [this]
  unfold countDoFs
  rw [range_sum]
  refine Finset.sum_congr rfl fun r hr => ?_
  exact countLocal_eq hc (Finset.mem_range.1 hr)

/-- `getGlobalIndices`: after `unique` on the ranks, numbering of the own dofs, and `unique` on the numbers, the numbers are below the number of distinct dofs,
equal exactly for the same dof, and none is left out. -/
theorem getGlobalIndices_bijective (hc : Consistent P ov gid) (y1 y2 : Nat → List Nat) (h1 : Result P ov gid .unique (ranks ov) y1)
    (h2 : Result P ov gid .unique (fun r => numberOwned r (offset y1 r) (y1 r)) y2) :
    (∀ r i, r < P → i < (ov r).n → (y2 r).getD i 0 < countDoFs P ov) ∧
    (∀ r s i j, r < P → s < P → i < (ov r).n → j < (ov s).n → ((y2 r).getD i 0 = (y2 s).getD j 0 ↔ gid r i = gid s j)) ∧
    ∀ m, m < countDoFs P ov → ∃ r i, r < P ∧ i < (ov r).n ∧ (y2 r).getD i 0 = m := by
  classical
  -- after the first call every dof knows its highest rank
  have howner : ∀ r i s j, r < P → i < (ov r).n → s < P → j < (ov s).n → gid s j = gid r i →
      (∀ s' j', s' < P → j' < (ov s').n → gid s' j' = gid r i → s' ≤ s) → (y1 r).getD i 0 = s := by
    intro r i s j hr hi hs hj e hmax
    have := (h1 r hr).2 i hi s j hs hj e hmax
    rw [this]
    unfold ranks
    rw [List.getD_eq_getElem _ _ (by rw [List.length_replicate]; exact hj), List.getElem_replicate]
  have hown : ∀ r i, r < P → i < (ov r).n → ((y1 r).getD i 0 = r ↔ ∀ s' j', s' < P → j' < (ov s').n → gid s' j' = gid r i → s' ≤ r) := by
    intro r i hr hi
    obtain ⟨s, j, q1, q2, q3, q4⟩ := exists_highest (gid := gid) hr hi
    constructor
    · intro h
      rw [howner r i s j hr hi q1 q2 q3 q4] at h
      subst h
      exact q4
    · intro h
      exact howner r i r i hr hi hr hi rfl h
  have hnum : ∀ r i s j, r < P → i < (ov r).n → s < P → j < (ov s).n → gid s j = gid r i →
      (∀ s' j', s' < P → j' < (ov s').n → gid s' j' = gid r i → s' ≤ s) →
      (y2 r).getD i 0 = offset y1 s + cnt (fun i => (y1 s).getD i 0 = s) j ∧ (y1 s).getD j 0 = s := by
    intro r i s j hr hi hs hj e hmax
    have hsj : (y1 s).getD j 0 = s := (hown s j hs hj).2 fun s' j' q1 q2 q3 => hmax s' j' q1 q2 (q3.trans e)
    have := (h2 r hr).2 i hi s j hs hj e hmax
    refine ⟨?_, hsj⟩
    rw [this]
    exact (numberOwned_getD s _ (y1 s)).2 j (by rw [(h1 s hs).1]; exact hj) hsj
  have hN : countDoFs P ov = offset y1 P := by
    rw [countDoFs_counts_once hc]
    have := card_distinct hc (fun r i => (y1 r).getD i 0 = r)
      (fun r i hr hi => by
        obtain ⟨s, j, q1, q2, q3, q4⟩ := exists_highest (gid := gid) hr hi
        exact ⟨s, j, q1, q2, q3, (hown s j q1 q2).2 fun s' j' a1 a2 a3 => q4 s' j' a1 a2 (a3.trans q3)⟩)
      (fun r s i j hr hs hi hj e a b => by
        have a := (hown r i hr hi).1 a s j hs hj e.symm
        have b := (hown s j hs hj).1 b r i hr hi e
        omega)
    unfold distinct at this
    rw [this]
    unfold offset
    rw [range_sum]
    refine Finset.sum_congr rfl fun r hr => ?_
    rw [countOwned_eq, (h1 r (Finset.mem_range.1 hr)).1]
  have hbound : ∀ s j, s < P → j < (ov s).n → (y1 s).getD j 0 = s → cnt (fun i => (y1 s).getD i 0 = s) j < countOwned s (y1 s) := by
    intro s j hs hj hsj
    rw [countOwned_eq, (h1 s hs).1]
    exact cnt_lt _ hj hsj
  refine ⟨fun r i hr hi => ?_, fun r s i j hr hs hi hj => ⟨fun e => ?_, fun e => ?_⟩, fun m hm => ?_⟩
  · obtain ⟨s, j, q1, q2, q3, q4⟩ := exists_highest (gid := gid) hr hi
    obtain ⟨n1, n2⟩ := hnum r i s j hr hi q1 q2 q3 q4
    have := hbound s j q1 q2 n2
    have a := offset_succ y1 s
    have b := offset_le y1 (show s + 1 ≤ P by omega)
    omega
  · obtain ⟨a, ja, q1, q2, q3, q4⟩ := exists_highest (gid := gid) hr hi
    obtain ⟨b, jb, p1, p2, p3, p4⟩ := exists_highest (gid := gid) hs hj
    obtain ⟨n1, n2⟩ := hnum r i a ja hr hi q1 q2 q3 q4
    obtain ⟨m1, m2⟩ := hnum s j b jb hs hj p1 p2 p3 p4
    have ha := hbound a ja q1 q2 n2
    have hb := hbound b jb p1 p2 m2
    have hab : a = b := by
      rcases Nat.lt_trichotomy a b with q | q | q
      · have := offset_succ y1 a
        have := offset_le y1 (show a + 1 ≤ b by omega)
        omega
      · exact q
      · have := offset_succ y1 b
        have := offset_le y1 (show b + 1 ≤ a by omega)
        omega
    subst hab
    have hj2 : ja = jb := cnt_inj (fun i => (y1 a).getD i 0 = a) n2 m2 (by omega)
    subst hj2
    exact q3.symm.trans p3
  · obtain ⟨a, ja, q1, q2, q3, q4⟩ := exists_highest (gid := gid) hr hi
    rw [(hnum r i a ja hr hi q1 q2 q3 q4).1, (hnum s j a ja hs hj q1 q2 (q3.trans e) (by rw [← e]; exact q4)).1]
  · rw [hN] at hm
    obtain ⟨r, hr, m1, m2⟩ := offset_find y1 hm
    rw [countOwned_eq, (h1 r hr).1] at m2
    obtain ⟨i, hi, q1, q2⟩ := cnt_surj (fun i => (y1 r).getD i 0 = r) (show m - offset y1 r < cnt (fun i => (y1 r).getD i 0 = r) (ov r).n by omega)
    refine ⟨r, i, hr, hi, ?_⟩
    rw [(hnum r i r i hr hi hr hi rfl ((hown r i hr hi).1 q1)).1, q2]
    omega

private theorem unique_returns {gid : Nat → Nat → Nat} (hc : Consistent P ov gid) (x : Nat → List Nat) (buf : Nat → Nat → List Nat) (n : Nat) (σ : State Nat Unit)
    (h : Steps P ov [.unique] (fun _ _ z => z) (initial (fun r => ((), x r)) buf) n σ) (r : Nat) (hr : r < P) (hin : (σ.loc r).inCall = false)
    (hcall : (σ.loc r).call = 1) : (σ.loc r).vec = callResult ov .unique x r := by
  have hinv := inv_steps hc.paired (prog := [.unique]) (fun c h => by cases c <;> simp at h) (fun _ _ z => z) (fun r => ((), x r)) buf h
  have := ((hinv.loc r hr).idle hin).2.2.1
  rw [hcall, ref_succ _ _ _ _ 0 _ .unique rfl] at this
  exact congrArg Prod.snd this

/-- With dictionaries in increasing order such results exist, and every execution of `unique` returns them.
Missing for the full statement: other orders of the dictionaries (`getGlobalIndices_dictionary_order_fails`). -/
theorem getGlobalIndices_results_partial (hc : Consistent P ov gid) (hsorted : ∀ r, r < P → (ov r).keys.Pairwise (· < ·)) :
    ∃ y1 y2, Result P ov gid .unique (ranks ov) y1 ∧ Result P ov gid .unique (fun r => numberOwned r (offset y1 r) (y1 r)) y2 ∧
      (∀ buf n σ, Steps P ov [.unique] (fun _ _ z => z) (initial (fun r => ((), ranks ov r)) buf) n σ → ∀ r, r < P →
        (σ.loc r).inCall = false → (σ.loc r).call = 1 → (σ.loc r).vec = y1 r) ∧
      ∀ buf n σ, Steps P ov [.unique] (fun _ _ z => z) (initial (fun r => ((), numberOwned r (offset y1 r) (y1 r))) buf) n σ → ∀ r, r < P →
        (σ.loc r).inCall = false → (σ.loc r).call = 1 → (σ.loc r).vec = y2 r := by
  have a1 := hc.unique hsorted (ranks ov) fun r _ => by unfold ranks; rw [List.length_replicate]
  have b1 := hc.unique hsorted (fun r => numberOwned r (offset (callResult ov .unique (ranks ov)) r) (callResult ov .unique (ranks ov) r))
    fun r hr => by rw [(numberOwned_getD _ _ _).1]; exact (a1 r hr).1
  exact ⟨_, _, a1, b1, fun buf n σ => unique_returns hc _ buf n σ, fun buf n σ => unique_returns hc _ buf n σ⟩

/-- With the order of the dictionaries that `HDF5read` produces the numbers are wrong: ranks 0, 2 and 10 share the only dof, and rank 0 gets the number 10 for it. -/
theorem getGlobalIndices_dictionary_order_fails :
    Consistent 11 C33.ov11 (fun _ i => i) ∧ countDoFs 11 C33.ov11 = 1 ∧ ∃ y1 y2 : Nat → List Nat,
      (∀ buf n σ, Steps 11 C33.ov11 [.unique] (fun _ _ z => z) (initial (fun r => ((), ranks C33.ov11 r)) buf) n σ → ∀ r, r < 11 →
        (σ.loc r).inCall = false → (σ.loc r).call = 1 → (σ.loc r).vec = y1 r) ∧
      (∀ buf n σ, Steps 11 C33.ov11 [.unique] (fun _ _ z => z) (initial (fun r => ((), numberOwned r (offset y1 r) (y1 r))) buf) n σ → ∀ r, r < 11 →
        (σ.loc r).inCall = false → (σ.loc r).call = 1 → (σ.loc r).vec = y2 r) ∧
      y2 0 = [10] ∧ y2 10 = [0] := by
  refine ⟨C33.consistent11, by decide, _, _, fun buf n σ => unique_returns C33.consistent11 _ buf n σ, fun buf n σ => unique_returns C33.consistent11 _ buf n σ, ?_, ?_⟩ <;>
    decide +kernel

/-- Example: three ranks with a common dof and one dof each have four dofs. -/
example : countDoFs 3 ov3 = 4 := by decide

example : ∃ y1 y2, Result 3 ov3 gid3 .unique (ranks ov3) y1 ∧ Result 3 ov3 gid3 .unique (fun r => numberOwned r (offset y1 r) (y1 r)) y2 := by
  obtain ⟨y1, y2, h1, h2, _⟩ := getGlobalIndices_results_partial consistent3 (by decide)
  exact ⟨y1, y2, h1, h2⟩

end PyNucleus.Props.C34
