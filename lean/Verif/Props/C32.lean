import Verif.Proof.Overlap3
import Verif.Props.C31
import Mathlib.Algebra.Field.Rat
import Mathlib.Algebra.Order.Ring.Rat
import Mathlib.Algebra.BigOperators.Field
import Mathlib.Tactic.Ring

/-!
# C32: distribute

Full statement: every entry of the scaling of `distribute` is 1 / (number of ranks that share the dof), and `distribute` followed by `accumulate`
is the identity on consistent vectors.
-/

namespace PyNucleus.Props.C32

open PyNucleus.Overlap

variable {P : Nat} {ov : Nat → Manager} {gid : Nat → Nat → Nat}

/-- `Didx` and `Dval`: each shared dof once, with 1 / (number of ranks that have it). -/
theorem scaling_is_inverse_multiplicity {K : Type} [Field K] (hc : Consistent P ov gid) (r : Nat) (hr : r < P) :
    (((ov r).prepareDistribute (K := K)).map Prod.fst).Nodup ∧
    (∀ i, i ∈ ((ov r).prepareDistribute (K := K)).map Prod.fst ↔ i < (ov r).n ∧ ∃ s j, s < P ∧ s ≠ r ∧ j < (ov s).n ∧ gid s j = gid r i) ∧
    ∀ e ∈ (ov r).prepareDistribute (K := K), e.2 = 1 / (sharing P ov gid (gid r e.1) : K) := by
  have h := counted_dofCount (ov r)
  have hfst : ((ov r).prepareDistribute (K := K)).map Prod.fst = (ov r).dofCount.map Prod.fst := by
    unfold Manager.prepareDistribute
    rw [List.map_map]; rfl
  have hmem : ∀ i, i ∈ (ov r).dofCount.map Prod.fst ↔ ∃ s ∈ (ov r).keys, i ∈ (ov r).shared s := by
    intro i
    rw [h.mem i, List.mem_flatMap]
    constructor
    · rintro ⟨o, ho, hi⟩
      exact ⟨o.1, List.mem_map_of_mem ho, by rw [shared_of_mem (hc.keys_nodup r hr) ho]; exact hi⟩
    · rintro ⟨s, hs, hi⟩
      obtain ⟨o, ho, rfl⟩ := List.mem_map.1 hs
      rw [shared_of_mem (hc.keys_nodup r hr) ho] at hi
      exact ⟨o, ho, hi⟩
  refine ⟨by rw [hfst]; exact h.nodup, fun i => ?_, fun e he => ?_⟩
  · rw [hfst, hmem i]
    constructor
    · rintro ⟨s, hs, hi⟩
      have hlt := hc.shared_lt r hr s i hi
      obtain ⟨h1, h2⟩ := hc.keys_lt r hr s hs
      obtain ⟨j, hj, q⟩ := (hc.sharing_iff hr hlt h1 h2).2 hi
      exact ⟨hlt, s, j, h1, h2, hj, q⟩
    · rintro ⟨hlt, s, j, h1, h2, hj, q⟩
      exact ⟨s, hc.complete r s i j hr h1 h2.symm hlt hj q.symm⟩
  · obtain ⟨e', he', rfl⟩ := List.mem_map.1 he
    dsimp only
    obtain ⟨s, hs, hi⟩ := (hmem e'.1).1 (List.mem_map_of_mem he')
    rw [hc.sharing_count hr (hc.shared_lt r hr s _ hi), h.val e' he']

/-- `distribute` divides each entry by the number of ranks that have the dof. -/
theorem distribute_divides {K : Type} [Field K] (hc : Consistent P ov gid) (r : Nat) (hr : r < P) (v : List K) (hv : v.length = (ov r).n) :
    (distribute (ov r).prepareDistribute v).length = (ov r).n ∧
    ∀ i, i < (ov r).n → (distribute (ov r).prepareDistribute v).getD i 0 = v.getD i 0 / (sharing P ov gid (gid r i) : K) := by
  obtain ⟨h1, h2, h3⟩ := scaling_is_inverse_multiplicity (K := K) hc r hr
  obtain ⟨d1, d2, d3⟩ := distribute_getD ((ov r).prepareDistribute (K := K)) v h1 fun e he => by
    rw [hv]; exact ((h2 e.1).1 (List.mem_map_of_mem he)).1
  refine ⟨by rw [d1, hv], fun i hi => ?_⟩
  by_cases hm : i ∈ ((ov r).prepareDistribute (K := K)).map Prod.fst
  · obtain ⟨e, he, rfl⟩ := List.mem_map.1 hm
    rw [d2 e he, h3 e he]
    ring
  · rw [d3 i hm]
    have hone : sharing P ov gid (gid r i) = 1 := by
      unfold sharing
      rw [Finset.card_eq_one]
      refine ⟨r, ?_⟩
      ext s
      rw [Finset.mem_filter, Finset.mem_range, Finset.mem_singleton]
      constructor
      · rintro ⟨hs, j, hj, q⟩
        by_contra hne
        exact hm ((h2 i).2 ⟨hi, s, j, hs, hne, hj, q⟩)
      · rintro rfl
        exact ⟨hr, i, hi, rfl⟩
    rw [hone, Nat.cast_one, div_one]

/-- Partition of unity: if all ranks start from a consistent vector `g`, distribute it and call `accumulate`, every rank returns, in every execution, with the vector
it started from. -/
theorem distribute_then_accumulate {K : Type} [Field K] [CharZero K] (hc : Consistent P ov gid) (g : Nat → K) (x : Nat → List K)
    (hx : ∀ r, r < P → (x r).length = (ov r).n) (hg : ∀ r, r < P → ∀ i, i < (ov r).n → (x r).getD i 0 = g (gid r i))
    (buf : Nat → Nat → List K) (n : Nat) (σ : State K Unit)
    (h : Steps P ov [.accumulate] (fun _ _ z => z) (initial (fun r => ((), distribute (ov r).prepareDistribute (x r))) buf) n σ)
    (r : Nat) (hr : r < P) (hin : (σ.loc r).inCall = false) (hcall : (σ.loc r).call = 1) (i : Nat) (hi : i < (ov r).n) :
    (σ.loc r).vec.getD i 0 = (x r).getD i 0 := by
  rw [C31.accumulate_sums hc (fun r => distribute (ov r).prepareDistribute (x r))
    (fun r hr => (distribute_divides hc r hr (x r) (hx r hr)).1) buf n σ h r hr hin hcall i hi, hg r hr i hi]
  have hinner : ∀ s ∈ Finset.range P, (∑ j ∈ Finset.range (ov s).n, if gid s j = gid r i then (distribute (ov s).prepareDistribute (x s)).getD j 0 else 0) =
      if (∃ j, j < (ov s).n ∧ gid s j = gid r i) then g (gid r i) / (sharing P ov gid (gid r i) : K) else 0 := by
    intro s hs
    have hs := Finset.mem_range.1 hs
    by_cases q : ∃ j, j < (ov s).n ∧ gid s j = gid r i
    · rw [if_pos q]
      obtain ⟨j, hj, e⟩ := q
      rw [single_sum _ j hj _ _ fun j' hj' => ⟨fun e' => hc.inj s hs _ _ hj' hj (e'.trans e.symm), fun e' => by rw [e']; exact e⟩,
        (distribute_divides hc s hs (x s) (hx s hs)).2 j hj, hg s hs j hj, e]
    · rw [if_neg q]
      refine Finset.sum_eq_zero fun j hj => ?_
      rw [if_neg fun e => q ⟨j, Finset.mem_range.1 hj, e⟩]
  rw [Finset.sum_congr rfl hinner, ← Finset.sum_filter, Finset.sum_const, nsmul_eq_mul]
  change (sharing P ov gid (gid r i) : K) * _ = _
  have hpos : (sharing P ov gid (gid r i) : K) ≠ 0 := by
    rw [hc.sharing_count hr hi]
    exact Nat.cast_ne_zero.2 (by omega)
  field_simp

/-- Example: the dof shared by three ranks is divided by three, the others stay. -/
example : distribute ((ov3 1).prepareDistribute (K := ℚ)) [6, 5] = [2, 5] := by decide +kernel

example (buf : Nat → Nat → List ℚ) (n : Nat) (σ : State ℚ Unit)
    (h : Steps 3 ov3 [.accumulate] (fun _ _ z => z) (initial (fun r => ((), distribute (ov3 r).prepareDistribute [6, (r : ℚ)])) buf) n σ)
    (hin : (σ.loc 0).inCall = false) (hcall : (σ.loc 0).call = 1) : (σ.loc 0).vec.getD 0 0 = 6 :=
  distribute_then_accumulate consistent3 (fun g => if g = 0 then 6 else (g : ℚ) - 1) (fun r => [6, (r : ℚ)]) (fun r _ => (ov3_n r).symm)
    (fun r _ i hi => by
      rw [ov3_n] at hi
      unfold gid3
      interval_cases i <;> simp) buf n σ h 0 (by omega) hin hcall 0 (by decide)

end PyNucleus.Props.C32
