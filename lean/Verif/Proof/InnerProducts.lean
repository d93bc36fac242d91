import Verif.Model.InnerProducts
import Verif.Spec.InnerProducts
import Verif.Props.C32
import Verif.Proof.Blas

namespace PyNucleus.InnerProducts

open PyNucleus.Loops PyNucleus.Overlap PyNucleus.Blas PyNucleus.Spec

variable {K : Type} {P : Nat} {ov : Nat → Manager} {gid : Nat → Nat → Nat}

theorem copy_getD [Zero K] (n : Nat) (y w : List K) (hn : n ≤ w.length) :
    (forRange 0 n w fun w j => w.set j (y.getD j 0)).length = w.length ∧ ∀ i < n, (forRange 0 n w fun w j => w.set j (y.getD j 0)).getD i 0 = y.getD i 0 := by
  induction n with
  | zero => exact ⟨rfl, fun i hi => absurd hi (by omega)⟩
  | succ n ih =>
    obtain ⟨h1, h2⟩ := ih (by omega)
    rw [forRange_succ]
    refine ⟨by rw [List.length_set, h1], fun i hi => ?_⟩
    rw [List.getD_eq_getElem?_getD, List.getElem?_set]
    by_cases e : n = i
    · subst e; rw [if_pos rfl, if_pos (by omega)]; rfl
    · rw [if_neg e, ← List.getD_eq_getElem?_getD, h2 i (by omega)]

theorem distributeInto_getD [Field K] (hc : Consistent P ov gid) (r : Nat) (hr : r < P) (v u : List K) (hu : (ov r).n ≤ u.length) (i : Nat) (hi : i < (ov r).n) :
    (distributeInto (ov r) v u).getD i 0 = v.getD i 0 / (sharing P ov gid (gid r i) : K) := by
  obtain ⟨c1, c2⟩ := copy_getD (ov r).n v u hu
  obtain ⟨h1, h2, h3⟩ := PyNucleus.Props.C32.scaling_is_inverse_multiplicity (K := K) hc r hr
  obtain ⟨d1, d2, d3⟩ := distribute_getD ((ov r).prepareDistribute (K := K)) (forRange 0 (ov r).n u fun w j => w.set j (v.getD j 0)) h1 fun e he => by
    have := ((h2 e.1).1 (List.mem_map_of_mem he)).1
    omega
  unfold distributeInto
  by_cases hm : i ∈ ((ov r).prepareDistribute (K := K)).map Prod.fst
  · obtain ⟨e, he, rfl⟩ := List.mem_map.1 hm
    rw [d2 e he, h3 e he, c2 _ hi]
    ring
  · rw [d3 i hm, c2 i hi]
    have hone : sharing P ov gid (gid r i) = 1 := by
      unfold sharing
      rw [Finset.card_eq_one]
      refine ⟨r, ?_⟩
      ext s
      rw [Finset.mem_filter, Finset.mem_range, Finset.mem_singleton]
      constructor
      · rintro ⟨hs, j, hj, q⟩
        by_contra hne
        exact hm ((h2 i).2 ⟨hi, s, j, hs, hne, hj, q⟩)
      · rintro rfl
        exact ⟨hr, i, hi, rfl⟩
    rw [hone, Nat.cast_one, div_one]

theorem mem_dofs {d : Nat} : d ∈ dofs P ov gid ↔ ∃ r < P, ∃ i < (ov r).n, gid r i = d := by
  unfold dofs
  simp only [Finset.mem_biUnion, Finset.mem_range, Finset.mem_image]

/-- Pairing of a vector of parts with an accumulated one. -/
theorem pairing [CommSemiring K] (f : Nat → Nat → K) (G : Nat → K) :
    (∑ r ∈ Finset.range P, ∑ i ∈ Finset.range (ov r).n, f r i * G (gid r i)) =
      ∑ d ∈ dofs P ov gid, (∑ s ∈ Finset.range P, ∑ j ∈ Finset.range (ov s).n, if gid s j = d then f s j else 0) * G d := by
  simp only [Finset.sum_mul]
  rw [Finset.sum_comm]
  refine Finset.sum_congr rfl fun r hr => ?_
  rw [Finset.sum_comm]
  refine Finset.sum_congr rfl fun i hi => ?_
  rw [Finset.sum_eq_single_of_mem (gid r i) (mem_dofs.2 ⟨r, Finset.mem_range.1 hr, i, Finset.mem_range.1 hi, rfl⟩)]
  · rw [if_pos rfl]
  · intro d _ hd
    rw [if_neg (Ne.symm hd), zero_mul]

theorem total_divided [Field K] [CharZero K] (hc : Consistent P ov gid) (G : Nat → K) {d : Nat} (hd : d ∈ dofs P ov gid) :
    (∑ s ∈ Finset.range P, ∑ j ∈ Finset.range (ov s).n, if gid s j = d then G (gid s j) / (sharing P ov gid (gid s j) : K) else 0) = G d := by
  obtain ⟨r, hr, i, hi, rfl⟩ := mem_dofs.1 hd
  have hinner : ∀ s ∈ Finset.range P, (∑ j ∈ Finset.range (ov s).n, if gid s j = gid r i then G (gid s j) / (sharing P ov gid (gid s j) : K) else 0) =
      if (∃ j, j < (ov s).n ∧ gid s j = gid r i) then G (gid r i) / (sharing P ov gid (gid r i) : K) else 0 := by
    intro s hs
    have hs := Finset.mem_range.1 hs
    by_cases q : ∃ j, j < (ov s).n ∧ gid s j = gid r i
    · rw [if_pos q]
      obtain ⟨j, hj, e⟩ := q
      rw [single_sum _ j hj _ _ fun j' hj' => ⟨fun e' => hc.inj s hs _ _ hj' hj (e'.trans e.symm), fun e' => by rw [e']; exact e⟩, e]
    · rw [if_neg q]
      refine Finset.sum_eq_zero fun j hj => ?_
      rw [if_neg fun e => q ⟨j, Finset.mem_range.1 hj, e⟩]
  rw [Finset.sum_congr rfl hinner, ← Finset.sum_filter, Finset.sum_const, nsmul_eq_mul]
  change (sharing P ov gid (gid r i) : K) * _ = _
  have hpos : (sharing P ov gid (gid r i) : K) ≠ 0 := by
    rw [hc.sharing_count hr hi]
    exact Nat.cast_ne_zero.2 (by omega)
  field_simp

theorem reduce_some [AddCommMonoid K] (P : Nat) (v : Nat → Option K) (f : Nat → K) (h : ∀ r < P, v r = some (f r)) : reduce P v = some (∑ r ∈ Finset.range P, f r) := by
  induction P with
  | zero => rfl
  | succ P ih =>
    unfold reduce at ih ⊢
    rw [List.range_succ, List.foldl_append, ih fun r hr => h r (by omega), List.foldl_cons, List.foldl_nil, h P (by omega), Finset.sum_range_succ]

theorem temporary_length {fresh : Nat → List K} (hf : ∀ n, (fresh n).length = n) (mem : List K) (n : Nat) : n ≤ (temporary fresh mem n).length := by
  unfold temporary
  split
  · rw [hf]
  · omega

theorem find_range_reverse (L : Nat) (p : Nat → Bool) {l : Nat} (hl : l < L) (hp : p l = true) (hne : ∀ k, l < k → k < L → p k = false) :
    (List.range L).reverse.find? p = some l := by
  induction L with
  | zero => omega
  | succ L ih =>
    rw [List.range_succ, List.reverse_append, List.reverse_singleton, List.singleton_append, List.find?_cons]
    by_cases e : l = L
    · subst e; rw [hp]
    · rw [hne L (by omega) (by omega)]
      exact ih (by omega) fun k h1 h2 => hne k h1 (by omega)

/-- The level that is meant is found. -/
theorem pick {levels : List Manager} {L : Nat} (hL : L < levels.length) {level : Option Nat} {n : Nat} (hn : (levels.getD L ⟨0, []⟩).n = n)
    (hl : level = some L ∨ level = none ∧ ∀ k, L < k → k < levels.length → (levels.getD k ⟨0, []⟩).n ≠ n) : pickLevel levels level n = some L := by
  rcases hl with rfl | ⟨rfl, h⟩
  · unfold pickLevel; dsimp only; rw [if_pos hL]
  · unfold pickLevel findLevel
    dsimp only
    refine find_range_reverse _ _ hL ?_ fun k h1 h2 => ?_
    · rw [List.getElem?_eq_getElem hL, Option.map_some, decide_eq_true_eq, ← hn, List.getD_eq_getElem _ _ hL]
    · rw [List.getElem?_eq_getElem h2, Option.map_some, decide_eq_false_iff_not]
      intro e
      refine h k h1 h2 ?_
      rw [List.getD_eq_getElem _ _ h2]
      exact Option.some.inj e

theorem accumulated_getD [AddCommMonoid K] (hc : Consistent P ov gid) {x y : Nat → List K} (hx : ∀ r < P, (x r).length = (ov r).n) (h : Accumulated P ov x y) {r : Nat} (hr : r < P)
    {i : Nat} (hi : i < (ov r).n) : (y r).getD i 0 = total P ov gid x (gid r i) := by
  obtain ⟨buf, n, σ, hσ, h⟩ := h
  obtain ⟨h1, h2, h3⟩ := h r hr
  rw [h3]
  exact PyNucleus.Props.C31.accumulate_sums hc x hx buf n σ hσ r hr h1 h2 i hi

end PyNucleus.InnerProducts
