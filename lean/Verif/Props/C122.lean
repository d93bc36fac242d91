import Verif.Model.OverlapWeights
import Verif.Props.C32
import Mathlib.Algebra.Order.BigOperators.Group.Finset
import Mathlib.Algebra.Order.Field.Basic
import Mathlib.Algebra.BigOperators.Field
import Mathlib.Tactic.Linarith

/-!
# C122: weights of overlapping subdomains
-/

namespace PyNucleus.Props.C122

open PyNucleus.Overlap PyNucleus.OverlapWeights

variable {P : Nat} {ov : Nat → Manager} {gid : Nat → Nat → Nat}

theorem mem_shared (hc : Consistent P ov gid) (r : Nat) (hr : r < P) (i : Nat) (hi : i < (ov r).n) :
    i ∈ (ov r).overlaps.flatMap Prod.snd ↔ ∃ s j, s < P ∧ s ≠ r ∧ j < (ov s).n ∧ gid s j = gid r i := by
  rw [List.mem_flatMap]
  constructor
  · rintro ⟨o, ho, h⟩
    have h1 : i ∈ (ov r).shared o.1 := by rw [shared_of_mem (hc.keys_nodup r hr) ho]; exact h
    obtain ⟨h2, h3⟩ := hc.keys_lt r hr o.1 (List.mem_map_of_mem ho)
    obtain ⟨j, hj, q⟩ := (hc.sharing_iff hr hi h2 h3).2 h1
    exact ⟨o.1, j, h2, h3, hj, q⟩
  · rintro ⟨s, j, h1, h2, hj, q⟩
    obtain ⟨h3, h4⟩ := hc.complete r s i j hr h1 h2.symm hi hj q.symm
    obtain ⟨o, ho, rfl⟩ := List.mem_map.1 h3
    rw [shared_of_mem (hc.keys_nodup r hr) ho] at h4
    exact ⟨o, ho, h4⟩

theorem shared_bound (hc : Consistent P ov gid) (r : Nat) (hr : r < P) (i : Nat) (h : i ∈ (ov r).overlaps.flatMap Prod.snd) : i < (ov r).n := by
  obtain ⟨o, ho, h⟩ := List.mem_flatMap.1 h
  exact hc.shared_lt r hr o.1 i (by rw [shared_of_mem (hc.keys_nodup r hr) ho]; exact h)

/-- What `distribute` does with the weights: entries that other ranks have are multiplied by the quotient, the others are left. -/
theorem distribute_weights {K : Type} [Field K] (hc : Consistent P ov gid) (r : Nat) (hr : r < P) (x y v : List K)
    (hv : v.length = (ov r).n) :
    (distribute (weights (ov r) x y) v).length = (ov r).n ∧ ∀ i, i < (ov r).n → (distribute (weights (ov r) x y) v).getD i 0 =
      open Classical in if ∃ s j, s < P ∧ s ≠ r ∧ j < (ov s).n ∧ gid s j = gid r i then v.getD i 0 * (x.getD i 0 / y.getD i 0)
        else v.getD i 0 := by
  classical
  have hfst : (weights (ov r) x y).map Prod.fst = ((ov r).overlaps.flatMap Prod.snd).dedup := by
    unfold weights; rw [List.map_map]; exact List.map_id _
  obtain ⟨d1, d2, d3⟩ := distribute_getD (weights (ov r) x y) v (by rw [hfst]; exact List.nodup_dedup _) fun e he => by
    have : e.1 ∈ (weights (ov r) x y).map Prod.fst := List.mem_map_of_mem he
    rw [hfst, List.mem_dedup] at this
    rw [hv]; exact shared_bound hc r hr _ this
  refine ⟨by rw [d1, hv], fun i hi => ?_⟩
  have hm := mem_shared hc r hr i hi
  split
  · rename_i h
    have h1 : (i, x.getD i 0 / y.getD i 0) ∈ weights (ov r) x y := List.mem_map.2 ⟨i, List.mem_dedup.2 (hm.2 h), rfl⟩
    exact d2 _ h1
  · rename_i h
    refine d3 i ?_
    rw [hfst, List.mem_dedup]
    exact fun h1 => h (hm.1 h1)

theorem total_single {K : Type} [AddCommMonoid K] (hc : Consistent P ov gid) (r : Nat) (hr : r < P) (i : Nat) (hi : i < (ov r).n)
    (h : ¬ ∃ s j, s < P ∧ s ≠ r ∧ j < (ov s).n ∧ gid s j = gid r i) (x : Nat → List K) : total P ov gid x (gid r i) = (x r).getD i 0 := by
  unfold total
  rw [Finset.sum_eq_single_of_mem r (Finset.mem_range.2 hr)]
  · exact single_sum _ i hi _ _ fun j hj => ⟨fun e => hc.inj r hr _ _ hj hi e, fun e => by rw [e]⟩
  · intro s hs hne
    refine Finset.sum_eq_zero fun j hj => ?_
    rw [if_neg]
    exact fun e => h ⟨s, j, Finset.mem_range.1 hs, hne, Finset.mem_range.1 hj, e⟩

/-- Partition of unity: if the weights have been prepared from any vectors `x` and their accumulated vectors `y`, and if no accumulated entry is
zero, then distributing a vector on which the ranks agree and accumulating it gives the same vector, on every rank and in every execution. -/
theorem partition {K : Type} [Field K] (hc : Consistent P ov gid) (x : Nat → List K)
    (hx : ∀ r, r < P → (x r).length = (ov r).n) (buf : Nat → Nat → List K) (n : Nat) (σ : State K Unit)
    (hy : Steps P ov [.accumulate] (fun _ _ z => z) (initial (fun r => ((), x r)) buf) n σ)
    (hend : ∀ r, r < P → (σ.loc r).inCall = false ∧ (σ.loc r).call = 1)
    (hne : ∀ r, r < P → ∀ i, i < (ov r).n → (σ.loc r).vec.getD i 0 ≠ 0)
    (g : Nat → K) (v : Nat → List K) (hv : ∀ r, r < P → (v r).length = (ov r).n)
    (hg : ∀ r, r < P → ∀ i, i < (ov r).n → (v r).getD i 0 = g (gid r i)) (buf' : Nat → Nat → List K) (n' : Nat) (τ : State K Unit)
    (h : Steps P ov [.accumulate] (fun _ _ z => z)
      (initial (fun r => ((), distribute (weights (ov r) (x r) (σ.loc r).vec) (v r))) buf') n' τ)
    (r : Nat) (hr : r < P) (hin : (τ.loc r).inCall = false) (hcall : (τ.loc r).call = 1) (i : Nat) (hi : i < (ov r).n) :
    (τ.loc r).vec.getD i 0 = (v r).getD i 0 := by
  classical
  have hacc : ∀ s, s < P → ∀ j, j < (ov s).n → (σ.loc s).vec.getD j 0 = total P ov gid x (gid s j) := fun s hs j hj =>
    C31.accumulate_sums hc x hx buf n σ hy s hs (hend s hs).1 (hend s hs).2 j hj
  have hres := C31.accumulate_sums hc (fun r => distribute (weights (ov r) (x r) (σ.loc r).vec) (v r))
    (fun r hr => (distribute_weights hc r hr (x r) _ (v r) (hv r hr)).1) buf' n' τ h r hr hin hcall i hi
  change _ = total P ov gid (fun r => distribute (weights (ov r) (x r) (σ.loc r).vec) (v r)) (gid r i) at hres
  rw [hres]
  by_cases hs : ∃ s j, s < P ∧ s ≠ r ∧ j < (ov s).n ∧ gid s j = gid r i
  · have hT : total P ov gid x (gid r i) ≠ 0 := by rw [← hacc r hr i hi]; exact hne r hr i hi
    have : total P ov gid (fun r => distribute (weights (ov r) (x r) (σ.loc r).vec) (v r)) (gid r i) =
        g (gid r i) / total P ov gid x (gid r i) * total P ov gid x (gid r i) := by
      conv => rhs; arg 2; unfold total
      unfold total
      rw [Finset.mul_sum]
      refine Finset.sum_congr rfl fun s hsP => ?_
      rw [Finset.mul_sum]
      refine Finset.sum_congr rfl fun j hj => ?_
      have hsP := Finset.mem_range.1 hsP
      have hj := Finset.mem_range.1 hj
      split
      · rename_i e
        rw [(distribute_weights hc s hsP (x s) _ (v s) (hv s hsP)).2 j hj, if_pos, hacc s hsP j hj, hg s hsP j hj, e]
        · unfold total; ring
        · by_cases hsr : s = r
          · subst hsr
            obtain ⟨s', j', h1, h2, h3, h4⟩ := hs
            exact ⟨s', j', h1, h2, h3, h4.trans e.symm⟩
          · exact ⟨r, i, hr, fun q => hsr q.symm, hi, e.symm⟩
      · rw [mul_zero]
    rw [this, div_mul_cancel₀ _ hT, hg r hr i hi]
  · rw [total_single hc r hr i hi hs, (distribute_weights hc r hr (x r) _ (v r) (hv r hr)).2 i hi, if_neg hs]

/-- No accumulated entry is zero if no value is negative and some rank has a positive one for each degree of freedom; then all weights lie between
zero and one. -/
theorem between {K : Type} [Field K] [LinearOrder K] [IsStrictOrderedRing K] (x : Nat → List K)
    (h0 : ∀ s, s < P → ∀ j, j < (ov s).n → 0 ≤ (x s).getD j 0) (r : Nat) (hr : r < P) (i : Nat) (hi : i < (ov r).n)
    (hpos : ∃ s j, s < P ∧ j < (ov s).n ∧ gid s j = gid r i ∧ 0 < (x s).getD j 0) :
    0 < total P ov gid x (gid r i) ∧ 0 ≤ (x r).getD i 0 / total P ov gid x (gid r i) ∧
    (x r).getD i 0 / total P ov gid x (gid r i) ≤ 1 := by
  have hin : ∀ s ∈ Finset.range P, ∀ j ∈ Finset.range (ov s).n, 0 ≤ if gid s j = gid r i then (x s).getD j 0 else 0 := by
    intro s hs j hj
    split
    · exact h0 s (Finset.mem_range.1 hs) j (Finset.mem_range.1 hj)
    · exact le_rfl
  have hle : ∀ s j, s < P → j < (ov s).n → gid s j = gid r i → (x s).getD j 0 ≤ total P ov gid x (gid r i) := by
    intro s j hs hj e
    unfold total
    have h1 := Finset.single_le_sum (f := fun s => ∑ j ∈ Finset.range (ov s).n, if gid s j = gid r i then (x s).getD j 0 else 0)
      (fun s hs => Finset.sum_nonneg (hin s hs)) (Finset.mem_range.2 hs)
    have h2 := Finset.single_le_sum (f := fun j => if gid s j = gid r i then (x s).getD j 0 else 0) (hin s (Finset.mem_range.2 hs))
      (Finset.mem_range.2 hj)
    rw [if_pos e] at h2
    exact h2.trans h1
  obtain ⟨s, j, h1, h2, h3, h4⟩ := hpos
  have hT : 0 < total P ov gid x (gid r i) := lt_of_lt_of_le h4 (hle s j h1 h2 h3)
  exact ⟨hT, div_nonneg (h0 r hr i hi) hT.le, (div_le_one hT).2 (hle r i hr hi rfl)⟩

open Classical in
/-- If all values are zero or one, the accumulated value is the number of ranks with one: these ranks get the same part and the others nothing. -/
theorem owners {K : Type} [Field K] [CharZero K] (hc : Consistent P ov gid) (x : Nat → List K)
    (h01 : ∀ s, s < P → ∀ j, j < (ov s).n → (x s).getD j 0 = 0 ∨ (x s).getD j 0 = 1) (G : Nat) :
    total P ov gid x G = (((Finset.range P).filter fun s => ∃ j, j < (ov s).n ∧ gid s j = G ∧ (x s).getD j 0 = 1).card : K) := by
  unfold total
  rw [Finset.card_filter, Nat.cast_sum]
  refine Finset.sum_congr rfl fun s hs => ?_
  have hs := Finset.mem_range.1 hs
  by_cases q : ∃ j, j < (ov s).n ∧ gid s j = G
  · obtain ⟨j, hj, e⟩ := q
    rw [single_sum _ j hj _ _ fun j' hj' => ⟨fun e' => hc.inj s hs _ _ hj' hj (e'.trans e.symm), fun e' => by rw [e']; exact e⟩]
    split
    · rename_i hq
      obtain ⟨j', hj', e', h1⟩ := hq
      have : j' = j := hc.inj s hs _ _ hj' hj (e'.trans e.symm)
      rw [← this, h1]; simp
    · rename_i hq
      rcases h01 s hs j hj with h | h
      · rw [h]; simp
      · exact absurd ⟨j, hj, e, h⟩ hq
  · rw [if_neg, Nat.cast_zero]
    · refine Finset.sum_eq_zero fun j hj => ?_
      rw [if_neg fun e => q ⟨j, Finset.mem_range.1 hj, e⟩]
    · rintro ⟨j, hj, e, -⟩; exact q ⟨j, hj, e⟩

open Classical in
/-- The entries of the weights: each shared degree of freedom once; under the conditions of `between`, all weights lie between zero and one; if all
values are zero or one, each weight is zero or one over the number of ranks with one. -/
theorem entries {K : Type} [Field K] [LinearOrder K] [IsStrictOrderedRing K] (hc : Consistent P ov gid) (x : Nat → List K)
    (h0 : ∀ s, s < P → ∀ j, j < (ov s).n → 0 ≤ (x s).getD j 0)
    (hpos : ∀ r, r < P → ∀ i, i < (ov r).n → ∃ s j, s < P ∧ j < (ov s).n ∧ gid s j = gid r i ∧ 0 < (x s).getD j 0)
    (buf : Nat → Nat → List K) (n : Nat) (σ : State K Unit) (hx : ∀ r, r < P → (x r).length = (ov r).n)
    (hy : Steps P ov [.accumulate] (fun _ _ z => z) (initial (fun r => ((), x r)) buf) n σ) (r : Nat) (hr : r < P)
    (hin : (σ.loc r).inCall = false) (hcall : (σ.loc r).call = 1) :
    ((weights (ov r) (x r) (σ.loc r).vec).map Prod.fst).Nodup ∧
    ∀ e ∈ weights (ov r) (x r) (σ.loc r).vec, e.1 < (ov r).n ∧ (σ.loc r).vec.getD e.1 0 ≠ 0 ∧ 0 ≤ e.2 ∧ e.2 ≤ 1 ∧
      ((∀ s, s < P → ∀ j, j < (ov s).n → (x s).getD j 0 = 0 ∨ (x s).getD j 0 = 1) → e.2 = (x r).getD e.1 0 /
        (((Finset.range P).filter fun s => ∃ j, j < (ov s).n ∧ gid s j = gid r e.1 ∧ (x s).getD j 0 = 1).card : K)) := by
  refine ⟨?_, fun e he => ?_⟩
  · unfold weights
    rw [List.map_map]
    exact (List.map_id _).symm ▸ List.nodup_dedup _
  · obtain ⟨i, hi, rfl⟩ := List.mem_map.1 he
    have hi := shared_bound hc r hr i (List.mem_dedup.1 hi)
    have hacc : (σ.loc r).vec.getD i 0 = total P ov gid x (gid r i) := C31.accumulate_sums hc x hx buf n σ hy r hr hin hcall i hi
    obtain ⟨b1, b2, b3⟩ := between x h0 r hr i hi (hpos r hr i hi)
    dsimp only
    rw [hacc]
    refine ⟨hi, b1.ne', b2, b3, fun h01 => ?_⟩
    rw [owners hc x h01]
    congr!

/-! ## Layers of vertices -/

theorem addCell_spec (cell : List Nat) : ∀ s : List Nat × List Nat,
    (∀ v, v ∈ (addCell s cell).1 ↔ v ∈ s.1 ∨ v ∈ cell) ∧
    (∀ v, v ∈ (addCell s cell).2 ↔ v ∈ s.2 ∨ (v ∈ cell ∧ v ∉ s.1)) ∧
    ((∀ v ∈ s.2, v ∈ s.1) → s.2.Nodup → (∀ v ∈ (addCell s cell).2, v ∈ (addCell s cell).1) ∧ (addCell s cell).2.Nodup) := by
  unfold addCell
  induction cell with
  | nil => intro s; simp +contextual
  | cons a cell ih =>
    intro s
    rw [List.foldl_cons]
    by_cases ha : a ∈ s.1
    · rw [if_pos ha]
      obtain ⟨h1, h2, h3⟩ := ih s
      refine ⟨fun v => ?_, fun v => ?_, h3⟩
      · rw [h1, List.mem_cons]
        constructor
        · rintro (h | h); exacts [Or.inl h, Or.inr (Or.inr h)]
        · rintro (h | rfl | h); exacts [Or.inl h, Or.inl ha, Or.inr h]
      · rw [h2, List.mem_cons]
        constructor
        · rintro (h | h); exacts [Or.inl h, Or.inr ⟨Or.inr h.1, h.2⟩]
        · rintro (h | ⟨rfl | h, h'⟩); exacts [Or.inl h, absurd ha h', Or.inr ⟨h, h'⟩]
    · rw [if_neg ha]
      obtain ⟨h1, h2, h3⟩ := ih (a :: s.1, s.2 ++ [a])
      refine ⟨fun v => ?_, fun v => ?_, fun k1 k2 => h3 ?_ ?_⟩
      · rw [h1, List.mem_cons, List.mem_cons]; tauto
      · rw [h2]
        simp only [List.mem_append, List.mem_cons, List.not_mem_nil, or_false]
        constructor
        · rintro ((h | rfl) | ⟨h, h'⟩)
          exacts [Or.inl h, Or.inr ⟨Or.inl rfl, ha⟩, Or.inr ⟨Or.inr h, fun q => h' (Or.inr q)⟩]
        · rintro (h | ⟨rfl | h, h'⟩)
          · exact Or.inl (Or.inl h)
          · exact Or.inl (Or.inr rfl)
          · by_cases e : v = a
            · exact Or.inl (Or.inr e)
            · exact Or.inr ⟨h, fun q => q.elim e h'⟩
      · intro v hv
        simp only [List.mem_append, List.mem_cons, List.not_mem_nil, or_false] at hv ⊢
        exact hv.elim (fun h => Or.inr (k1 v h)) Or.inl
      · rw [List.nodup_append]
        refine ⟨k2, by simp, ?_⟩
        rintro u hu w hw rfl
        rw [List.mem_singleton] at hw
        subst hw
        exact ha (k1 _ hu)

theorem layer_spec (layer : List (List Nat)) : ∀ s : List Nat × List Nat,
    (∀ v, v ∈ (layer.foldl addCell s).1 ↔ v ∈ s.1 ∨ ∃ c ∈ layer, v ∈ c) ∧
    (∀ v, v ∈ (layer.foldl addCell s).2 ↔ v ∈ s.2 ∨ ((∃ c ∈ layer, v ∈ c) ∧ v ∉ s.1)) ∧
    ((∀ v ∈ s.2, v ∈ s.1) → s.2.Nodup → (layer.foldl addCell s).2.Nodup) := by
  induction layer with
  | nil => intro s; simp +contextual
  | cons c layer ih =>
    intro s
    rw [List.foldl_cons]
    obtain ⟨h1, h2, h3⟩ := ih (addCell s c)
    obtain ⟨k1, k2, k3⟩ := addCell_spec c s
    refine ⟨fun v => ?_, fun v => ?_, fun a b => h3 (k3 a b).1 (k3 a b).2⟩
    · rw [h1, k1]; simp only [List.mem_cons, exists_eq_or_imp]; tauto
    · rw [h2, k2, k1]; simp only [List.mem_cons, exists_eq_or_imp]; tauto

/-- A vertex is in layer `d` exactly if it is not on the boundary of the original subdomain and `d` is the first layer of cells with this vertex;
it is there once. -/
theorem layered (added : List Nat) (layers : List (List (List Nat))) :
    (vertexLayers added layers).length = layers.length ∧
    ∀ d, d < layers.length → ((vertexLayers added layers).getD d []).Nodup ∧ ∀ v, v ∈ (vertexLayers added layers).getD d [] ↔
      v ∉ added ∧ (∃ c ∈ layers.getD d [], v ∈ c) ∧ ∀ e, e < d → ∀ c ∈ layers.getD e [], v ∉ c := by
  induction layers generalizing added with
  | nil => exact ⟨rfl, fun d hd => absurd hd (by simp)⟩
  | cons l layers ih =>
    obtain ⟨h1, h2, h3⟩ := layer_spec l (added, [])
    obtain ⟨i1, i2⟩ := ih (l.foldl addCell (added, [])).1
    refine ⟨by simp only [vertexLayers, List.length_cons, i1], fun d hd => ?_⟩
    cases d with
    | zero =>
      simp only [vertexLayers, List.getD_cons_zero]
      refine ⟨h3 (by simp) (by simp), fun v => ?_⟩
      rw [h2]
      simp only [List.not_mem_nil, false_or, Nat.not_lt_zero, false_imp_iff, implies_true, and_true]
      tauto
    | succ d =>
      simp only [vertexLayers, List.getD_cons_succ]
      obtain ⟨j1, j2⟩ := i2 d (by simpa using hd)
      refine ⟨j1, fun v => ?_⟩
      rw [j2, h1]
      constructor
      · rintro ⟨a, b, c⟩
        refine ⟨fun q => a (Or.inl q), b, fun e he => ?_⟩
        cases e with
        | zero => intro c' hc' hv; exact a (Or.inr ⟨c', hc', hv⟩)
        | succ e => exact c e (by omega)
      · rintro ⟨a, b, c⟩
        refine ⟨?_, b, fun e he => c (e + 1) (by omega)⟩
        rintro (q | ⟨c', hc', hv⟩)
        · exact a q
        · exact c 0 (by omega) c' hc' hv

theorem inner_spec {K : Type} [Field K] (w : K) (dof : Nat → Int) (l : List Nat) : ∀ x : List K,
    (l.foldl (fun x v => if 0 ≤ dof v then x.set (dof v).toNat w else x) x).length = x.length ∧
    ∀ i, i < x.length → ((∃ v ∈ l, dof v = i) →
      (l.foldl (fun x v => if 0 ≤ dof v then x.set (dof v).toNat w else x) x).getD i 0 = w) ∧
      ((∀ v ∈ l, dof v ≠ i) → (l.foldl (fun x v => if 0 ≤ dof v then x.set (dof v).toNat w else x) x).getD i 0 = x.getD i 0) := by
  classical
  induction l with
  | nil => intro x; simp
  | cons a l ih =>
    intro x
    rw [List.foldl_cons]
    obtain ⟨h1, h2⟩ := ih (if 0 ≤ dof a then x.set (dof a).toNat w else x)
    have hl : (if 0 ≤ dof a then x.set (dof a).toNat w else x).length = x.length := by split <;> simp
    rw [hl] at h1 h2
    refine ⟨h1, fun i hi => ⟨?_, ?_⟩⟩
    · rintro ⟨v, hv, e⟩
      by_cases q : ∃ v ∈ l, dof v = i
      · exact (h2 i hi).1 q
      · rw [(h2 i hi).2 fun v hv e => q ⟨v, hv, e⟩]
        rcases List.mem_cons.1 hv with rfl | hv
        · rw [if_pos (by omega), e, Int.toNat_natCast]
          simp [List.getD_eq_getElem?_getD, hi]
        · exact absurd ⟨v, hv, e⟩ q
    · intro hn
      rw [(h2 i hi).2 fun v hv => hn v (List.mem_cons_of_mem _ hv)]
      split
      · have := hn a List.mem_cons_self
        rw [List.getD_eq_getElem?_getD, List.getElem?_set_ne (by omega), ← List.getD_eq_getElem?_getD]
      · rfl

theorem proto_spec {K : Type} [Field K] (val : Nat → K) (dof : Nat → Int) (layers : List (List Nat)) : ∀ (d : Nat) (x : List K),
    (proto val dof d layers x).length = x.length ∧ ∀ i, i < x.length →
      ((∀ e, e < layers.length → ∀ v ∈ layers.getD e [], dof v ≠ i) → (proto val dof d layers x).getD i 0 = x.getD i 0) ∧
      ∀ e, e < layers.length → (∃ v ∈ layers.getD e [], dof v = i) → (∀ e', e < e' → e' < layers.length → ∀ v ∈ layers.getD e' [], dof v ≠ i) →
        (proto val dof d layers x).getD i 0 = val (d + e) := by
  induction layers with
  | nil => intro d x; exact ⟨rfl, fun i hi => ⟨fun _ => rfl, fun e he => absurd he (by simp)⟩⟩
  | cons l layers ih =>
    intro d x
    rw [proto]
    obtain ⟨h1, h2⟩ := inner_spec (val d) dof l x
    obtain ⟨k1, k2⟩ := ih (d + 1) (l.foldl (fun x v => if 0 ≤ dof v then x.set (dof v).toNat (val d) else x) x)
    rw [h1] at k1 k2
    refine ⟨k1, fun i hi => ⟨fun hn => ?_, fun e he hv hlast => ?_⟩⟩
    · rw [(k2 i hi).1 fun e he => hn (e + 1) (by simpa using he)]
      exact (h2 i hi).2 (hn 0 (by simp))
    · cases e with
      | zero =>
        rw [(k2 i hi).1 fun e he => hlast (e + 1) (by omega) (by simpa using he)]
        exact (h2 i hi).1 hv
      | succ e =>
        rw [(k2 i hi).2 e (by simpa using he) hv fun e' h3 h4 => hlast (e' + 1) (by omega) (by simpa using h4)]
        congr 1; omega

/-- The values from which the weights are made: one at all degrees of freedom of vertices that are in no layer outside of the original subdomain;
in layer `d`, counted from one, `1 - d / (depth - 1)`, but not less than zero (and zero if `depth` is one). All values are between zero
and one. -/
theorem values {K : Type} [Field K] [LinearOrder K] [IsStrictOrderedRing K] (n depth : Nat) (dof : Nat → Int)
    (hinj : ∀ v w, 0 ≤ dof v → dof v = dof w → v = w) (added : List Nat) (layers : List (List (List Nat))) (v : Nat) (hv : 0 ≤ dof v)
    (hn : dof v < n) :
    ((v ∈ added ∨ ∀ l ∈ layers, ∀ c ∈ l, v ∉ c) → (getProto n depth dof (vertexLayers added layers) : List K).getD (dof v).toNat 0 = 1) ∧
    (∀ d, d < layers.length → v ∉ added → (∃ c ∈ layers.getD d [], v ∈ c) → (∀ e, e < d → ∀ c ∈ layers.getD e [], v ∉ c) →
      (getProto n depth dof (vertexLayers added layers) : List K).getD (dof v).toNat 0 =
        (if 1 < depth then max (1 - ((d + 1 : Nat) : K) / ((depth - 1 : Nat) : K)) 0 else 0)) ∧
    0 ≤ (getProto n depth dof (vertexLayers added layers) : List K).getD (dof v).toNat 0 ∧
    (getProto n depth dof (vertexLayers added layers) : List K).getD (dof v).toNat 0 ≤ 1 := by
  classical
  obtain ⟨l1, l2⟩ := layered added layers
  obtain ⟨-, p2⟩ := proto_spec (layerValue (K := K) depth) dof (vertexLayers added layers) 1 (List.replicate n 1)
  have hlt : (dof v).toNat < (List.replicate n (1 : K)).length := by rw [List.length_replicate]; omega
  obtain ⟨q1, q2⟩ := p2 _ hlt
  rw [l1] at q1 q2
  have hcast : ((dof v).toNat : Int) = dof v := by omega
  rw [hcast] at q1 q2
  have hone : (List.replicate n (1 : K)).getD (dof v).toNat 0 = 1 := by
    rw [List.length_replicate] at hlt
    simp [List.getD_eq_getElem?_getD, hlt]
  have A : (v ∈ added ∨ ∀ l ∈ layers, ∀ c ∈ l, v ∉ c) →
      (getProto n depth dof (vertexLayers added layers) : List K).getD (dof v).toNat 0 = 1 := by
    intro h
    unfold getProto
    rw [q1, hone]
    intro e he w hw hdw
    have : w = v := hinj w v (by omega) hdw
    subst this
    obtain ⟨m1, ⟨c, m2, m3⟩, -⟩ := ((l2 e he).2 w).1 hw
    rcases h with h | h
    · exact m1 h
    · have hmem : layers.getD e [] ∈ layers := by
        rw [List.getD_eq_getElem?_getD, List.getElem?_eq_getElem he]; exact List.getElem_mem he
      exact h _ hmem c m2 m3
  have B : ∀ d, d < layers.length → v ∉ added → (∃ c ∈ layers.getD d [], v ∈ c) → (∀ e, e < d → ∀ c ∈ layers.getD e [], v ∉ c) →
      (getProto n depth dof (vertexLayers added layers) : List K).getD (dof v).toNat 0 = layerValue depth (d + 1) := by
    intro d hd ha hc hf
    unfold getProto
    rw [q2 d hd ⟨v, ((l2 d hd).2 v).2 ⟨ha, hc, hf⟩, rfl⟩, Nat.add_comm]
    intro e' h1 h2 w hw hdw
    have : w = v := hinj w v (by omega) hdw
    subst this
    obtain ⟨c, c1, c2⟩ := hc
    exact (((l2 e' h2).2 w).1 hw).2.2 d h1 c c1 c2
  have hval : ∀ d, (0 : K) ≤ layerValue depth d ∧ layerValue (K := K) depth d ≤ 1 := by
    intro d
    unfold layerValue
    split
    · refine ⟨le_max_right _ _, max_le ?_ zero_le_one⟩
      have : (0 : K) ≤ (d : K) / ((depth - 1 : Nat) : K) := div_nonneg (Nat.cast_nonneg _) (Nat.cast_nonneg _)
      linarith
    · exact ⟨le_rfl, zero_le_one⟩
  refine ⟨A, fun d h1 h2 h3 h4 => B d h1 h2 h3 h4, ?_⟩
  by_cases h : v ∈ added ∨ ∀ l ∈ layers, ∀ c ∈ l, v ∉ c
  · rw [A h]; exact ⟨zero_le_one, le_rfl⟩
  · push Not at h
    obtain ⟨ha, l, hl, c, hc, hvc⟩ := h
    have hex : ∃ d, d < layers.length ∧ ∃ c ∈ layers.getD d [], v ∈ c := by
      obtain ⟨d, hd, e⟩ := List.getElem_of_mem hl
      exact ⟨d, hd, c, by rw [List.getD_eq_getElem?_getD, List.getElem?_eq_getElem hd, Option.getD_some, e]; exact hc, hvc⟩
    have hspec := Nat.find_spec hex
    rw [B (Nat.find hex) hspec.1 ha hspec.2 fun e he c hc hv' =>
      Nat.find_min hex he ⟨by omega, c, hc, hv'⟩]
    exact hval _

/-- An interval with the boundary vertex 2 and two layers of overlap; the degrees of freedom are the vertices without the last one. -/
theorem sample_case :
    vertexLayers [2] [[[2, 3]], [[3, 4]], [[4, 5]]] = [[3], [4], [5]] ∧
    (getProto 5 3 (fun v => if v = 5 then -1 else v) [[3], [4], [5]] : List ℚ) = [1, 1, 1, 1/2, 0] ∧
    (getProtoNonOverlapping 5 (fun v => if v = 5 then -1 else v) [[3], [4], [5]] : List ℚ) = [1, 1, 1, 0, 0] ∧
    weights ⟨2, [(1, [1])]⟩ [1, (1/2 : ℚ)] [1, 3/2] = [(1, 1/3)] := by
  decide +kernel

end PyNucleus.Props.C122
