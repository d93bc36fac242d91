import Verif.Proof.PanelDoFs
import Verif.Props.C64

/-! # C69: relation of two cells -/

namespace PyNucleus.Props.C69

open PyNucleus.PanelType PyNucleus.ShapeFunctions PyNucleus.Interaction

/-! ### Ranks of permutations -/

/-- Ranks of permutations of `N` numbers are the numbers below `N!`, each the rank of one permutation only. -/
theorem rank_bijective (N : Nat) (hN : 1 ≤ N) :
    (∀ σ : List Nat, σ.Perm (List.range N) → ∃ r : Nat, rank N σ = some (r : Int) ∧ r < N.factorial) ∧
    (∀ σ τ : List Nat, σ.Perm (List.range N) → τ.Perm (List.range N) → rank N σ = rank N τ → σ = τ) ∧
    ∀ r, r < N.factorial → ∃ σ : List Nat, σ.Perm (List.range N) ∧ rank N σ = some (r : Int) := by
  have hinj : ∀ σ τ : List Nat, σ.Perm (List.range N) → τ.Perm (List.range N) → (rankOf N fun i => σ.getD i 0) = (rankOf N fun i => τ.getD i 0) → σ = τ := fun σ τ hσ hτ e => by
    obtain ⟨l1, p1⟩ := isPerm_of_perm N σ hσ
    obtain ⟨l2, p2⟩ := isPerm_of_perm N τ hτ
    exact perm_ext l1 l2 (rankOf_inj p1 p2 e)
  refine ⟨fun σ hσ => ⟨_, rank_eq N hN σ (isPerm_of_perm N σ hσ).2, rankOf_lt (isPerm_of_perm N σ hσ).2⟩, fun σ τ hσ hτ e => ?_, fun r hr => ?_⟩
  · rw [rank_eq N hN σ (isPerm_of_perm N σ hσ).2, rank_eq N hN τ (isPerm_of_perm N τ hτ).2, Option.some.injEq] at e
    exact hinj σ τ hσ hτ (by exact_mod_cast e)
  · have hS : (((List.range N).permutations.toFinset).image fun σ => rankOf N fun i => σ.getD i 0) = Finset.range N.factorial := by
      refine Finset.eq_of_subset_of_card_le (fun v hv => ?_) ?_
      · obtain ⟨σ, hσ, rfl⟩ := Finset.mem_image.1 hv
        exact Finset.mem_range.2 (rankOf_lt (isPerm_of_perm N σ (List.mem_permutations.1 (List.mem_toFinset.1 hσ))).2)
      · rw [Finset.card_image_of_injOn, List.toFinset_card_of_nodup (List.nodup_permutations _ List.nodup_range), List.length_permutations, List.length_range, Finset.card_range]
        intro a ha b hb e
        exact hinj a b (List.mem_permutations.1 (List.mem_toFinset.1 ha)) (List.mem_permutations.1 (List.mem_toFinset.1 hb)) e
    obtain ⟨σ, hσ, rfl⟩ := Finset.mem_image.1 (hS ▸ Finset.mem_range.2 hr : r ∈ _)
    have hσ := List.mem_permutations.1 (List.mem_toFinset.1 hσ)
    exact ⟨σ, hσ, rank_eq N hN σ (isPerm_of_perm N σ hσ).2⟩

/-- Ranks follow the lexicographic order. -/
theorem rank_lex (N : Nat) (hN : 1 ≤ N) (σ τ : List Nat) (hσ : σ.Perm (List.range N)) (hτ : τ.Perm (List.range N)) (m : Nat) (hm : m < N) (heq : ∀ i, i < m → σ.getD i 0 = τ.getD i 0)
    (hlt : σ.getD m 0 < τ.getD m 0) : ∃ r s : Int, rank N σ = some r ∧ rank N τ = some s ∧ r < s := by
  obtain ⟨_, p1⟩ := isPerm_of_perm N σ hσ
  obtain ⟨_, p2⟩ := isPerm_of_perm N τ hτ
  exact ⟨_, _, rank_eq N hN σ p1, rank_eq N hN τ p2, by exact_mod_cast rankOf_lex p1 p2 m hm heq hlt⟩

example : rank 4 [2, 0, 3, 1] = some 13 ∧ rank 4 [2, 1, 0, 3] = some 14 ∧ rank 4 [0, 1, 2, 3] = some 0 ∧ rank 4 [3, 2, 1, 0] = some 23 := by decide +kernel

/-- Row `r` of the table is the permutation of rank `r`. -/
theorem permutation_table (N : Nat) (hN : 1 ≤ N) (all old : List (List Nat)) (hall : ∀ σ, σ ∈ all ↔ σ.Perm (List.range N)) (hold : old.length = N.factorial) :
    ∃ perms, permTable N all old = some perms ∧ perms.length = N.factorial ∧ ∀ σ r, σ.Perm (List.range N) → rank N σ = some r → perms[r.toNat]? = some σ := by
  obtain ⟨perms, h1, h2, h3⟩ := permTable_spec N hN all old (fun σ hσ => (hall σ).1 hσ) hold
  refine ⟨perms, h1, h2, fun σ r hσ hr => ?_⟩
  obtain ⟨r', hr', hp⟩ := h3 σ ((hall σ).2 hσ)
  rw [hr, Option.some.injEq] at hr'
  rw [hr', hp]

example : permTable 3 [[0, 1, 2], [0, 2, 1], [1, 0, 2], [1, 2, 0], [2, 0, 1], [2, 1, 0]] (List.replicate 6 []) =
    some [[0, 1, 2], [0, 2, 1], [1, 0, 2], [1, 2, 0], [2, 0, 1], [2, 1, 0]] := by decide +kernel

/-- The table of permutations of dofs is built for the elements of order up to three. -/
theorem table_built (p d : Nat) (hp : p ≤ 3) (hd : 1 ≤ d) (hd3 : d ≤ 3) (all old : List (List Nat)) (hall : ∀ σ, σ ∈ all ↔ σ.Perm (List.range (d + 1))) (hold : old.length = (d + 1).factorial) :
    ∃ table, precompute (d + 1) all old (nodes ℚ p d) = some table ∧ table.length = (d + 1).factorial := by
  obtain ⟨perms, h1, h2, h3⟩ := permutation_table (d + 1) (by omega) all old hall hold
  have : ∀ σ ∈ perms, ∃ row, dofRow (nodes ℚ p d) σ = some row := fun σ hσ => by
    obtain ⟨r, hr, rfl⟩ := List.getElem_of_mem hσ
    obtain ⟨τ, hτ, hrank⟩ := (rank_bijective (d + 1) (by omega)).2.2 r (by omega)
    have := h3 τ _ hτ hrank
    rw [Int.toNat_natCast, List.getElem?_eq_getElem hr, Option.some.injEq] at this
    rw [this]
    obtain ⟨row, hrow, _⟩ := rows p d hp hd hd3 τ hτ
    exact ⟨row, hrow⟩
  have hm : ∀ l : List (List Nat), (∀ σ ∈ l, ∃ row, dofRow (nodes ℚ p d) σ = some row) → ∃ t, l.mapM (dofRow (nodes ℚ p d)) = some t ∧ t.length = l.length := by
    intro l
    induction l with
    | nil => intro _; exact ⟨[], rfl, rfl⟩
    | cons σ l ih =>
      intro h
      obtain ⟨row, hrow⟩ := h σ (by simp)
      obtain ⟨t, ht, hl⟩ := ih fun τ hτ => h τ (by simp [hτ])
      exact ⟨row :: t, by rw [List.mapM_cons, hrow, ht]; rfl, by simp [hl]⟩
  obtain ⟨t, ht, hl⟩ := hm perms this
  exact ⟨t, by unfold precompute; rw [h1, Option.bind_some, ht], by omega⟩

/-! ### Common vertices -/

/-- Number of common vertices. -/
def common (c1 c2 : List Nat) : Nat := (c1.filter (· ∈ c2)).length

/-- Pairs are skipped in one order only. -/
theorem ignored (symmetricCells : Bool) (E : DoFMap.Element) (n : Nat) (table : List (List Nat)) (cellNo1 cellNo2 : Nat) (c1 c2 old1 old2 old : List Nat) (P : Panel) (h1 : c1.Nodup) (h2 : c2.Nodup)
    (l1 : old1.length = c1.length) (l2 : old2.length = c2.length) (h5 : c1.length ≤ 5) (h : protoPanel symmetricCells E n table cellNo1 cellNo2 c1 c2 old1 old2 old = some P) :
    P.panel = -6 ↔ symmetricCells = true ∧ cellNo2 < cellNo1 := by
  unfold protoPanel at h
  dsimp only at h
  split at h
  · rename_i hc
    simp only [Option.some.injEq] at h
    subst h
    simpa using hc
  rename_i hc
  refine ⟨fun hp => ?_, fun h' => absurd h' hc⟩
  exfalso
  have hnum := (findCommon_spec h1 h2 l1 l2).num_le
  split at h
  · simp only [Option.some.injEq] at h
    subst h
    simp only at hp
    omega
  split at h
  · simp only [Option.some.injEq] at h
    subst h
    simp at hp
  · simp only [Option.bind_eq_some_iff] at h
    obtain ⟨row1, _, h⟩ := h
    split at h
    · simp only [Option.map_eq_some_iff] at h
      obtain ⟨row2, _, h⟩ := h
      subst h
      simp only at hp
      omega
    · simp only [Option.some.injEq] at h
      subst h
      simp only at hp
      omega

theorem identity_eq (n : Nat) (old : List Nat) (hn : n ≤ old.length) : identity n old = List.range n ++ old.drop n := by
  have := forRange_write n old id hn
  unfold identity
  simpa using this

/-- The answer is minus the number of common vertices.  Both permutations list the common vertices first and in the same order. -/
theorem panel_common (symmetricCells : Bool) (E : DoFMap.Element) (n N : Nat) (all oldPerms : List (List Nat)) (nds : List (List ℚ)) (table : List (List Nat)) (cellNo1 cellNo2 : Nat)
    (c1 c2 old1 old2 old : List Nat) (hN : 1 ≤ N) (hall : ∀ σ, σ ∈ all ↔ σ.Perm (List.range N)) (hold : oldPerms.length = N.factorial) (htab : precompute N all oldPerms nds = some table)
    (h1 : c1.Nodup) (h2 : c2.Nodup) (hc1 : c1.length = N) (l1 : old1.length = c1.length) (l2 : old2.length = c2.length) (hsame : cellNo1 = cellNo2 → c1.length = c2.length → c1 = c2)
    (hno : ¬ (symmetricCells = true ∧ cellNo2 < cellNo1)) :
    ∃ P, protoPanel symmetricCells E n table cellNo1 cellNo2 c1 c2 old1 old2 old = some P ∧ P.panel = -(common c1 c2 : Int) ∧ P.perm1.Perm (List.range c1.length) ∧ P.perm2.Perm (List.range c2.length) ∧
      (∀ k, k < common c1 c2 → c1.getD (P.perm1.getD k 0) 0 = c2.getD (P.perm2.getD k 0) 0) ∧
      (∀ k, common c1 c2 ≤ k → k < c1.length → c1.getD (P.perm1.getD k 0) 0 ∉ c2) ∧ ∀ k, common c1 c2 ≤ k → k < c2.length → c2.getD (P.perm2.getD k 0) 0 ∉ c1 := by
  have hinv := findCommon_spec h1 h2 l1 l2
  have hnum : (findCommon c1 c2 old1 old2).num = common c1 c2 := (common_num hinv h1).symm
  have hle2 := hinv.num_le2 h1 le_rfl
  set st := findCommon c1 c2 old1 old2 with hst
  have idrange : ∀ (m : Nat) (l : List Nat), l.length = m → identity m l = List.range m := fun m l hl => by
    rw [identity_eq m l (by omega), List.drop_of_length_le (by omega), List.append_nil]
  unfold protoPanel
  rw [if_neg hno, ← hst, ← hnum]
  split
  · rename_i hid
    obtain rfl := hsame hid.2 hid.1
    have hfull : st.num = c1.length := by rw [hnum]; unfold common; rw [List.filter_eq_self.2 (by simp)]
    refine ⟨_, rfl, by simp only; rw [hfull], ?_, ?_, ?_, fun k hk hk' => by omega, fun k hk hk' => by omega⟩
    · simp only; rw [idrange _ _ l1]
    · simp only; rw [idrange _ _ l2]
    · intro k hk
      simp only
      rw [idrange _ _ l1, idrange _ _ l2]
  dsimp only
  split
  · rename_i hid hz
    have hdis : ∀ v, v ∈ c1 → v ∉ c2 := fun v hv hv2 => by
      have : common c1 c2 = 0 := by rw [← hnum, hz]
      have := List.filter_eq_nil_iff.1 (List.length_eq_zero_iff.1 this) v hv
      simp [hv2] at this
    refine ⟨_, rfl, by simp [hz], ?_, ?_, fun k hk => by omega, fun k _ hk => ?_, fun k _ hk => ?_⟩
    · simp only; rw [idrange _ _ (by rw [hinv.len1, l1])]
    · simp only; rw [idrange _ _ (by rw [hinv.len2, l2])]
    · simp only
      rw [idrange _ _ (by rw [hinv.len1, l1]), show (List.range c1.length).getD k 0 = k by rw [List.getD_eq_getElem _ _ (by simpa using hk), List.getElem_range], List.getD_eq_getElem _ _ hk]
      exact hdis _ (List.getElem_mem _)
    · simp only
      rw [idrange _ _ (by rw [hinv.len2, l2]), show (List.range c2.length).getD k 0 = k by rw [List.getD_eq_getElem _ _ (by simpa using hk), List.getElem_range], List.getD_eq_getElem _ _ hk]
      exact fun hm => hdis _ hm (List.getElem_mem _)
  rename_i hid hz
  have inj2 : ∀ k l, k < st.num → l < st.num → st.perm2.getD k 0 = st.perm2.getD l 0 → k = l := fun k l hk hl e =>
    hinv.inj k l hk hl (getD_inj h1 (hinv.lt1 k hk) (hinv.lt1 l hl) (by rw [hinv.eq k hk, hinv.eq l hl, e]))
  obtain ⟨f1l, f1p, f1k⟩ := fillRest_spec st.num c1.length st.perm1 st.mask1 (by rw [hinv.len1, l1]) hinv.num_le hinv.lt1 hinv.inj hinv.bits1
  obtain ⟨f2l, f2p, f2k⟩ := fillRest_spec st.num c2.length st.perm2 st.mask2 (by rw [hinv.len2, l2]) hle2 hinv.lt2 inj2 hinv.bits2
  set q1 := fillRest st.num c1.length st.perm1 st.mask1
  set q2 := fillRest st.num c2.length st.perm2 st.mask2
  have perm1 := perm_range f1l f1p
  have perm2 := perm_range f2l f2p
  have hA : ∀ k, k < st.num → c1.getD (q1.getD k 0) 0 = c2.getD (q2.getD k 0) 0 := fun k hk => by rw [f1k k hk, f2k k hk, hinv.eq k hk]
  have hB : ∀ k, st.num ≤ k → k < c1.length → c1.getD (q1.getD k 0) 0 ∉ c2 := fun k hk hk' hmem => by
    obtain ⟨b, hb, e⟩ := List.getElem_of_mem hmem
    obtain ⟨k', hk1, hk2⟩ := hinv.all (q1.getD k 0) b (f1p.lt k hk') hb (by rw [List.getD_eq_getElem _ _ hb, e])
    have := f1p.inj k' k (by omega) hk' (by rw [f1k k' hk1, hk2])
    omega
  have hC : ∀ k, st.num ≤ k → k < c2.length → c2.getD (q2.getD k 0) 0 ∉ c1 := fun k hk hk' hmem => by
    obtain ⟨a, ha, e⟩ := List.getElem_of_mem hmem
    have e' : c1.getD a 0 = c2.getD (q2.getD k 0) 0 := by rw [List.getD_eq_getElem _ _ ha, e]
    obtain ⟨k', hk1, hk2⟩ := hinv.all a (q2.getD k 0) ha (f2p.lt k hk') e'
    have h3 : st.perm2.getD k' 0 = q2.getD k 0 := getD_inj h2 (hinv.lt2 k' hk1) (f2p.lt k hk') (by rw [← hinv.eq k' hk1, hk2, e'])
    have := f2p.inj k' k (by omega) hk' (by rw [f2k k' hk1, h3])
    omega
  obtain ⟨r1, row1, hr1, _, ht1⟩ := precompute_spec N hN all oldPerms nds table hall hold htab q1 (hc1 ▸ perm1)
  rw [hc1, hr1, Option.bind_some, ht1, Option.bind_some]
  rw [hc1] at perm1 hB
  split
  · rename_i hl
    obtain ⟨r2, row2, hr2, _, ht2⟩ := precompute_spec N hN all oldPerms nds table hall hold htab q2 (hl ▸ perm2)
    rw [hr2, Option.bind_some, ht2, Option.map_some]
    exact ⟨_, rfl, rfl, perm1, perm2, hA, hB, hC⟩
  · exact ⟨_, rfl, rfl, perm1, perm2, hA, hB, hC⟩

/-! ### Permutation of the dofs -/

variable {K : Type} [Field K]

/-- Coordinate of the node of local dof `a` of a cell; `x` are the coordinates of the vertices. -/
def nodeAt (nds : List (List ℚ)) (d : Nat) (c : List Nat) (x : Nat → K) (a : Nat) : K := ∑ i ∈ Finset.range (d + 1), ((nds.getD a []).getD i 0 : K) * x (c.getD i 0)

theorem nodeAt_perm (nds : List (List ℚ)) (d : Nat) (c : List Nat) (x : Nat → K) (a : Nat) (σ : List Nat) (hσ : σ.Perm (List.range (d + 1))) :
    nodeAt nds d c x a = ∑ j ∈ Finset.range (d + 1), ((nds.getD a []).getD (σ.getD j 0) 0 : K) * x (c.getD (σ.getD j 0) 0) := by
  have hl : σ.length = d + 1 := by rw [hσ.length_eq, List.length_range]
  have h := (hσ.map fun i => ((nds.getD a []).getD i 0 : K) * x (c.getD i 0)).sum_eq
  unfold nodeAt
  have e1 : ((List.range (d + 1)).map fun i => ((nds.getD a []).getD i 0 : K) * x (c.getD i 0)).sum = ∑ i ∈ Finset.range (d + 1), ((nds.getD a []).getD i 0 : K) * x (c.getD i 0) := rfl
  rw [← e1, ← h]
  have e2 : σ = (List.range (d + 1)).map fun j => σ.getD j 0 := by
    refine List.ext_getElem (by simp [hl]) fun i h1 h2 => ?_
    rw [List.getElem_map, List.getElem_range, List.getD_eq_getElem _ _ h1]
  conv_lhs => rw [e2, List.map_map]
  rfl

/-- The nodes of the first cell, taken in the order of the permutation, are the nodes of the simplex with permuted vertices.  The same is true for the nodes of the second cell
that are not on the common part; all other nodes of the second cell are nodes of the first. -/
theorem dofs (p d : Nat) (hp : p ≤ 3) (hd : 1 ≤ d) (hd3 : d ≤ 3) (symmetricCells : Bool) (all oldPerms table : List (List Nat)) (cellNo1 cellNo2 : Nat) (c1 c2 old1 old2 old : List Nat)
    (hall : ∀ σ, σ ∈ all ↔ σ.Perm (List.range (d + 1))) (hold : oldPerms.length = (d + 1).factorial) (htab : precompute (d + 1) all oldPerms (nodes ℚ p d) = some table)
    (h1 : c1.Nodup) (h2 : c2.Nodup) (hc1 : c1.length = d + 1) (hc2 : c2.length = d + 1) (l1 : old1.length = c1.length) (l2 : old2.length = c2.length) (l : old.length = 2 * (nodes ℚ p d).length)
    (hne : cellNo1 ≠ cellNo2) (hno : ¬ (symmetricCells = true ∧ cellNo2 < cellNo1)) (hm1 : 1 ≤ common c1 c2) (hmd : common c1 c2 ≤ d) :
    ∃ P, protoPanel symmetricCells (element p d) (nodes ℚ p d).length table cellNo1 cellNo2 c1 c2 old1 old2 old = some P ∧
      (P.perm.take (nodes ℚ p d).length).Perm (List.range (nodes ℚ p d).length) ∧
      (∀ (x : Nat → K) k, k < (nodes ℚ p d).length →
        nodeAt (nodes ℚ p d) d c1 x (P.perm.getD k 0) = ∑ j ∈ Finset.range (d + 1), (((nodes ℚ p d).getD k []).getD j 0 : K) * x (c1.getD (P.perm1.getD j 0) 0)) ∧
      (∀ i, i < (off (nodes ℚ p d) d (common c1 c2)).length → ∃ b, b < (nodes ℚ p d).length ∧ P.perm.getD ((nodes ℚ p d).length + i) 0 = (nodes ℚ p d).length + b ∧
        ∀ x : Nat → K, nodeAt (nodes ℚ p d) d c2 x b =
          ∑ j ∈ Finset.range (d + 1), (((nodes ℚ p d).getD ((off (nodes ℚ p d) d (common c1 c2)).getD i 0) []).getD j 0 : K) * x (c2.getD (P.perm2.getD j 0) 0)) ∧
      (∀ i i', i < (off (nodes ℚ p d) d (common c1 c2)).length → i' < (off (nodes ℚ p d) d (common c1 c2)).length →
        P.perm.getD ((nodes ℚ p d).length + i) 0 = P.perm.getD ((nodes ℚ p d).length + i') 0 → i = i') ∧
      ∀ b, b < (nodes ℚ p d).length → (∃ i, i < (off (nodes ℚ p d) d (common c1 c2)).length ∧ P.perm.getD ((nodes ℚ p d).length + i) 0 = (nodes ℚ p d).length + b) ∨
        ∃ k, k < (nodes ℚ p d).length ∧ k ∉ off (nodes ℚ p d) d (common c1 c2) ∧ ∀ x : Nat → K, nodeAt (nodes ℚ p d) d c2 x b = nodeAt (nodes ℚ p d) d c1 x (P.perm.getD k 0) := by
  obtain ⟨P, hP, hpan, hp1, hp2, hA, hB, hC⟩ := panel_common symmetricCells (element p d) (nodes ℚ p d).length (d + 1) all oldPerms (nodes ℚ p d) table cellNo1 cellNo2 c1 c2 old1 old2 old
    (by omega) hall hold htab h1 h2 hc1 l1 l2 (fun h => absurd h hne) hno
  have hinv := findCommon_spec h1 h2 l1 l2
  have hnum : (findCommon c1 c2 old1 old2).num = common c1 c2 := (common_num hinv h1).symm
  rw [hc1] at hp1
  rw [hc2] at hp2
  obtain ⟨r1, row1, hr1, hd1, ht1⟩ := precompute_spec (d + 1) (by omega) all oldPerms _ table hall hold htab P.perm1 hp1
  obtain ⟨r2, row2, hr2, hd2, ht2⟩ := precompute_spec (d + 1) (by omega) all oldPerms _ table hall hold htab P.perm2 hp2
  obtain ⟨row1', hd1', ok1⟩ := rows p d hp hd hd3 P.perm1 hp1
  obtain ⟨row2', hd2', ok2⟩ := rows p d hp hd hd3 P.perm2 hp2
  rw [hd1, Option.some.injEq] at hd1'
  rw [hd2, Option.some.injEq] at hd2'
  subst hd1' hd2'
  -- the permutation of the dofs
  have hperm : P.perm = secondDofs (element p d) (d + 1) (nodes ℚ p d).length (common c1 c2) row2
      (Loops.forRange 0 (nodes ℚ p d).length old fun perm k => perm.set k (row1.getD k 0)) := by
    have hP' := hP
    unfold protoPanel at hP'
    rw [if_neg hno, if_neg (by tauto)] at hP'
    dsimp only at hP'
    rw [if_neg (by omega)] at hP'
    simp only [Option.bind_eq_some_iff] at hP'
    obtain ⟨row1'', ⟨r1', hr1', ht1'⟩, hP'⟩ := hP'
    rw [if_pos (by omega)] at hP'
    simp only [Option.map_eq_some_iff, Option.bind_eq_some_iff] at hP'
    obtain ⟨row2'', ⟨r2', hr2', ht2'⟩, hP'⟩ := hP'
    subst hP'
    simp only at hr1 hr2 ⊢
    rw [hc1] at hr1' hr2' hr1
    rw [hc2] at hr2' hr2
    rw [hc2, hnum]
    rw [hr1, Option.some.injEq] at hr1'
    rw [hr2, Option.some.injEq] at hr2'
    subst hr1' hr2'
    rw [ht1, Option.some.injEq] at ht1'
    rw [ht2, Option.some.injEq] at ht2'
    subst ht1' ht2'
    rfl
  obtain ⟨d', rfl⟩ : ∃ d', d = d' + 1 := ⟨d - 1, by omega⟩
  obtain ⟨m', hm'⟩ : ∃ m', common c1 c2 = m' + 1 := ⟨common c1 c2 - 1, by omega⟩
  set n := (nodes ℚ p (d' + 1)).length with hn
  have hcount := counts d' (by omega) p (by omega)
  have hwrite := forRange_write n old (fun k => row1.getD k 0) (by omega)
  obtain ⟨hs1, hs2⟩ := secondDofs_spec (element p (d' + 1)) (d' + 1 + 1) n (common c1 c2) row2 (Loops.forRange 0 n old fun perm k => perm.set k (row1.getD k 0)) (by omega)
    (by rw [hwrite]; simp; omega) hcount.1 (fun h3 => hcount.2 (by omega))
  rw [← hperm] at hs1 hs2
  have hfirst : ∀ k, k < n → P.perm.getD k 0 = row1.getD k 0 := fun k hk => by
    rw [hs1 k hk, hwrite, List.getD_append _ _ _ _ (by simpa using hk), List.getD_eq_getElem _ _ (by simpa using hk), List.getElem_map, List.getElem_range]
  have hsecond : ∀ i, i < (off (nodes ℚ p (d' + 1)) (d' + 1) (common c1 c2)).length →
      P.perm.getD (n + i) 0 = n + row2.getD ((off (nodes ℚ p (d' + 1)) (d' + 1) (common c1 c2)).getD i 0) 0 := fun i hi => by
    refine hs2 i _ ?_
    rw [hm'] at hi ⊢
    exact select_off d' (by omega) p (by omega) m' (by omega) i hi
  have hoff : ∀ k, k ∈ off (nodes ℚ p (d' + 1)) (d' + 1) (common c1 c2) → k < n := fun k hk => by
    unfold off at hk
    exact List.mem_range.1 (List.mem_filter.1 hk).1
  have hoffn : ∀ i, i < (off (nodes ℚ p (d' + 1)) (d' + 1) (common c1 c2)).length → (off (nodes ℚ p (d' + 1)) (d' + 1) (common c1 c2)).getD i 0 < n := fun i hi => by
    rw [List.getD_eq_getElem _ _ hi]
    exact hoff _ (List.getElem_mem _)
  have hrow1 : IsPerm n fun k => row1.getD k 0 := ⟨ok1.2.2.1, fun i j hi hj e => getD_inj ok1.2.1 (by rw [ok1.1]; exact hi) (by rw [ok1.1]; exact hj) e⟩
  have hrow2 : IsPerm n fun k => row2.getD k 0 := ⟨ok2.2.2.1, fun i j hi hj e => getD_inj ok2.2.1 (by rw [ok2.1]; exact hi) (by rw [ok2.1]; exact hj) e⟩
  have key1 : ∀ (x : Nat → K) k, k < n → nodeAt (nodes ℚ p (d' + 1)) (d' + 1) c1 x (row1.getD k 0) =
      ∑ j ∈ Finset.range (d' + 1 + 1), (((nodes ℚ p (d' + 1)).getD k []).getD j 0 : K) * x (c1.getD (P.perm1.getD j 0) 0) := fun x k hk => by
    rw [nodeAt_perm _ _ _ _ _ P.perm1 hp1]
    refine Finset.sum_congr rfl fun j hj => ?_
    rw [ok1.2.2.2 k hk j (Finset.mem_range.1 hj)]
  have key2 : ∀ (x : Nat → K) k, k < n → nodeAt (nodes ℚ p (d' + 1)) (d' + 1) c2 x (row2.getD k 0) =
      ∑ j ∈ Finset.range (d' + 1 + 1), (((nodes ℚ p (d' + 1)).getD k []).getD j 0 : K) * x (c2.getD (P.perm2.getD j 0) 0) := fun x k hk => by
    rw [nodeAt_perm _ _ _ _ _ P.perm2 hp2]
    refine Finset.sum_congr rfl fun j hj => ?_
    rw [ok2.2.2.2 k hk j (Finset.mem_range.1 hj)]
  refine ⟨P, hP, ?_, fun x k hk => ?_, fun i hi => ?_, fun i i' hi hi' e => ?_, fun b hb => ?_⟩
  · have hlen : n ≤ P.perm.length := by
      by_contra hc
      have := hfirst (n - 1)
      have h0 : ∀ k, P.perm.length ≤ k → k < n → row1.getD k 0 = 0 := fun k hk hk' => by
        rw [← hfirst k hk', List.getD_eq_default _ _ hk]
      have hlast := h0 (n - 1) (by omega) (by omega)
      -- at least one more entry is written
      obtain ⟨i, hi⟩ : ∃ i, i < (off (nodes ℚ p (d' + 1)) (d' + 1) (common c1 c2)).length := by
        refine ⟨0, ?_⟩
        rw [hm']
        exact off_pos d' (by omega) p (by omega) m' (by omega)
      have := hsecond i hi
      rw [List.getD_eq_default _ _ (by omega)] at this
      omega
    refine perm_range (by rw [List.length_take]; omega) ⟨fun k hk => ?_, fun k k' hk hk' e => ?_⟩
    · have := hrow1.lt k hk
      rw [List.getD, List.getElem?_take_of_lt hk, ← List.getD, hfirst k hk]
      exact this
    · have ht : ∀ k, k < n → (P.perm.take n).getD k 0 = row1.getD k 0 := fun k hk => by rw [List.getD, List.getElem?_take_of_lt hk, ← List.getD, hfirst k hk]
      rw [ht k hk, ht k' hk'] at e
      exact hrow1.inj k k' hk hk' e
  · rw [hfirst k hk, key1 x k hk]
  · exact ⟨_, hrow2.lt _ (hoffn i hi), hsecond i hi, fun x => key2 x _ (hoffn i hi)⟩
  · rw [hsecond i hi, hsecond i' hi'] at e
    have := hrow2.inj _ _ (hoffn i hi) (hoffn i' hi') (by omega)
    exact getD_inj (List.nodup_range.filter _) hi hi' this
  · -- the dof `b` comes from some position
    obtain ⟨k, hk, rfl⟩ : ∃ k, k < n ∧ row2.getD k 0 = b := by
      have hmem : b ∈ row2 := (perm_range ok2.1 hrow2).mem_iff.2 (List.mem_range.2 hb)
      obtain ⟨k, hk, e⟩ := List.getElem_of_mem hmem
      exact ⟨k, by have := ok2.1; omega, by rw [List.getD_eq_getElem _ _ hk, e]⟩
    by_cases hko : k ∈ off (nodes ℚ p (d' + 1)) (d' + 1) (common c1 c2)
    · obtain ⟨i, hi, e⟩ := List.getElem_of_mem hko
      exact Or.inl ⟨i, hi, by rw [hsecond i hi, List.getD_eq_getElem _ _ hi, e]⟩
    · refine Or.inr ⟨k, hk, hko, fun x => ?_⟩
      rw [key2 x k hk, hfirst k hk, key1 x k hk]
      refine Finset.sum_congr rfl fun j hj => ?_
      by_cases hjm : j < common c1 c2
      · rw [hA j hjm]
      · have hz : ((nodes ℚ p (d' + 1)).getD k []).getD j 0 = 0 := by
          by_contra hc
          refine hko ?_
          unfold off
          exact List.mem_filter.2 ⟨List.mem_range.2 hk, decide_eq_true ⟨j, Finset.mem_range.1 hj, by omega, hc⟩⟩
        rw [hz]
        simp

/-- Two triangles with a common edge, elements of order two. -/
example : ∃ table, precompute 3 (List.range 3).permutations' (List.replicate 6 []) (nodes ℚ 2 2) = some table ∧
    ∃ P, protoPanel true (element 2 2) 6 table 0 1 [7, 3, 5] [5, 9, 7] [0, 0, 0] [0, 0, 0] (List.replicate 12 0) = some P ∧
      P.panel = -2 ∧ P.perm1 = [0, 2, 1] ∧ P.perm2 = [2, 0, 1] ∧ P.perm = [0, 2, 1, 5, 4, 3, 7, 9, 10, 0, 0, 0] ∧ off (nodes ℚ 2 2) 2 2 = [2, 4, 5] := by decide +kernel

/-! ### Position relative to the horizon -/

section
variable {K : Type} [Field K] [LinearOrder K] [IsStrictOrderedRing K]

/-- Pairs of cells without cut: all points interact. -/
theorem base_inside (dim n1 n2 : Nat) (inf horizon2 : K) (s1 s2 : Nat → Nat → K) (h : pairIdentifier dim n1 n2 inf horizon2 s1 s2 = .base) (x y : Nat → K) (hx : InHull n1 s1 x) (hy : InHull n2 s2 y) :
    euclid2 dim x y ≤ horizon2 := by
  unfold pairIdentifier at h
  dsimp only at h
  split at h
  · rename_i hc
    have := ((extreme_spec dim n1 n2 inf horizon2 s1 s2).2.1 hc).2
    have := dist2_hulls .l2 dim n1 n2 s1 s2 x y horizon2 hx hy fun i k hi hk => by rw [dist2_l2]; exact this i k hi hk
    rwa [dist2_l2] at this
  · split at h <;> simp at h

/-- The three answers in terms of the distances of vertices. -/
theorem identifier (dim n1 n2 : Nat) (inf horizon2 : K) (s1 s2 : Nat → Nat → K) (h0 : 0 ≤ horizon2) (hinf : horizon2 ≤ inf) :
    (pairIdentifier dim n1 n2 inf horizon2 s1 s2 = .base ↔ ∀ i k, i < n1 → k < n2 → euclid2 dim (s1 i) (s2 k) ≤ horizon2) ∧
    (pairIdentifier dim n1 n2 inf horizon2 s1 s2 = .onHorizon ↔ (∃ i k, i < n1 ∧ k < n2 ∧ horizon2 < euclid2 dim (s1 i) (s2 k)) ∧ ∃ i k, i < n1 ∧ k < n2 ∧ euclid2 dim (s1 i) (s2 k) < horizon2) := by
  have e1 := (extreme_spec dim n1 n2 inf horizon2 s1 s2).2
  have e2 := (extreme_spec dim n1 n2 inf horizon2 s1 s2).1
  simp only [h0, hinf, true_and] at e1 e2
  have n1' : (∃ i k, i < n1 ∧ k < n2 ∧ horizon2 < euclid2 dim (s1 i) (s2 k)) ↔ ¬ (extremeDistances dim n1 n2 inf s1 s2).2 ≤ horizon2 := by
    rw [e1]; push Not; exact ⟨fun ⟨i, k, a, b, c⟩ => ⟨i, k, a, b, c⟩, fun ⟨i, k, a, b, c⟩ => ⟨i, k, a, b, c⟩⟩
  have n2' : (∃ i k, i < n1 ∧ k < n2 ∧ euclid2 dim (s1 i) (s2 k) < horizon2) ↔ ¬ horizon2 ≤ (extremeDistances dim n1 n2 inf s1 s2).1 := by
    rw [e2]; push Not; exact ⟨fun ⟨i, k, a, b, c⟩ => ⟨i, k, a, b, c⟩, fun ⟨i, k, a, b, c⟩ => ⟨i, k, a, b, c⟩⟩
  rw [n1', n2', ← e1]
  unfold pairIdentifier
  dsimp only
  split
  · rename_i hc; simp [hc]
  · rename_i hc
    split
    · rename_i hd; simp [hc, hd]
    · rename_i hd; simp [hc, hd]

/-- On a line, pairs of intervals side by side that are left out have no points within the horizon. -/
theorem ignored_line_partial (inf horizon2 : K) (s1 s2 : Nat → Nat → K) (h0 : 0 ≤ horizon2)
    (ho : (∀ i k, i < 2 → k < 2 → s1 i 0 ≤ s2 k 0) ∨ ∀ i k, i < 2 → k < 2 → s2 k 0 ≤ s1 i 0) (h : pairIdentifier 1 2 2 inf horizon2 s1 s2 = .ignored) (x y : Nat → K)
    (hx : InHull 2 s1 x) (hy : InHull 2 s2 y) : horizon2 ≤ (x 0 - y 0) ^ 2 := by
  unfold pairIdentifier at h
  dsimp only at h
  split at h
  · simp at h
  split at h
  · rename_i hc
    have hv := ((extreme_spec 1 2 2 inf horizon2 s1 s2).1.1 hc).2
    exact C64.remote_line_partial .l2 horizon2 h0 .cut s1 s2 ho ((C64.position_ball .l2 1 2 2 horizon2 h0 .cut s1 s2).1.2 fun i k hi hk => by rw [dist2_l2]; exact hv i k hi hk) x y hx hy
  · simp at h

example : pairIdentifier 1 2 2 (1000 : ℚ) 4 (fun i _ => if i = 0 then 0 else 1) (fun i _ => if i = 0 then 3 else 4) = .ignored ∧ pairIdentifier 1 2 2 (1000 : ℚ) 4 (fun i _ => if i = 0 then 0 else 1) (fun i _ => if i = 0 then 1 else 3) = .onHorizon ∧
    pairIdentifier 1 2 2 (1000 : ℚ) 9 (fun i _ => if i = 0 then 0 else 1) (fun i _ => if i = 0 then 1 else 3) = .base := by decide +kernel

end

/-- Triangles with vertices at large distance are left out although they have points within the horizon. -/
theorem ignored_fails : pairIdentifier 2 3 3 1000 4 C64.lower C64.upper = .ignored ∧ ∃ x y, InHull 3 C64.lower x ∧ InHull 3 C64.upper y ∧ euclid2 2 x y = 1 := by
  obtain ⟨_, _, _, p, q, hp, hq, h, _⟩ := C64.remote_fails
  exact ⟨by decide +kernel, p, q, hp, hq, h⟩

end PyNucleus.Props.C69
