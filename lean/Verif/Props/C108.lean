import Verif.Proof.DofRenumbering

/-!
# C108: renumbering of degrees of freedom
-/

namespace PyNucleus.Props.C108

open PyNucleus.DofRenumbering

/-- An entry of the table of a selected cell. -/
def Occurs (dofs : List (List Int)) (cells : List Nat) (d : Int) : Prop := ∃ c ∈ cells, d ∈ dofs.getD c []

/-- The map on the reduced mesh has the same dofs; the dofs on its boundary get the numbers -1, -2, … without
gaps, different ones different numbers. -/
theorem reduced_dofs (numDofs : Nat) (dofs : List (List Int)) (sel : Option (List Nat)) (r : Reduced)
    (h : reduced numDofs dofs sel = some r) :
    r.numDofs = numDofs ∧ ∃ φ : Int → Int, r.dofs = r.cells.map (fun c => (dofs.getD c []).map φ) ∧
      (∀ d, 0 ≤ d → φ d = d) ∧ (∀ d, Occurs dofs r.cells d → d < 0 → φ d < 0) ∧
      (∀ d d', Occurs dofs r.cells d → Occurs dofs r.cells d' → φ d = φ d' → d = d') ∧
      ∀ b : Int, (-r.numBoundaryDofs ≤ b ∧ b < 0) ↔ ∃ d, Occurs dofs r.cells d ∧ d < 0 ∧ φ d = b := by
  have hr : r = (let q := renumberRows ⟨[], -1⟩ (r.cells.map fun c => dofs.getD c [])
      (⟨r.cells, q.1, numDofs, -q.2.next - 1⟩ : Reduced)) := by
    unfold reduced at h
    cases sel with
    | none => simp only [Option.some.injEq] at h; rw [← h]
    | some s =>
      dsimp only at h
      split at h
      · simp only [Option.some.injEq] at h; rw [← h]
      · cases h
  generalize hc : r.cells = cells at hr ⊢
  have hg : Boundary.Good ⟨[], -1⟩ := ⟨by simp, by simp, by simp, by simp⟩
  obtain ⟨g, e⟩ := renumberRows_spec (cells.map fun c => dofs.getD c []) ⟨[], -1⟩ hg
  generalize hq : renumberRows ⟨[], -1⟩ (cells.map fun c => dofs.getD c []) = q at *
  have hmem : ∀ d, d ∈ (cells.map fun c => dofs.getD c []).flatten ↔ Occurs dofs cells d := by
    intro d
    simp only [List.mem_flatten, List.mem_map, Occurs]
    constructor
    · rintro ⟨_, ⟨c, hc, rfl⟩, hd⟩; exact ⟨c, hc, hd⟩
    · rintro ⟨c, hc, hd⟩; exact ⟨_, ⟨c, hc, rfl⟩, hd⟩
  have hval : ∀ d, Occurs dofs cells d → d < 0 → ∃ i : Nat, i < q.2.map.length ∧
      (∃ v, q.2.map[i]? = some (d, v)) ∧ value q.2.map d = -(i + 1 : Int) := by
    intro d ho hd
    obtain ⟨v, hv⟩ := g.all d ((hmem d).2 ho) hd
    obtain ⟨i, h1, h2, h3⟩ := value_neg g.good hd hv
    exact ⟨i, h1, ⟨v, h2⟩, h3⟩
  have hpos : ∀ d, 0 ≤ d → value q.2.map d = d := fun d hd => by simp [value, hd]
  have hnb : r.numBoundaryDofs = q.2.map.length := by
    rw [hr]; dsimp only; rw [g.good.next]; omega
  refine ⟨by rw [hr], value q.2.map, ?_, hpos, ?_, ?_, ?_⟩
  · rw [hr]; dsimp only; rw [e, List.map_map]; rfl
  · intro d ho hd
    obtain ⟨i, _, _, h3⟩ := hval d ho hd
    rw [h3]; omega
  · intro d d' ho ho' he
    rcases lt_or_ge d 0 with hd | hd <;> rcases lt_or_ge d' 0 with hd' | hd'
    · obtain ⟨i, _, ⟨v, h2⟩, h3⟩ := hval d ho hd
      obtain ⟨j, _, ⟨w, k2⟩, k3⟩ := hval d' ho' hd'
      have : i = j := by omega
      subst this
      rw [h2] at k2
      simp only [Option.some.injEq, Prod.mk.injEq] at k2
      exact k2.1
    · obtain ⟨i, _, _, h3⟩ := hval d ho hd
      rw [hpos d' hd'] at he; omega
    · obtain ⟨i, _, _, h3⟩ := hval d' ho' hd'
      rw [hpos d hd] at he; omega
    · rw [hpos d hd, hpos d' hd'] at he; exact he
  · intro b
    rw [hnb]
    constructor
    · rintro ⟨h1, h2⟩
      have hi : (-b - 1).toNat < q.2.map.length := by omega
      obtain ⟨ex, he, hin⟩ := g.ext
      have hp := List.getElem?_eq_getElem hi
      have hpm : q.2.map[(-b - 1).toNat] ∈ ex := by
        have hm : ∀ x ∈ q.2.map, x ∈ ex := by
          intro x hx
          rw [he] at hx
          simpa using hx
        exact hm _ (List.getElem_mem hi)
      refine ⟨q.2.map[(-b - 1).toNat].1, (hmem _).1 (hin _ hpm), g.good.neg _ (List.getElem_mem hi), ?_⟩
      have hlook := lookup_of_mem g.good.keys (d := q.2.map[(-b - 1).toNat].1) (v := q.2.map[(-b - 1).toNat].2) (List.getElem_mem hi)
      have hneg := g.good.neg _ (List.getElem_mem hi)
      have hv := g.good.vals _ _ hp
      simp only [value, not_le.2 hneg, if_false, hlook, Option.getD_some, hv]
      omega
    · rintro ⟨d, ho, hd, rfl⟩
      obtain ⟨i, h1, _, h3⟩ := hval d ho hd
      rw [h3]; omega

/-- Without a selection the cells are those with a dof, so no dof is lost; a selection is refused exactly if
a dof would be lost. -/
theorem reduced_cells (numDofs : Nat) (dofs : List (List Int)) :
    (∃ r, reduced numDofs dofs none = some r ∧ r.cells.Pairwise (· < ·) ∧
      (∀ c, c ∈ r.cells ↔ c < dofs.length ∧ ∃ d ∈ dofs.getD c [], 0 ≤ d) ∧
      ∀ row ∈ dofs, ∀ d ∈ row, 0 ≤ d → Occurs dofs r.cells d) ∧
    ∀ sel, (∃ r, reduced numDofs dofs (some sel) = some r ∧ r.cells = sel) ↔
      ∀ d : Nat, d < numDofs → Occurs dofs sel d := by
  have hcells : ∀ c, c ∈ cellsWithDofs dofs ↔ c < dofs.length ∧ ∃ d ∈ dofs.getD c [], 0 ≤ d := by
    intro c; simp [cellsWithDofs]
  refine ⟨⟨_, rfl, ?_, hcells, ?_⟩, ?_⟩
  · exact List.pairwise_lt_range.filter _
  · intro row hrow d hd h0
    obtain ⟨c, hc, rfl⟩ := List.getElem_of_mem hrow
    have : dofs.getD c [] = dofs[c] := List.getD_eq_getElem _ _ hc
    exact ⟨c, (hcells c).2 ⟨hc, d, by rw [this]; exact hd, h0⟩, by rw [this]; exact hd⟩
  · intro sel
    have hs := dofCheck_spec numDofs dofs sel
    unfold Occurs
    rw [← hs]
    unfold reduced
    dsimp only
    split
    · rename_i hc; simp [hc]
    · rename_i hc; simp [hc]

/-- Sorting renumbers the dofs by a bijection, such that their coordinates are in the order that the
argsort gives; boundary dofs keep their numbers. -/
theorem sorted {C : Type} (le : C → C → Prop) (coords : Nat → C) (idx u : List Nat) (dofs : List (List Int))
    (hu : u.length = idx.length) (hn : idx.Nodup) (hlt : ∀ i ∈ idx, i < idx.length)
    (hs : ∀ i j, i ≤ j → j < idx.length → le (coords (idx.getD i 0)) (coords (idx.getD j 0)))
    (hd : ∀ row ∈ dofs, ∀ d ∈ row, d < idx.length) :
    ∃ ν : Nat → Nat, (∀ d, d < idx.length → ν d < idx.length) ∧
      (∀ d d', d < idx.length → d' < idx.length → ν d = ν d' → d = d') ∧
      (∀ d d', d < idx.length → d' < idx.length → ν d ≤ ν d' → le (coords d) (coords d')) ∧
      sort idx u dofs = dofs.map fun row => row.map fun d => if 0 ≤ d then (ν d.toNat : Int) else d := by
  have hsub : ∀ d, d < idx.length → ∃ k, k < idx.length ∧ idx.getD k 0 = d := by
    intro d hd
    have hperm : idx.Perm (List.range idx.length) := by
      apply List.Subperm.perm_of_length_le
      · exact List.subperm_of_subset hn fun i hi => List.mem_range.2 (hlt i hi)
      · simp
    have := hperm.mem_iff.2 (List.mem_range.2 hd)
    obtain ⟨k, hk, rfl⟩ := List.getElem_of_mem this
    exact ⟨k, hk, List.getD_eq_getElem _ _ hk⟩
  refine ⟨fun d => (inverse idx u).getD d 0, ?_, ?_, ?_, ?_⟩
  · intro d hd
    obtain ⟨k, hk, rfl⟩ := hsub d hd
    dsimp only
    rw [inverse_spec idx u hu hn hlt k hk]; exact hk
  · intro d d' hd hd' he
    obtain ⟨k, hk, rfl⟩ := hsub d hd
    obtain ⟨k', hk', rfl⟩ := hsub d' hd'
    dsimp only at he
    rw [inverse_spec idx u hu hn hlt k hk, inverse_spec idx u hu hn hlt k' hk'] at he
    rw [he]
  · intro d d' hd hd' he
    obtain ⟨k, hk, rfl⟩ := hsub d hd
    obtain ⟨k', hk', rfl⟩ := hsub d' hd'
    dsimp only at he
    rw [inverse_spec idx u hu hn hlt k hk, inverse_spec idx u hu hn hlt k' hk'] at he
    exact hs k k' he hk'
  · rfl

/-- Periodicity: two dofs get the same number if and only if their images are at the same dof, and the
order of the images is kept; boundary dofs keep their numbers. -/
theorem periodic (numDofs : Nat) (image : Nat → Nat) (dofs : List (List Int)) :
    ∃ ν : Nat → Nat, (applyPeriodicity numDofs image dofs).1 =
        dofs.map (fun row => row.map fun d => if 0 ≤ d then (ν d.toNat : Int) else d) ∧
      (∀ d d', d < numDofs → d' < numDofs → (ν d = ν d' ↔ image d = image d')) ∧
      (∀ d d', d < numDofs → d' < numDofs → image d < image d' → ν d < ν d') ∧
      (∀ d, d < numDofs → image d < numDofs → image (image d) = image d → ν (image d) = ν d) ∧
      (0 < numDofs → ∀ k, k < (applyPeriodicity numDofs image dofs).2 ↔ ∃ d, d < numDofs ∧ ν d = k) := by
  have hmem : ∀ d, d < numDofs → image d ∈ unique ((List.range numDofs).map image) := by
    intro d hd
    rw [mem_unique]
    exact List.mem_map.2 ⟨d, List.mem_range.2 hd, rfl⟩
  have hν : ∀ d, d < numDofs → (remap numDofs image).getD d 0 =
      (unique ((List.range numDofs).map image)).idxOf (image d) := by
    intro d hd
    rw [List.getD_eq_getElem _ _ (by simpa [remap] using hd)]
    simp [remap]
  have hiff : ∀ d d', d < numDofs → d' < numDofs →
      ((remap numDofs image).getD d 0 = (remap numDofs image).getD d' 0 ↔ image d = image d') := by
    intro d d' hd hd'
    rw [hν d hd, hν d' hd']
    exact List.idxOf_inj (hmem d hd)
  refine ⟨fun d => (remap numDofs image).getD d 0, rfl, hiff, ?_, ?_, ?_⟩
  · intro d d' hd hd' h
    dsimp only
    rw [hν d hd, hν d' hd']
    have h1 := List.idxOf_lt_length_iff.2 (hmem d hd)
    have h2 := List.idxOf_lt_length_iff.2 (hmem d' hd')
    by_contra hc
    have hc := not_lt.1 hc
    have hp := List.pairwise_iff_getElem.1 (sorted_unique ((List.range numDofs).map image))
    have e1 := List.getElem_idxOf h1
    have e2 := List.getElem_idxOf h2
    rcases Nat.lt_or_ge ((unique ((List.range numDofs).map image)).idxOf (image d'))
      ((unique ((List.range numDofs).map image)).idxOf (image d)) with hl | hl
    · have := hp _ _ h2 h1 hl
      rw [e1, e2] at this; omega
    · have he := le_antisymm hc hl
      have := (List.idxOf_inj (hmem d' hd')).1 he
      omega
  · intro d hd hi he
    exact (hiff _ _ hi hd).2 he
  · intro hpos k
    have hlen : (applyPeriodicity numDofs image dofs).2 = (unique ((List.range numDofs).map image)).length := by
      have : 0 < (unique ((List.range numDofs).map image)).length := List.length_pos_of_mem (hmem 0 hpos)
      unfold applyPeriodicity; dsimp only; omega
    rw [hlen]
    constructor
    · intro hk
      have hm := List.getElem_mem hk
      rw [mem_unique] at hm
      obtain ⟨d, hd, he⟩ := List.mem_map.1 hm
      have hd := List.mem_range.1 hd
      refine ⟨d, hd, ?_⟩
      dsimp only
      rw [hν d hd, he]
      exact (nodup_unique _).idxOf_getElem k hk
    · rintro ⟨d, hd, rfl⟩
      dsimp only
      rw [hν d hd]
      exact List.idxOf_lt_length_iff.2 (hmem d hd)

/-- A map without dofs has one dof afterwards. -/
theorem periodic_empty_fails (image : Nat → Nat) (dofs : List (List Int)) :
    (applyPeriodicity 0 image dofs).2 = 1 := rfl

/-- Two triangles with boundary, and a periodic interval. -/
theorem sample_case :
    ((reduced 2 [[-4, -2, -3], [0, -2, 1], [1, -5, -2]] none).map fun r => (r.cells, r.dofs, r.numBoundaryDofs)) =
      some ([1, 2], [[0, -1, 1], [1, -2, -1]], 2) ∧
    (reduced 2 [[-4, -2, -3], [0, -2, 1], [1, -5, -2]] (some [2])).isNone ∧
    sort [2, 0, 1] [9, 9, 9] [[0, 1], [2, -1]] = [[1, 2], [0, -1]] ∧
    applyPeriodicity 3 (fun d => if d = 2 then 0 else d) [[0, 1], [1, 2]] = ([[0, 1], [1, 0]], 2) := by
  refine ⟨by decide +kernel, by decide +kernel, by decide +kernel, by decide +kernel⟩

end PyNucleus.Props.C108
