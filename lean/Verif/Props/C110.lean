import Verif.Proof.GridLevels

/-!
# C110: distribution of the levels of multigrid to processes
-/

namespace PyNucleus.Props.C110

open PyNucleus.GridLevels

/-- The coarse grid is the largest one below the bound, and coarser than the finest one. -/
theorem coarse_grid (size : Nat → ℚ) (bound : ℚ) (noRef : Nat) (h : 0 < noRef) :
    coarseGrid size bound noRef < noRef ∧ (∀ i, 1 ≤ i → i ≤ coarseGrid size bound noRef → size i < bound) ∧
      (coarseGrid size bound noRef + 1 < noRef → bound ≤ size (coarseGrid size bound noRef + 1)) := by
  obtain ⟨_, h2, h3, h4⟩ := coarseGo_spec size bound (noRef - 1) 0
  unfold coarseGrid
  exact ⟨by omega, fun i h1 h2 => h3 i (by omega) h2, fun hl => h4 (by omega)⟩

/-- The number of processes grows with the level, from one up to all processes. -/
theorem processes (numCells : Nat → Nat) (noRef avail : Nat) (repart : ℚ) (cg : Nat) (hr : repart ≤ 1) (ha : 0 < avail)
    (hc : ∀ i, 0 < numCells i) (hcg : cg < noRef) :
    (∀ i j, i ≤ j → numProcs numCells noRef avail repart cg i ≤ numProcs numCells noRef avail repart cg j) ∧
    (∀ i, 1 ≤ numProcs numCells noRef avail repart cg i ∧ numProcs numCells noRef avail repart cg i ≤ avail) ∧
    (∀ i, i ≤ cg → numProcs numCells noRef avail repart cg i = 1) ∧
    numProcs numCells noRef avail repart cg noRef = avail := by
  have hs := procsDown_spec numCells noRef avail repart hr ha hc
  have hanti : ∀ d e, procsDown numCells noRef avail repart (d + e) ≤ procsDown numCells noRef avail repart d := by
    intro d e
    induction e with
    | zero => exact le_rfl
    | succ e ih => exact (hs (d + e)).2.trans ih
  have hone : ∀ i, 1 ≤ numProcs numCells noRef avail repart cg i := by
    intro i
    unfold numProcs
    split
    · exact le_rfl
    · exact (hs _).1
  refine ⟨fun i j hij => ?_, fun i => ⟨hone i, ?_⟩, fun i hi => by simp [numProcs, hi], ?_⟩
  · by_cases hi : i ≤ cg
    · have := hone j
      simpa [numProcs, hi] using this
    · have hj : ¬ j ≤ cg := by omega
      simp only [numProcs, hi, hj, if_false]
      have := hanti (noRef - j) (noRef - i - (noRef - j))
      rwa [show noRef - j + (noRef - i - (noRef - j)) = noRef - i by omega] at this
  · unfold numProcs
    split
    · exact ha
    · have := hanti 0 (noRef - i)
      rwa [Nat.zero_add] at this
  · simp [numProcs, not_le.2 hcg, procsDown]

/-- Below: the first hierarchy is on the first rank up to the coarse grid; the others describe the levels above it, each of
them on the first ranks, with more ranks in each hierarchy than in the one before.  All levels but the finest one are described,
and the finest one is if the coarse grid is just below. -/
theorem hierarchies (noRef : Nat) (onRanks : List Nat) (dim degree : Nat) (repart bound : ℚ) (gs : List Group)
    (hr : repart ≤ 1) (h : paramsForMG noRef onRanks dim degree repart bound = some gs) :
    ∃ (init : Nat) (factor : ℚ) (cg : Nat) (procs : Nat → Nat) (rest : List Group),
      initialCells dim = some init ∧ dofFactor dim degree = some factor ∧
      cg = coarseGrid (fun i => cells dim init i * factor) bound noRef ∧ cg < noRef ∧
      (∀ i j, i ≤ j → procs i ≤ procs j) ∧ (∀ i, 1 ≤ procs i ∧ procs i ≤ onRanks.length) ∧ procs noRef = onRanks.length ∧
      gs = ⟨cg, onRanks.take 1⟩ :: rest ∧
      (rest.flatMap fun g => List.replicate g.noRef g.ranks) =
        (List.range (noRef - (cg + 2) + 1)).map (fun i => onRanks.take (procs (cg + 1 + i))) ∧
      (∀ g ∈ rest, 0 < g.noRef) ∧
      ∃ ps : List Nat, rest.map Group.ranks = ps.map (onRanks.take ·) ∧ ps.Pairwise (· < ·) := by
  unfold paramsForMG at h
  split at h
  · rename_i init factor r rs n h1 h2
    dsimp only at h
    rw [Option.some.injEq] at h
    have hcell : ∀ i, 0 < cells dim init i := by
      intro i
      have : 0 < init := by
        unfold initialCells at h1
        split at h1 <;> simp at h1 <;> omega
      unfold cells
      positivity
    obtain ⟨hcg, -, -⟩ := coarse_grid (fun i => (cells dim init i : ℚ) * factor) bound (n + 1) (Nat.succ_pos n)
    obtain ⟨hm, hb, -, hl⟩ := processes (cells dim init) (n + 1) (r :: rs).length repart _ hr (by simp) hcell hcg
    obtain ⟨gs', e1, e2, e3, e4, ps, e5, e6, e7⟩ := extend_spec (r :: rs)
      (numProcs (cells dim init) (n + 1) (r :: rs).length repart
        (coarseGrid (fun i => (cells dim init i : ℚ) * factor) bound (n + 1)))
      (coarseGrid (fun i => (cells dim init i : ℚ) * factor) bound (n + 1))
      ⟨coarseGrid (fun i => (cells dim init i : ℚ) * factor) bound (n + 1), [r]⟩
      (fun i j _ hij => hm i j hij) (n + 1 - (coarseGrid (fun i => (cells dim init i : ℚ) * factor) bound (n + 1) + 2))
    refine ⟨init, factor, _, _, gs'.reverse, h1, h2, rfl, hcg, hm, hb, hl, ?_, ?_, ?_, ps.reverse, ?_, ?_⟩
    · rw [← h, e1]; simp
    · have e2 := congrArg List.reverse e2
      rw [List.reverse_reverse] at e2
      rw [← e2]
      unfold spread
      rw [List.reverse_flatMap]
      congr 1
      funext g
      simp
    · intro g hg; exact (e3 g (List.mem_reverse.1 hg)).1
    · rw [List.map_reverse, e5, List.map_reverse]
    · rw [List.pairwise_reverse]; exact e6
  · cases h

/-- The number of refinements is one too small if there are levels between the coarse grid and the finest one. -/
theorem total_fails (noRef : Nat) (onRanks : List Nat) (dim degree : Nat) (repart bound : ℚ) (gs : List Group)
    (hr : repart ≤ 1) (h : paramsForMG noRef onRanks dim degree repart bound = some gs) (init : Nat) (factor : ℚ)
    (hi : initialCells dim = some init) (hf : dofFactor dim degree = some factor)
    (hc : coarseGrid (fun i => cells dim init i * factor) bound noRef + 1 < noRef) :
    (gs.map Group.noRef).sum + 1 = noRef := by
  obtain ⟨i', f', cg, procs, rest, h1, h2, h3, -, -, -, -, h8, h9, -⟩ := hierarchies noRef onRanks dim degree repart bound gs hr h
  rw [hi, Option.some.injEq] at h1
  rw [hf, Option.some.injEq] at h2
  subst h1 h2
  have hl := congrArg List.length h9
  have := sum_spread rest
  unfold spread at this
  rw [this] at hl
  simp only [List.length_map, List.length_range] at hl
  rw [h8, List.map_cons, List.sum_cons, hl]
  dsimp only
  omega

/-- With the coarse grid just below the finest one the number of refinements is right, and the finest level is on all
processes. -/
theorem total_partial (noRef : Nat) (onRanks : List Nat) (dim degree : Nat) (repart bound : ℚ) (gs : List Group)
    (hr : repart ≤ 1) (h : paramsForMG noRef onRanks dim degree repart bound = some gs) (init : Nat) (factor : ℚ)
    (hi : initialCells dim = some init) (hf : dofFactor dim degree = some factor)
    (hc : coarseGrid (fun i => cells dim init i * factor) bound noRef + 1 = noRef) :
    gs = [⟨noRef - 1, onRanks.take 1⟩, ⟨1, onRanks⟩] := by
  obtain ⟨i', f', cg, procs, rest, h1, h2, h3, -, -, -, h7, h8, h9, h10, -⟩ :=
    hierarchies noRef onRanks dim degree repart bound gs hr h
  rw [hi, Option.some.injEq] at h1
  rw [hf, Option.some.injEq] at h2
  subst h1 h2
  rw [← h3] at hc
  rw [show noRef - (cg + 2) + 1 = 1 by omega] at h9
  simp only [List.range_one, List.map_cons, List.map_nil, Nat.add_zero] at h9
  rw [hc, h7, List.take_length] at h9
  have hlen := congrArg List.length h9
  rw [h8, show noRef - 1 = cg by omega]
  congr 1
  match rest, h9, h10, hlen with
  | [], h9, _, _ => simp at h9
  | [g], h9, h10, hlen =>
    simp only [List.flatMap_cons, List.flatMap_nil, List.append_nil, List.length_replicate, List.length_singleton] at hlen h9
    rw [hlen] at h9
    simp only [List.replicate_one, List.cons.injEq, and_true] at h9
    cases g
    simp_all
  | a :: b :: t, _, h10, hlen =>
    have ha := h10 a (by simp)
    have hb := h10 b (by simp)
    simp only [List.flatMap_cons, List.length_append, List.length_replicate, List.length_singleton] at hlen
    omega

/-- Without refinements there is an error. -/
theorem no_refinement_fails (onRanks : List Nat) (dim degree : Nat) (repart bound : ℚ) :
    paramsForMG 0 onRanks dim degree repart bound = none := by
  unfold paramsForMG
  split
  · rename_i h; cases h
  · rfl

/-- Nine instead of ten refinements of a square on four processes; two of an interval. -/
theorem sample_case :
    paramsForMG 10 [0, 1, 2, 3] 2 1 (1 / 20) 4500 = some [⟨5, [0]⟩, ⟨2, [0]⟩, ⟨2, [0, 1, 2, 3]⟩] ∧
    paramsForMG 8 [0, 1, 2, 3] 1 1 (1 / 2) 20 = some [⟨3, [0]⟩, ⟨3, [0]⟩, ⟨1, [0, 1, 2, 3]⟩] ∧
    paramsForMG 2 [0, 1] 1 1 (1 / 20) 4500 = some [⟨1, [0]⟩, ⟨1, [0, 1]⟩] := by
  decide +kernel

end PyNucleus.Props.C110
