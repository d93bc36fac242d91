import Verif.Model.GridLevels
import Mathlib.Tactic.Linarith
import Mathlib.Tactic.Positivity
import Mathlib.Tactic.FieldSimp

/-!
# Lemmas on the distribution of levels
-/

namespace PyNucleus.GridLevels

theorem coarseGo_spec (size : Nat → ℚ) (bound : ℚ) : ∀ (fuel cg : Nat),
    cg ≤ coarseGo size bound cg fuel ∧ coarseGo size bound cg fuel ≤ cg + fuel ∧
    (∀ i, cg < i → i ≤ coarseGo size bound cg fuel → size i < bound) ∧
    (coarseGo size bound cg fuel < cg + fuel → bound ≤ size (coarseGo size bound cg fuel + 1)) := by
  intro fuel
  induction fuel with
  | zero => intro cg; simp only [coarseGo]; exact ⟨le_rfl, le_rfl, fun i h1 h2 => by omega, fun h => by omega⟩
  | succ f ih =>
    intro cg
    by_cases h : size (cg + 1) < bound
    · obtain ⟨h1, h2, h3, h4⟩ := ih (cg + 1)
      simp only [coarseGo, h, if_true]
      refine ⟨by omega, by omega, fun i hi hi' => ?_, fun hl => h4 (by omega)⟩
      rcases Nat.lt_or_ge (cg + 1) i with hlt | hge
      · exact h3 i hlt hi'
      · have : i = cg + 1 := by omega
        rw [this]; exact h
    · simp only [coarseGo, h, if_false]
      exact ⟨le_rfl, by omega, fun i h1 h2 => by omega, fun _ => not_lt.1 h⟩

theorem procsDown_spec (numCells : Nat → Nat) (noRef avail : Nat) (repart : ℚ) (hr : repart ≤ 1) (ha : 0 < avail)
    (hc : ∀ i, 0 < numCells i) : ∀ d, 0 < procsDown numCells noRef avail repart d ∧
      procsDown numCells noRef avail repart (d + 1) ≤ procsDown numCells noRef avail repart d := by
  have hpp : (0 : ℚ) < numCells noRef / avail := div_pos (by exact_mod_cast hc noRef) (by exact_mod_cast ha)
  have key : ∀ d, 0 < procsDown numCells noRef avail repart d → 0 < procsDown numCells noRef avail repart (d + 1) ∧
      procsDown numCells noRef avail repart (d + 1) ≤ procsDown numCells noRef avail repart d := by
    intro d hd
    have hcd : (0 : ℚ) < numCells (noRef - (d + 1)) := by exact_mod_cast hc _
    rw [procsDown]
    split
    · rename_i h
      refine ⟨Nat.ceil_pos.2 (div_pos hcd hpp), Nat.ceil_le.2 ?_⟩
      have hq : (0 : ℚ) < procsDown numCells noRef avail repart d := by exact_mod_cast hd
      rw [div_lt_iff₀ hq] at h
      rw [div_le_iff₀ hpp]
      have : repart * (numCells noRef / avail) * procsDown numCells noRef avail repart d ≤
          1 * (numCells noRef / avail) * procsDown numCells noRef avail repart d := by gcongr
      linarith
    · exact ⟨hd, le_rfl⟩
  intro d
  have hpos : ∀ d, 0 < procsDown numCells noRef avail repart d := by
    intro d
    induction d with
    | zero => exact ha
    | succ d ih => exact (key d ih).1
  exact ⟨hpos d, (key d (hpos d)).2⟩

/-- The numbers of processes of the levels that a list of hierarchies describes, from the finest. -/
def spread (gs : List Group) : List (List Nat) := gs.flatMap fun g => List.replicate g.noRef g.ranks

/-- The loop. -/
theorem extend_spec (onRanks : List Nat) (procs : Nat → Nat) (cg : Nat) (seed : Group)
    (hmono : ∀ i j, cg < i → i ≤ j → procs i ≤ procs j) : ∀ n,
    ∃ gs, (List.range n).foldl (fun gs i => extend onRanks procs gs (cg + 2 + i))
        [⟨1, onRanks.take (procs (cg + 1))⟩, seed] = gs ++ [seed] ∧
      spread gs = ((List.range (n + 1)).map fun i => onRanks.take (procs (cg + 1 + i))).reverse ∧
      (∀ g ∈ gs, 0 < g.noRef ∧ ∃ i, i ≤ n ∧ g.ranks = onRanks.take (procs (cg + 1 + i))) ∧
      gs.head?.map Group.ranks = some (onRanks.take (procs (cg + 1 + n))) ∧
      ∃ ps : List Nat, gs.map Group.ranks = ps.map (onRanks.take ·) ∧ ps.Pairwise (· > ·) ∧
        ps.head? = some (procs (cg + 1 + n)) := by
  intro n
  induction n with
  | zero =>
    refine ⟨[⟨1, onRanks.take (procs (cg + 1))⟩], rfl, by simp [spread], ?_, rfl, [procs (cg + 1)], rfl, by simp, rfl⟩
    intro g hg
    simp only [List.mem_singleton] at hg
    subst hg
    exact ⟨Nat.one_pos, 0, le_rfl, rfl⟩
  | succ n ih =>
    obtain ⟨gs, h1, h2, h3, h4, ps, h5, h6, h7⟩ := ih
    rw [List.range_succ, List.foldl_append, h1]
    simp only [List.foldl_cons, List.foldl_nil]
    match gs, h4, h2, h3, h5 with
    | g :: rest, h4, h2, h3, h5 =>
      simp only [List.head?_cons, Option.map_some, Option.some.injEq] at h4
      have e1 : cg + 2 + n = cg + 1 + (n + 1) := by omega
      have e2 : cg + 2 + n - 1 = cg + 1 + n := by omega
      simp only [List.cons_append, extend, e2]
      rw [e1]
      rw [List.range_succ (n := n + 1), List.map_append, List.reverse_append]
      simp only [List.map_cons, List.map_nil, List.reverse_cons, List.reverse_nil, List.nil_append, List.singleton_append]
      by_cases he : procs (cg + 1 + (n + 1)) = procs (cg + 1 + n)
      · rw [if_pos he]
        refine ⟨⟨g.noRef + 1, g.ranks⟩ :: rest, rfl, ?_, ?_, by simp [h4, he], ps, by simpa using h5, h6, by rw [h7, he]⟩
        · rw [← h2, he, ← h4]
          simp [spread, List.replicate_succ]
        · intro x hx
          rcases List.mem_cons.1 hx with rfl | hx
          · exact ⟨Nat.succ_pos _, n, by omega, h4⟩
          · obtain ⟨a, i, hi, hr⟩ := h3 x (List.mem_cons_of_mem _ hx)
            exact ⟨a, i, by omega, hr⟩
      · rw [if_neg he]
        refine ⟨⟨1, onRanks.take (procs (cg + 1 + (n + 1)))⟩ :: g :: rest, rfl, ?_, ?_, rfl,
          procs (cg + 1 + (n + 1)) :: ps, by simp [← h5], ?_, rfl⟩
        · rw [← h2]; simp [spread]
        · intro x hx
          rcases List.mem_cons.1 hx with rfl | hx
          · exact ⟨Nat.one_pos, n + 1, le_rfl, rfl⟩
          · obtain ⟨a, i, hi, hr⟩ := h3 x hx
            exact ⟨a, i, by omega, hr⟩
        · refine List.pairwise_cons.2 ⟨fun p hp => ?_, h6⟩
          have hlt : procs (cg + 1 + n) < procs (cg + 1 + (n + 1)) := by
            have := hmono (cg + 1 + n) (cg + 1 + (n + 1)) (by omega) (by omega)
            omega
          match ps, h7, h6, hp with
          | q :: qs, h7, h6, hp =>
            simp only [List.head?_cons, Option.some.injEq] at h7
            rcases List.mem_cons.1 hp with rfl | hp
            · omega
            · have := (List.pairwise_cons.1 h6).1 p hp
              omega

theorem sum_spread (gs : List Group) : (spread gs).length = (gs.map Group.noRef).sum := by
  simp [spread, List.length_flatMap]

end PyNucleus.GridLevels
