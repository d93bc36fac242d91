import Verif.Proof.CellConnectivity

/-!
# C103: cells that are connected
-/

namespace PyNucleus.Props.C103

open PyNucleus.CellConnectivity

/-- One set for each cell: it has the other cells with at least the given number of common vertices;
at least one, also for smaller numbers. -/
theorem connected (numVertices : Nat) (cells : List (List Nat)) (commonNodes : Int)
    (hc : ∀ c ∈ cells, ∀ v ∈ c, v < numVertices) :
    (getCellConnectivity numVertices cells commonNodes).length = cells.length ∧
    ∀ a (ha : a < cells.length), ((getCellConnectivity numVertices cells commonNodes).getD a []).Nodup ∧
      ∀ b, b ∈ (getCellConnectivity numVertices cells commonNodes).getD a [] ↔
        ∃ hb : b < cells.length, a ≠ b ∧
          max 1 commonNodes ≤ ((cells[a].toFinset ∩ cells[b].toFinset).card : Int) := by
  refine ⟨by simp [getCellConnectivity], fun a ha => ?_⟩
  have hget : (getCellConnectivity numVertices cells commonNodes).getD a [] =
      ((List.range cells.length).filter fun c' => (c2c numVertices cells a c').length > 0).foldl
      (fun s c' => if ((c2c numVertices cells a c').length : Int) ≥ (if commonNodes < 0 then 1 else commonNodes)
        then addTo s c' else s) [] := by
    rw [List.getD_eq_getElem _ _ (by simpa [getCellConnectivity] using ha)]
    simp [getCellConnectivity]
  rw [hget]
  obtain ⟨h1, h2⟩ := fold_select (fun c' => ((c2c numVertices cells a c').length : Int) ≥
    (if commonNodes < 0 then 1 else commonNodes))
    ((List.range cells.length).filter fun c' => (c2c numVertices cells a c').length > 0) [] List.nodup_nil
  refine ⟨h2, fun b => ?_⟩
  rw [h1]
  simp only [List.not_mem_nil, false_or, List.mem_filter, List.mem_range, decide_eq_true_eq]
  constructor
  · rintro ⟨⟨hb, hpos⟩, hn⟩
    have hab : a ≠ b := by
      rintro rfl
      obtain ⟨x, hx⟩ := List.exists_mem_of_length_pos hpos
      exact (((c2c_spec numVertices cells).1 a a x).mp hx).2.1 rfl
    have hl := c2c_length numVertices cells hc a b ha hb hab
    rw [List.getD_eq_getElem _ _ ha, List.getD_eq_getElem _ _ hb] at hl
    refine ⟨hb, hab, ?_⟩
    rw [← hl]
    split at hn <;> omega
  · rintro ⟨hb, hab, hn⟩
    have hl := c2c_length numVertices cells hc a b ha hb hab
    rw [List.getD_eq_getElem _ _ ha, List.getD_eq_getElem _ _ hb] at hl
    rw [← hl] at hn
    refine ⟨⟨hb, by omega⟩, ?_⟩
    split <;> omega

/-- Connections are mutual, no cell is connected to itself, and asking for more common vertices gives
fewer connections. -/
theorem mutual_fewer (numVertices : Nat) (cells : List (List Nat)) (m n : Int)
    (hc : ∀ c ∈ cells, ∀ v ∈ c, v < numVertices) (hmn : m ≤ n) (a b : Nat)
    (ha : a < cells.length) (h : b ∈ (getCellConnectivity numVertices cells n).getD a []) :
    a ≠ b ∧ a ∈ (getCellConnectivity numVertices cells n).getD b [] ∧
      b ∈ (getCellConnectivity numVertices cells m).getD a [] := by
  obtain ⟨hb, hab, hn⟩ := (((connected numVertices cells n hc).2 a ha).2 b).mp h
  refine ⟨hab, (((connected numVertices cells n hc).2 b hb).2 a).mpr ⟨ha, hab.symm, ?_⟩,
    (((connected numVertices cells m hc).2 a ha).2 b).mpr ⟨hb, hab, by omega⟩⟩
  rw [Finset.inter_comm]
  exact hn

/-- Concrete case: four triangles, of which two share an edge. -/
theorem sample_case :
    getCellConnectivity 7 [[0, 1, 2], [1, 3, 2], [3, 4, 5], [4, 5, 6]] (-1) = [[1], [0, 2], [1, 3], [2]] ∧
    getCellConnectivity 7 [[0, 1, 2], [1, 3, 2], [3, 4, 5], [4, 5, 6]] 2 = [[1], [0], [3], [2]] ∧
    getCellConnectivity 7 [[0, 1, 2], [1, 3, 2], [3, 4, 5], [4, 5, 6]] 3 = [[], [], [], []] := by
  refine ⟨?_, ?_, ?_⟩ <;> decide +kernel

end PyNucleus.Props.C103
