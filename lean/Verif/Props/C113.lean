import Verif.Proof.CellExchange

/-!
# C113: exchange of cells and vertices in a repartitioning
-/

namespace PyNucleus.Props.C113

open PyNucleus.CellExchange

/-- Each new subdomain gets exactly the cells of its partition, ordered by their global numbers, and their vertices in the same
order: `Q` partitions with different ranks below `P`; the processes number their cells consecutively. -/
theorem exchanged (P Q : Nat) (rk : Nat → Nat) (procs : List Proc) (hrk : ∀ s, s < Q → rk s < P)
    (hinj : ∀ s s', s < Q → s' < Q → rk s = rk s' → s = s') (hpart : ∀ p ∈ procs, ∀ s ∈ p.part, s < Q)
    (hcells : ∀ p ∈ procs, p.cells.length = p.part.length)
    (hoff : ∀ r (h : r < procs.length), procs[r].offset = ((procs.take r).map (·.part.length)).sum) (s : Nat) (hs : s < Q) :
    let parts := (procs.map (·.part)).flatten
    let cells := (procs.map (·.cells)).flatten
    let mine := (List.range parts.length).filter fun g => parts.getD g 0 == s
    recvIdx P rk procs (rk s) = mine ∧ recvCells P rk procs (rk s) = mine.map fun g => cells.getD g [] := by
  have key : ∀ n, n ≤ procs.length →
      let parts := ((procs.take n).map (·.part)).flatten
      let cells := ((procs.take n).map (·.cells)).flatten
      let mine := (List.range parts.length).filter fun g => parts.getD g 0 == s
      cells.length = parts.length ∧ parts.length = ((procs.take n).map (·.part.length)).sum ∧
      recvIdx P rk (procs.take n) (rk s) = mine ∧ recvCells P rk (procs.take n) (rk s) = mine.map fun g => cells.getD g [] := by
    intro n
    induction n with
    | zero => intro _; simp [recvIdx, recvCells]
    | succ n ih =>
      intro hn
      obtain ⟨h0, h1, h2, h3⟩ := ih (by omega)
      have hlt : n < procs.length := by omega
      have hmem := List.getElem_mem hlt
      have ho := hoff n hlt
      rw [List.take_succ_eq_append_getElem hlt]
      generalize procs[n] = p at hmem ho
      generalize procs.take n = ps at h0 h1 h2 h3 ho
      have hP : ∀ t ∈ p.part, rk t < P := fun t ht => hrk t (hpart p hmem t ht)
      have hI : ∀ t ∈ p.part, ∀ t' ∈ p.part, rk t = rk t' → t = t' :=
        fun t ht t' ht' => hinj t t' (hpart p hmem t ht) (hpart p hmem t' ht')
      have hc := hcells p hmem
      have hfil : ((List.range p.part.length).filter fun i => rk (p.part.getD i 0) == rk s) =
          (List.range p.part.length).filter fun i => p.part.getD i 0 == s := by
        refine List.filter_congr fun i hi => ?_
        have hi := List.mem_range.1 hi
        have : p.part.getD i 0 ∈ p.part := by rw [List.getD_eq_getElem _ _ hi]; exact List.getElem_mem hi
        rw [Bool.eq_iff_iff, beq_iff_eq, beq_iff_eq]
        exact ⟨fun e => hinj _ _ (hpart p hmem _ this) hs e, fun e => by rw [e]⟩
      simp only [List.map_append, List.flatten_append, List.map_cons, List.map_nil, List.flatten_cons, List.flatten_nil,
        List.append_nil, List.length_append, List.sum_append, List.sum_cons, List.sum_nil, Nat.add_zero, recvIdx, recvCells] at *
      generalize hA : (ps.map (·.part)).flatten = A at *
      generalize hB : (ps.map (·.cells)).flatten = B at *
      have hleft : ((List.range A.length).filter fun g => (A ++ p.part).getD g 0 == s) =
          (List.range A.length).filter fun g => A.getD g 0 == s :=
        List.filter_congr fun i hi => by rw [List.getD_append _ _ _ _ (List.mem_range.1 hi)]
      have hright : (((List.range p.part.length).map (A.length + ·)).filter fun g => (A ++ p.part).getD g 0 == s) =
          ((List.range p.part.length).filter fun i => p.part.getD i 0 == s).map (A.length + ·) := by
        rw [List.filter_map]
        congr 1
        refine List.filter_congr fun i _ => ?_
        simp only [Function.comp]
        rw [List.getD_append_right _ _ _ _ (by omega), Nat.add_sub_cancel_left]
      refine ⟨by omega, by omega, ?_, ?_⟩
      · rw [h2, segment_idx P rk p hP hI, hfil, List.range_add, List.filter_append, hleft, hright, ho, ← h1]
        congr 1
        exact List.map_congr_left fun i _ => Nat.add_comm _ _
      · rw [h3, segment_cells P rk p hP hI hc, hfil, List.range_add, List.filter_append, hleft, hright, List.map_append, List.map_map]
        congr 1
        · refine List.map_congr_left fun i hi => ?_
          rw [List.getD_append _ _ _ _ (by rw [h0]; exact List.mem_range.1 (List.mem_filter.1 hi).1)]
        · refine List.map_congr_left fun i _ => ?_
          simp only [Function.comp]
          rw [List.getD_append_right _ _ _ _ (by omega), h0, Nat.add_sub_cancel_left]
  obtain ⟨_, _, h2, h3⟩ := key procs.length (Nat.le_refl _)
  rw [List.take_length] at h2 h3
  exact ⟨h2, h3⟩

/-- The overlaps of old and new subdomains match: the `k`-th cell of the old subdomain in the overlap is the `k`-th cell of the
new subdomain in the overlap. -/
theorem overlaps (P Q : Nat) (rk : Nat → Nat) (procs : List Proc) (hrk : ∀ s, s < Q → rk s < P)
    (hinj : ∀ s s', s < Q → s' < Q → rk s = rk s' → s = s') (hpart : ∀ p ∈ procs, ∀ s ∈ p.part, s < Q)
    (s : Nat) (hs : s < Q) (r : Nat) (hr : r < procs.length) :
    (overlapNew (recvCount P rk procs (rk s)) r).map (fun k => (recvIdx P rk procs (rk s))[k]?) =
      (overlapCells procs[r].part s).map fun i => some (i + procs[r].offset) := by
  have hseg : ∀ p ∈ procs, segment P rk p (packIdx P rk p) (rk s) = (overlapCells p.part s).map (· + p.offset) := by
    intro p hp
    rw [segment_idx P rk p (fun t ht => hrk t (hpart p hp t ht))
      (fun t ht t' ht' => hinj t t' (hpart p hp t ht) (hpart p hp t' ht'))]
    congr 1
    refine List.filter_congr fun i hi => ?_
    have hi := List.mem_range.1 hi
    have : p.part.getD i 0 ∈ p.part := by rw [List.getD_eq_getElem _ _ hi]; exact List.getElem_mem hi
    rw [Bool.eq_iff_iff, beq_iff_eq, beq_iff_eq]
    exact ⟨fun e => hinj _ _ (hpart p hp _ this) hs e, fun e => by rw [e]⟩
  have hlen : ∀ p, (segment P rk p (packIdx P rk p) (rk s)).length = (sendCount P rk p.part).getD (rk s) 0 := by
    intro p; simp [segment]
  have hsplit : recvIdx P rk procs (rk s) =
      ((procs.take r).map fun p => segment P rk p (packIdx P rk p) (rk s)).flatten ++
      (segment P rk procs[r] (packIdx P rk procs[r]) (rk s) ++
      ((procs.drop (r + 1)).map fun p => segment P rk p (packIdx P rk p) (rk s)).flatten) := by
    unfold recvIdx
    conv => lhs; rw [← List.take_append_drop r procs, List.drop_eq_getElem_cons hr]
    rw [List.map_append, List.map_cons, List.flatten_append, List.flatten_cons]
  have hd : displ (recvCount P rk procs (rk s)) r =
      ((procs.take r).map fun p => segment P rk p (packIdx P rk p) (rk s)).flatten.length := by
    unfold displ recvCount
    rw [List.length_flatten, List.map_map, ← List.map_take]
    congr 1
    exact List.map_congr_left fun p _ => (hlen p).symm
  have hn : (recvCount P rk procs (rk s)).getD r 0 = (overlapCells procs[r].part s).length := by
    rw [List.getD_eq_getElem _ _ (by simpa [recvCount] using hr)]
    simp only [recvCount, List.getElem_map]
    rw [← hlen, hseg _ (List.getElem_mem hr), List.length_map]
  unfold overlapNew
  apply List.ext_getElem
  · simp only [List.length_map, List.length_range', hn]
  · intro k h1 h2
    have hk : k < (overlapCells procs[r].part s).length := by simpa using h2
    simp only [List.getElem_map, List.getElem_range', Nat.one_mul]
    rw [hsplit, hd, List.getElem?_append_right (by omega), Nat.add_sub_cancel_left, hseg _ (List.getElem_mem hr),
      List.getElem?_append_left (by simpa using hk), List.getElem?_map, List.getElem?_eq_getElem hk]
    rfl

/-- The new subdomain has the geometry of the received cells: no vertex number is missing, the new cells have the global vertices
and coordinates of the received ones, no vertex occurs twice, and each belongs to a cell.  The messages come in any order. -/
theorem vertices {α : Type} (s : Nat) (senders : List (Sender α)) (X : Nat → α) (cells : List (List Nat))
    (hord : ∀ d ∈ senders, ∀ v, v ∈ d.order ↔ ∃ i, i < d.part.length ∧ d.part.getD i 0 = s ∧ v ∈ d.cells.getD i [])
    (hX : ∀ d ∈ senders, ∀ v, d.coords v = X (d.globalIdx v))
    (hcells : ∀ c, c ∈ cells ↔ ∃ d ∈ senders, ∃ i, i < d.part.length ∧ d.part.getD i 0 = s ∧
      c = (d.cells.getD i []).map d.globalIdx) :
    let msgs := senders.map (·.msg)
    (∃ cs, newCells msgs cells = some cs ∧ cs.map (·.map fun v => (keys msgs)[v]?) = cells.map (·.map some) ∧
      cs.map (·.map fun v => (newVertices msgs)[v]?) = cells.map (·.map fun g => some (some (X g)))) ∧
    (keys msgs).Nodup ∧ (newVertices msgs).length = (keys msgs).length ∧ ∀ g, g ∈ keys msgs ↔ ∃ c ∈ cells, g ∈ c := by
  intro msgs
  obtain ⟨hnd, hmem⟩ := keys_spec msgs.flatten [] List.nodup_nil
  have hmem' : ∀ g, g ∈ keys msgs ↔ g ∈ msgs.flatten.map (·.1) := by
    intro g
    have := hmem g
    simpa [keys] using this
  have hfl : ∀ m, m ∈ msgs.flatten ↔ ∃ d ∈ senders, ∃ v ∈ d.order, m = (d.globalIdx v, d.coords v) := by
    intro m
    simp only [msgs, List.mem_flatten, List.mem_map, Sender.msg]
    constructor
    · rintro ⟨_, ⟨d, hd, rfl⟩, hm⟩
      obtain ⟨v, hv, rfl⟩ := List.mem_map.1 hm
      exact ⟨d, hd, v, hv, rfl⟩
    · rintro ⟨d, hd, v, hv, rfl⟩
      exact ⟨_, ⟨d, hd, rfl⟩, List.mem_map.2 ⟨v, hv, rfl⟩⟩
  have hkey : ∀ g, g ∈ keys msgs ↔ ∃ c ∈ cells, g ∈ c := by
    intro g
    rw [hmem', List.mem_map]
    constructor
    · rintro ⟨m, hm, rfl⟩
      obtain ⟨d, hd, v, hv, rfl⟩ := (hfl m).1 hm
      obtain ⟨i, hi, hp, hv⟩ := (hord d hd v).1 hv
      exact ⟨_, (hcells _).2 ⟨d, hd, i, hi, hp, rfl⟩, List.mem_map.2 ⟨v, hv, rfl⟩⟩
    · rintro ⟨c, hc, hg⟩
      obtain ⟨d, hd, i, hi, hp, rfl⟩ := (hcells c).1 hc
      obtain ⟨v, hv, rfl⟩ := List.mem_map.1 hg
      exact ⟨_, (hfl _).2 ⟨d, hd, v, (hord d hd v).2 ⟨i, hi, hp, hv⟩, rfl⟩, rfl⟩
  have hidx : ∀ g, g ∈ keys msgs → (keys msgs)[(keys msgs).idxOf g]? = some g := by
    intro g hg
    rw [List.getElem?_eq_getElem (List.idxOf_lt_length_iff.2 hg), List.getElem_idxOf]
  have hvert : ∀ g, g ∈ keys msgs → (newVertices msgs)[(keys msgs).idxOf g]? = some (some (X g)) := by
    intro g hg
    unfold newVertices
    rw [List.getElem?_map, hidx g hg, Option.map_some]
    have : ∃ m ∈ msgs.flatten, m.1 = g := by
      obtain ⟨m, hm, h⟩ := List.mem_map.1 ((hmem' g).1 hg)
      exact ⟨m, hm, h⟩
    obtain ⟨m, hm, hg'⟩ := this
    have hsome : (msgs.flatten.find? fun m => m.1 == g).isSome := by
      rw [List.find?_isSome]; exact ⟨m, hm, by simpa using hg'⟩
    obtain ⟨m', hm'⟩ := Option.isSome_iff_exists.1 hsome
    rw [hm']
    have h1 := List.mem_of_find?_eq_some hm'
    have h2 := List.find?_some hm'
    obtain ⟨d, hd, v, hv, rfl⟩ := (hfl m').1 h1
    simp only [beq_iff_eq] at h2
    simp only [Option.map_some, hX d hd v, h2]
  have hloc : newCells msgs cells = some (cells.map (·.map fun g => (keys msgs).idxOf g)) := by
    unfold newCells
    refine mapM_of _ _ _ fun c hc => mapM_of _ _ _ fun g hg => ?_
    have : g ∈ keys msgs := (hkey g).2 ⟨c, hc, hg⟩
    unfold globalToLocal
    rw [if_pos (by simpa using this)]
  refine ⟨⟨_, hloc, ?_, ?_⟩, hnd, by simp [newVertices], hkey⟩
  · rw [List.map_map]
    refine List.map_congr_left fun c hc => ?_
    simp only [Function.comp, List.map_map]
    exact List.map_congr_left fun g hg => hidx g ((hkey g).2 ⟨c, hc, hg⟩)
  · rw [List.map_map]
    refine List.map_congr_left fun c hc => ?_
    simp only [Function.comp, List.map_map]
    exact List.map_congr_left fun g hg => hvert g ((hkey g).2 ⟨c, hc, hg⟩)

/-- If old and new communicator are disjoint and cover the global one, all processes see the same number of partitions. -/
theorem partitions_partial (globalSize oldSize newSize : Nat) (h : globalSize = oldSize + newSize) :
    numPartitions globalSize oldSize none = newSize ∧ numPartitions globalSize oldSize (some newSize) = newSize := by
  unfold numPartitions; exact ⟨by dsimp only; omega, rfl⟩

/-- If they overlap, processes outside of the new communicator see a number that is too small, whatever the sizes. -/
theorem partitions_fails (globalSize oldSize newSize : Nat) (h : globalSize < oldSize + newSize) (h0 : 0 < newSize) :
    numPartitions globalSize oldSize none < numPartitions globalSize oldSize (some newSize) := by
  unfold numPartitions; dsimp only; omega

/-- Two old processes, three new ones with ranks 2, 3 and 4. -/
theorem sample_case :
    let p : Proc := ⟨[2, 0, 2, 1], 0, [[0, 1], [1, 2], [2, 3], [3, 4]]⟩
    let q : Proc := ⟨[1, 2, 1], 4, [[4, 5], [5, 6], [6, 7]]⟩
    sendCount 5 (· + 2) p.part = [0, 0, 1, 1, 2] ∧ recvIdx 5 (· + 2) [p, q] 4 = [0, 2, 5] ∧
    recvCells 5 (· + 2) [p, q] 4 = [[0, 1], [2, 3], [5, 6]] ∧ recvIdx 5 (· + 2) [p, q] 3 = [3, 4, 6] ∧
    overlapCells p.part 2 = [0, 2] ∧ overlapNew (recvCount 5 (· + 2) [p, q] 4) 0 = [0, 1] ∧
    overlapNew (recvCount 5 (· + 2) [p, q] 4) 1 = [2] ∧
    newCells [[(1, 10), (0, 20), (3, 30)], [(3, 30), (5, 40)]] [[0, 1], [1, 3], [5, 3]] = some [[1, 0], [0, 2], [3, 2]] ∧
    numPartitions 4 4 none = 0 ∧ numPartitions 4 4 (some 2) = 2 := by
  decide +kernel

end PyNucleus.Props.C113
