import Verif.Proof.RestrictionGlobal
import Verif.Props.C12
import Verif.Props.C40
import Verif.Props.C09
import Verif.Props.C41

/-! # The matrix made from a table -/

namespace PyNucleus.Restriction

open PyNucleus.ShapeFunctions PyNucleus.Spec PyNucleus.CSR

variable {K : Type}

/-- Value of `(i, j)` after the writes. -/
def written [RatCast K] (i j : Nat) (a : K) (W : List (Nat × Int × ℚ)) : K := W.foldl (fun a w => if i = w.1 ∧ j = w.2.1.toNat then (w.2.2 : K) else a) a

theorem written_or [RatCast K] (i j : Nat) (W : List (Nat × Int × ℚ)) :
    (∃ w ∈ W, w.1 = i ∧ w.2.1.toNat = j ∧ ∀ a : K, written i j a W = (w.2.2 : K)) ∨ ((∀ w ∈ W, ¬(w.1 = i ∧ w.2.1.toNat = j)) ∧ ∀ a : K, written i j a W = a) := by
  induction W with
  | nil => exact Or.inr ⟨fun w hw => (List.not_mem_nil hw).elim, fun _ => rfl⟩
  | cons w W ih =>
    have e : ∀ a : K, written i j a (w :: W) = written i j (if i = w.1 ∧ j = w.2.1.toNat then (w.2.2 : K) else a) W := fun a => rfl
    rcases ih with ⟨w', hw', h1, h2, h3⟩ | ⟨h1, h2⟩
    · exact Or.inl ⟨w', List.mem_cons_of_mem _ hw', h1, h2, fun a => by rw [e, h3]⟩
    · by_cases h : w.1 = i ∧ w.2.1.toNat = j
      · exact Or.inl ⟨w, List.mem_cons_self, h.1, h.2, fun a => by rw [e, h2, if_pos ⟨h.1.symm, h.2.symm⟩]⟩
      · refine Or.inr ⟨fun w' hw' => ?_, fun a => by rw [e, h2, if_neg (fun hh => h ⟨hh.1.symm, hh.2.symm⟩)]⟩
        rcases List.mem_cons.1 hw' with rfl | hw'
        · exact h
        · exact h1 w' hw'

theorem setEntries_spec [Field K] (W : List (Nat × Int × ℚ)) (A : Spec.CSR K) (hA : A.Valid) (hs : A.Sorted) (hr : ∀ w ∈ W, w.1 < A.numRows)
    (hst : ∀ w ∈ W, Stored A w.1 w.2.1.toNat) :
    ∃ B, setEntries A W = some B ∧ B.Valid ∧ B.Sorted ∧ B.indices = A.indices ∧ B.indptr = A.indptr ∧ B.numRows = A.numRows ∧ B.numCols = A.numCols ∧
      ∀ i j, i < A.numRows → B.entry i j = written i j (A.entry i j) W := by
  induction W generalizing A with
  | nil => exact ⟨A, rfl, hA, hs, rfl, rfl, rfl, rfl, fun i j _ => rfl⟩
  | cons w W ih =>
    obtain ⟨B, h1, h2, h3, h4, h5, h6, h7, h8⟩ := Props.C12.setEntry_correct A hA hs w.1 w.2.1.toNat (hr w List.mem_cons_self) (w.2.2 : K) (hst w List.mem_cons_self)
    obtain ⟨C, g1, g2, g3, g4, g5, g6, g7, g8⟩ := ih B h2 h3 (fun w' hw' => by rw [h6]; exact hr w' (List.mem_cons_of_mem _ hw')) (fun w' hw' => by
      have := hst w' (List.mem_cons_of_mem _ hw')
      unfold Stored at this ⊢
      rw [row_fst A hA] at this
      rw [row_fst B h2, h4, h5]
      exact this)
    refine ⟨C, by unfold setEntries; rw [h1]; exact g1, g2, g3, g4.trans h5, g5.trans h4, g6.trans h6, g7.trans h7, fun i j hi => ?_⟩
    rw [g8 i j (by omega), h8 i j hi]
    rfl

theorem mem_addCalls (t : Table) (fineCells : List (List Nat)) (cdofs fdofs : List (List Int)) (c : Nat) (i : Nat) (j : Int) :
    (i, j) ∈ addCalls t fineCells cdofs fdofs c ↔ ∃ g ∈ t.patternOf (caseOf fineCells c), 0 ≤ cell2dof cdofs c g.1 ∧ (cell2dof cdofs c g.1).toNat = i ∧
      ∃ e ∈ g.2, cell2dof fdofs (t.sub * c + e.1) e.2 = j ∧ 0 ≤ j := by
  unfold addCalls
  simp only [List.mem_flatMap]
  constructor
  · rintro ⟨g, hg, h⟩
    split at h
    · rename_i h0
      obtain ⟨e, he, h⟩ := List.mem_flatMap.1 h
      split at h
      · rename_i h1
        obtain ⟨rfl, rfl⟩ := Prod.mk.inj (List.mem_singleton.1 h)
        exact ⟨g, hg, h0, rfl, e, he, rfl, h1⟩
      · cases h
    · cases h
  · rintro ⟨g, hg, h0, rfl, e, he, rfl, h1⟩
    refine ⟨g, hg, ?_⟩
    rw [if_pos h0]
    refine List.mem_flatMap.2 ⟨e, he, ?_⟩
    rw [if_pos h1]
    exact List.mem_singleton.2 rfl

theorem mem_writes (t : Table) (fineCells : List (List Nat)) (cdofs fdofs : List (List Int)) (c : Nat) (w : Nat × Int × ℚ) :
    w ∈ writes t fineCells cdofs fdofs c ↔ ∃ g ∈ t.dataOf (caseOf fineCells c), 0 ≤ cell2dof cdofs c g.1 ∧ (cell2dof cdofs c g.1).toNat = w.1 ∧
      ∃ e ∈ g.2, cell2dof fdofs (t.sub * c + e.1) e.2.1 = w.2.1 ∧ 0 ≤ w.2.1 ∧ w.2.2 = (e.2.2 : ℚ) / 10 ^ t.digits := by
  unfold writes
  simp only [List.mem_flatMap]
  constructor
  · rintro ⟨g, hg, h⟩
    split at h
    · rename_i h0
      obtain ⟨e, he, h⟩ := List.mem_flatMap.1 h
      split at h
      · rename_i h1
        obtain rfl := List.mem_singleton.1 h
        exact ⟨g, hg, h0, rfl, e, he, rfl, h1, rfl⟩
      · cases h
    · cases h
  · rintro ⟨g, hg, h0, h2, e, he, h3, h1, h4⟩
    refine ⟨g, hg, ?_⟩
    rw [if_pos h0]
    refine List.mem_flatMap.2 ⟨e, he, ?_⟩
    rw [if_pos (by rw [h3]; exact h1)]
    refine List.mem_singleton.2 (Prod.ext h2.symm (Prod.ext h3.symm h4))

theorem caseOf_lt (fineCells : List (List Nat)) (c : Nat) : caseOf fineCells c < 3 := by
  unfold caseOf
  dsimp only
  split
  · split <;> decide
  · decide

theorem mem_row_of_mem {α : Type} {indptr : List Nat} {n : Nat} {xs : List α} (hv : ValidIndptr indptr n xs.length) {x : α} (hx : x ∈ xs) :
    ∃ i, i < n ∧ x ∈ csrRow indptr xs i := by
  obtain ⟨k, hk, rfl⟩ := List.getElem_of_mem hx
  have h0 : indptr.getD 0 0 = 0 := by rw [List.getD_eq_getElem?_getD, hv.first]; rfl
  have hn : indptr.getD n 0 = xs.length := by rw [List.getD_eq_getElem?_getD, hv.last]; rfl
  have h : ∀ m, m ≤ n → k < indptr.getD m 0 → ∃ i, i < n ∧ indptr.getD i 0 ≤ k ∧ k < indptr.getD (i + 1) 0 := by
    intro m
    induction m with
    | zero => intro _ h; omega
    | succ m ih =>
      intro hm h
      by_cases hh : k < indptr.getD m 0
      · exact ih (by omega) hh
      · exact ⟨m, by omega, by omega, h⟩
  obtain ⟨i, hi, h1, h2⟩ := h n le_rfl (by omega)
  refine ⟨i, hi, ?_⟩
  unfold csrRow
  refine List.mem_iff_getElem?.2 ⟨k - indptr.getD i 0, ?_⟩
  rw [List.getElem?_take_of_lt (by omega), List.getElem?_drop, show indptr.getD i 0 + (k - indptr.getD i 0) = k by omega, List.getElem?_eq_getElem hk]

/-- The matrix, for any tables of dofs: its entries are those written last. -/
theorem restriction_spec [Field K] (t : Table) (ht : t ∈ tables) (n : Nat) (fineCells : List (List Nat)) (cdofs fdofs : List (List Int)) (nc nf : Nat)
    (data : Nat → List K) (hd : ∀ n, (data n).length = n)
    (hc : ∀ i, i < n → ∀ I, I < (nodes ℚ t.coarse t.dim).length → cell2dof cdofs i I < nc)
    (hf : ∀ i, i < n → ∀ q, q < t.sub → ∀ J, J < (nodes ℚ t.fine t.dim).length → cell2dof fdofs (t.sub * i + q) J < nf)
    (hcap : ∀ m : Int, ((List.range n).filter fun i => (List.range (nodes ℚ t.coarse t.dim).length).any fun I => cell2dof cdofs i I == m).length *
      (t.sub * (nodes ℚ t.fine t.dim).length) + 9 ≤ 65536) :
    ∃ R, restriction t n fineCells cdofs fdofs nc nf data = some R ∧ R.Valid ∧ R.Sorted ∧ R.numRows = nc ∧ R.numCols = nf ∧
      ∀ i j, i < nc → R.entry i j = written i j (0 : K) ((List.range n).flatMap (writes t fineCells cdofs fdofs)) := by
  -- positions of the two loops
  have pos : ∀ (i : Nat) (j : Int), (i, j) ∈ (List.range n).flatMap (addCalls t fineCells cdofs fdofs) ↔
      ∃ w ∈ (List.range n).flatMap (writes t fineCells cdofs fdofs), w.1 = i ∧ w.2.1 = j := by
    intro i j
    simp only [List.mem_flatMap]
    constructor
    · rintro ⟨c, hc', h⟩
      obtain ⟨g, hg, h0, h1, e, he, h2, h3⟩ := (mem_addCalls ..).1 h
      rw [pattern_spec t ht _ (caseOf_lt fineCells c)] at hg
      obtain ⟨g', hg', rfl⟩ := List.mem_map.1 hg
      obtain ⟨e', he', rfl⟩ := List.mem_map.1 he
      exact ⟨(i, j, (e'.2.2 : ℚ) / 10 ^ t.digits), ⟨c, hc', (mem_writes ..).2 ⟨g', hg', h0, h1, e', he', h2, h3, rfl⟩⟩, rfl, rfl⟩
    · rintro ⟨w, ⟨c, hc', h⟩, rfl, rfl⟩
      obtain ⟨g, hg, h0, h1, e, he, h2, h3, -⟩ := (mem_writes ..).1 h
      refine ⟨c, hc', (mem_addCalls ..).2 ⟨(g.1, g.2.map fun e => (e.1, e.2.1)), ?_, h0, h1, (e.1, e.2.1), List.mem_map.2 ⟨e, he, rfl⟩, h2, h3⟩⟩
      rw [pattern_spec t ht _ (caseOf_lt fineCells c)]
      exact List.mem_map.2 ⟨g, hg, rfl⟩
  -- data of a write
  have wr : ∀ w ∈ (List.range n).flatMap (writes t fineCells cdofs fdofs), ∃ c, c < n ∧ ∃ I, I < (nodes ℚ t.coarse t.dim).length ∧ 0 ≤ cell2dof cdofs c I ∧
      (cell2dof cdofs c I).toNat = w.1 ∧ ∃ q, q < t.sub ∧ ∃ J, J < (nodes ℚ t.fine t.dim).length ∧ cell2dof fdofs (t.sub * c + q) J = w.2.1 ∧ 0 ≤ w.2.1 := by
    intro w hw
    obtain ⟨c, hc', h⟩ := List.mem_flatMap.1 hw
    obtain ⟨g, hg, h0, h1, e, he, h2, h3, -⟩ := (mem_writes ..).1 h
    obtain ⟨s1, s2, s3, -⟩ := data_spec t ht _ (caseOf_lt fineCells c) g hg e he
    exact ⟨c, List.mem_range.1 hc', g.1, s1, h0, h1, e.1, s2, e.2.1, s3, h2, h3⟩
  have hrow : ∀ c ∈ (List.range n).flatMap (addCalls t fineCells cdofs fdofs), c.1 < nc := by
    rintro ⟨i, j⟩ h
    obtain ⟨w, hw, rfl, rfl⟩ := (pos i j).1 h
    obtain ⟨c, c1, I, I1, h0, h1, -⟩ := wr w hw
    have := hc c c1 I I1
    show w.1 < nc
    omega
  obtain ⟨p, hp, hv, hsorted, hmem⟩ := Props.C40.pattern_spec nc _ hrow (by
    intro m l hl hJ
    have hsub : l ⊆ ((List.range n).filter fun i => (List.range (nodes ℚ t.coarse t.dim).length).any fun I => cell2dof cdofs i I == (m : Int)).flatMap fun i =>
        (List.range t.sub).flatMap fun q => (List.range (nodes ℚ t.fine t.dim).length).map fun J => cell2dof fdofs (t.sub * i + q) J := by
      intro j hj
      obtain ⟨w, hw, h1, h2⟩ := (pos m j).1 (hJ j hj)
      obtain ⟨c, c1, I, I1, h3, h4, q, q1, J, J1, h5, -⟩ := wr w hw
      refine List.mem_flatMap.2 ⟨c, List.mem_filter.2 ⟨List.mem_range.2 c1, List.any_eq_true.2 ⟨I, List.mem_range.2 I1, by simp only [beq_iff_eq]; omega⟩⟩, ?_⟩
      exact List.mem_flatMap.2 ⟨q, List.mem_range.2 q1, List.mem_map.2 ⟨J, List.mem_range.2 J1, by rw [h5, h2]⟩⟩
    have hle := (hl.subperm hsub).length_le
    have hlen : ∀ L : List Nat, (L.flatMap fun i => (List.range t.sub).flatMap fun q => (List.range (nodes ℚ t.fine t.dim).length).map fun J => cell2dof fdofs (t.sub * i + q) J).length =
        L.length * (t.sub * (nodes ℚ t.fine t.dim).length) := by
      intro L
      have e : ∀ i, ((List.range t.sub).flatMap fun q => (List.range (nodes ℚ t.fine t.dim).length).map fun J => cell2dof fdofs (t.sub * i + q) J).length =
          t.sub * (nodes ℚ t.fine t.dim).length := fun i => by
        rw [List.length_flatMap]
        simp
      rw [List.length_flatMap]
      simp only [e]
      simp
    rw [hlen] at hle
    have := hcap m
    omega)
  have hcols : ∀ j ∈ p.2, 0 ≤ j ∧ j < nf := by
    intro j hj
    obtain ⟨i, hi, hij⟩ := mem_row_of_mem hv hj
    obtain ⟨w, hw, -, rfl⟩ := (pos i j).1 ((hmem i hi j).1 hij)
    obtain ⟨c, c1, I, I1, -, -, q, q1, J, J1, h5, h6⟩ := wr w hw
    have := hf c c1 q q1 J J1
    omega
  set A : Spec.CSR K := ⟨p.1, p.2.map Int.toNat, data p.2.length, nc, nf⟩ with hA
  have hAv : A.Valid := ⟨by rw [hA]; simpa using hv, by rw [hA]; simp [hd], by
    intro j hj
    obtain ⟨z, hz, rfl⟩ := List.mem_map.1 hj
    have := hcols z hz
    show z.toNat < nf
    omega⟩
  have hrowA : ∀ i, (A.row i).map Prod.fst = (csrRow p.1 p.2 i).map Int.toNat := fun i => by
    rw [row_fst A hAv]
    show csrRow p.1 (p.2.map Int.toNat) i = _
    unfold csrRow
    rw [List.map_take, List.map_drop]
  have hcr : ∀ i, ∀ j ∈ csrRow p.1 p.2 i, 0 ≤ j := fun i j hj => (hcols j (List.mem_of_mem_drop (List.mem_of_mem_take hj))).1
  have hAs : A.Sorted := by
    intro i hi
    rw [hrowA, List.pairwise_map]
    exact (hsorted i hi).imp_of_mem fun h1 h2 h => by
      have := hcr i _ h1
      have := hcr i _ h2
      omega
  have hst : ∀ i, i < nc → ∀ j : Nat, Stored A i j ↔ ∃ w ∈ (List.range n).flatMap (writes t fineCells cdofs fdofs), w.1 = i ∧ w.2.1.toNat = j := by
    intro i hi j
    unfold Stored
    rw [hrowA]
    constructor
    · intro h
      obtain ⟨z, hz, rfl⟩ := List.mem_map.1 h
      obtain ⟨w, hw, h1, h2⟩ := (pos i z).1 ((hmem i hi z).1 hz)
      exact ⟨w, hw, h1, by rw [h2]⟩
    · rintro ⟨w, hw, h1, h2⟩
      exact List.mem_map.2 ⟨w.2.1, (hmem i hi _).2 ((pos i _).2 ⟨w, hw, h1, rfl⟩), h2⟩
  have hwr : ∀ w ∈ (List.range n).flatMap (writes t fineCells cdofs fdofs), w.1 < nc := fun w hw => hrow (w.1, w.2.1) ((pos _ _).2 ⟨w, hw, rfl, rfl⟩)
  obtain ⟨B, b1, b2, b3, -, -, b4, b5, b6⟩ := setEntries_spec ((List.range n).flatMap (writes t fineCells cdofs fdofs)) A hAv hAs hwr
    (fun w hw => (hst w.1 (hwr w hw) _).2 ⟨w, hw, rfl, rfl⟩)
  refine ⟨B, ?_, b2, b3, b4, b5, fun i j hi => ?_⟩
  · unfold restriction
    rw [hp]
    exact b1
  · rw [b6 i j hi]
    rcases written_or (K := K) i j ((List.range n).flatMap (writes t fineCells cdofs fdofs)) with ⟨w, -, -, -, h⟩ | ⟨h1, h2⟩
    · rw [h, h]
    · rw [h2, h2]
      refine entry_absent A hAv i j hi fun k hk => ?_
      obtain ⟨w, hw, h3⟩ := (hst i hi j).1 ((stored_iff A hAv i j hi).2 ⟨k, hk⟩)
      exact h1 w hw h3

end PyNucleus.Restriction
