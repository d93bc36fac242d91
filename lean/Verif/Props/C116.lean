import Verif.Model.CombinedDofs
import Verif.Proof.CellExchange
import Mathlib.Tactic.Linarith
import Mathlib.Tactic.FieldSimp
import Mathlib.Algebra.Order.Field.Rat

/-!
# C116: combination and comparison of degree of freedom maps, blocks of degrees of freedom
-/

namespace PyNucleus.Props.C116

open PyNucleus.CombinedDofs

theorem mapM_some_iff {α β : Type} (f : α → Option β) (l : List α) (r : List β) :
    l.mapM f = some r ↔ l.map f = r.map some := by
  induction l generalizing r with
  | nil => cases r <;> simp
  | cons a l ih =>
    rw [List.mapM_cons]
    cases hf : f a with
    | none => cases r <;> simp [hf]
    | some b =>
      cases hl : l.mapM f with
      | none =>
        simp only [Option.bind_eq_bind, Option.bind_some, Option.bind_none, reduceCtorEq, List.map_cons, hf, false_iff]
        intro h
        cases r with
        | nil => simp at h
        | cons c r =>
          simp only [List.map_cons, List.cons.injEq] at h
          have := (ih r).2 h.2
          rw [hl] at this; cases this
      | some s =>
        have := ih s
        rw [hl] at this
        have hs := this.1 rfl
        simp only [Option.bind_eq_bind, Option.bind_some, List.map_cons, hf, hs]
        cases r with
        | nil => simp
        | cons c r =>
          simp only [Option.pure_def, Option.some.injEq, List.cons.injEq, List.map_cons]
          refine and_congr_right fun _ => ?_
          exact ⟨fun h => by rw [h], fun h => List.map_injective_iff.2 (Option.some_injective _) h⟩

/-- The combined map has the degrees of freedom of both maps: every entry is valid; the ones of the first map keep their numbers and the
ones of the second map follow; so two entries are the same if and only if they are in one of the maps. -/
theorem combined (a b c : Map) (h : combine a b = some c) (hl : a.dofs.length = b.dofs.length)
    (hr : ∀ i (h1 : i < a.dofs.length) (h2 : i < b.dofs.length), a.dofs[i].length = b.dofs[i].length)
    (ha : ∀ r ∈ a.dofs, ∀ d ∈ r, d < a.numDofs) (hb : ∀ r ∈ b.dofs, ∀ d ∈ r, d < b.numDofs) :
    c.numDofs = a.numDofs + b.numDofs ∧ c.dofs.length = a.dofs.length ∧
    ∀ i (h1 : i < a.dofs.length) (h2 : i < b.dofs.length) (h3 : i < c.dofs.length), c.dofs[i].length = a.dofs[i].length ∧
      ∀ j (k1 : j < a.dofs[i].length) (k2 : j < b.dofs[i].length) (k3 : j < c.dofs[i].length),
        0 ≤ c.dofs[i][j] ∧ c.dofs[i][j] < c.numDofs ∧
        (c.dofs[i][j] < a.numDofs → a.dofs[i][j] = c.dofs[i][j] ∧ b.dofs[i][j] < 0) ∧
        (a.numDofs ≤ c.dofs[i][j] → b.dofs[i][j] = c.dofs[i][j] - a.numDofs ∧ a.dofs[i][j] < 0) := by
  unfold combine at h
  split at h
  swap
  · cases h
  rw [Option.map_eq_some_iff] at h
  obtain ⟨d, hd, rfl⟩ := h
  rw [mapM_some_iff] at hd
  have hlen : d.length = a.dofs.length := by
    have := congrArg List.length hd
    simp only [List.length_map, List.length_zip] at this
    omega
  refine ⟨rfl, hlen, fun i h1 h2 h3 => ?_⟩
  dsimp only at h3 ⊢
  have hrow : (List.zip a.dofs[i] b.dofs[i]).map (fun e => combineEntry a.numDofs e.1 e.2) = d[i].map some := by
    rw [← mapM_some_iff]
    have := congrArg (fun l => l[i]?) hd
    simp only [List.getElem?_map] at this
    rw [List.getElem?_eq_getElem h3, List.getElem?_eq_getElem (by rw [List.length_zip]; omega)] at this
    simpa using this
  have hll := hr i h1 h2
  have hlen2 : d[i].length = a.dofs[i].length := by
    have := congrArg List.length hrow
    simp only [List.length_map, List.length_zip] at this
    omega
  refine ⟨hlen2, fun j k1 k2 k3 => ?_⟩
  have he : combineEntry a.numDofs a.dofs[i][j] b.dofs[i][j] = some d[i][j] := by
    have := congrArg (fun l => l[j]?) hrow
    simp only [List.getElem?_map] at this
    rw [List.getElem?_eq_getElem k3, List.getElem?_eq_getElem (by rw [List.length_zip]; omega)] at this
    simpa using this
  have hA := ha _ (List.getElem_mem h1) _ (List.getElem_mem k1)
  have hB := hb _ (List.getElem_mem h2) _ (List.getElem_mem k2)
  unfold combineEntry at he
  split at he
  · simp only [Option.some.injEq] at he
    rw [← he]
    refine ⟨by omega, by omega, fun _ => ⟨rfl, by omega⟩, fun hc => by omega⟩
  · split at he
    · simp only [Option.some.injEq] at he
      rw [← he]
      refine ⟨by omega, by omega, fun hc => by omega, fun _ => ⟨by omega, by omega⟩⟩
    · cases he

/-- Combination fails if and only if the numbers do not match, or an entry is in both maps or in none. -/
theorem combine_fails_iff (a b : Map) :
    combine a b = none ↔ ¬ (a.numDofs = b.numBoundary ∧ a.numBoundary = b.numDofs) ∨
      ∃ r ∈ List.zip a.dofs b.dofs, ∃ e ∈ List.zip r.1 r.2, (0 ≤ e.1 ↔ 0 ≤ e.2) := by
  have hnone : ∀ {α β : Type} (f : α → Option β) (l : List α), l.mapM f = none ↔ ∃ x ∈ l, f x = none := by
    intro α β f l
    induction l with
    | nil => simp
    | cons x l ih =>
      rw [List.mapM_cons]
      cases hf : f x with
      | none => simp [hf]
      | some y =>
        cases hl : l.mapM f with
        | none => simp [hf]; exact ih.1 hl
        | some s =>
          simp only [Option.bind_eq_bind, Option.bind_some, Option.pure_def, reduceCtorEq, List.exists_mem_cons_iff, hf, false_or,
            false_iff]
          intro h
          rw [ih.2 h] at hl; cases hl
  unfold combine
  split
  · rename_i hc
    rw [Option.map_eq_none_iff, hnone]
    simp only [hnone, hc, and_self, not_true_eq_false, false_or]
    refine exists_congr fun r => and_congr_right fun _ => exists_congr fun e => and_congr_right fun _ => ?_
    unfold combineEntry
    split
    · rename_i h; simp only [reduceCtorEq, false_iff]; omega
    · split
      · rename_i h; simp only [reduceCtorEq, false_iff]; omega
      · simp only [true_iff]; omega
  · rename_i hc; simp [hc]

/-- Comparison of maps with the same number of cells, at least one: true exactly for the same maps on the same mesh. -/
theorem equal_partial (a b : Map) (same : Bool) (hl : a.dofs.length = b.dofs.length) (h0 : 0 < a.dofs.length) :
    equal a b same = some (decide (a.numDofs = b.numDofs ∧ a.numBoundary = b.numBoundary ∧ a.dofs = b.dofs ∧ same = true)) := by
  unfold equal
  by_cases h1 : a.numDofs = b.numDofs
  · by_cases h2 : a.numBoundary = b.numBoundary
    · simp only [h1, h2, ne_eq, not_true_eq_false, if_false, broadcast, hl, if_true]
      cases hz : List.zip a.dofs b.dofs with
      | nil =>
        have := congrArg List.length hz
        simp only [List.length_zip, List.length_nil] at this
        omega
      | cons r rs =>
        dsimp only
        rw [← hz]
        have hany : (List.zip a.dofs b.dofs).any (fun r => r.1 != r.2) = true ↔ a.dofs ≠ b.dofs := by
          rw [List.any_eq_true]
          constructor
          · rintro ⟨x, hx, hne⟩ e
            rw [e] at hx
            rw [List.mem_iff_getElem] at hx
            obtain ⟨i, hi, rfl⟩ := hx
            simp at hne
          · intro hne
            refine Classical.byContradiction fun hno => hne ?_
            apply List.ext_getElem hl
            intro i h1 h2
            refine Classical.byContradiction fun hi => hno ⟨(a.dofs[i], b.dofs[i]), ?_, by simpa using hi⟩
            rw [List.mem_iff_getElem]
            exact ⟨i, by rw [List.length_zip]; omega, by simp⟩
        by_cases hd : a.dofs = b.dofs
        · rw [if_neg (by rw [hany]; exact fun h => h hd)]
          cases same <;> simp [hd]
        · rw [if_pos (hany.2 hd)]
          simp [hd]
    · simp [h1, h2]
  · simp [h1]

/-- For meshes with different numbers of cells, both larger than one, the comparison raises an exception instead of giving false. -/
theorem equal_fails (a b : Map) (same : Bool) (h1 : a.numDofs = b.numDofs) (h2 : a.numBoundary = b.numBoundary)
    (hl : a.dofs.length ≠ b.dofs.length) (ha : a.dofs.length ≠ 1) (hb : b.dofs.length ≠ 1) : equal a b same = none := by
  unfold equal broadcast
  simp [h1, h2, hl, ha, hb]

variable {κ : Type} [DecidableEq κ]

theorem firsts_spec (keys : List κ) : (firsts keys).Nodup ∧ ∀ k, k ∈ firsts keys ↔ k ∈ keys := by
  have : ∀ (l ks : List κ), ks.Nodup → (l.foldl (fun ks k => if k ∈ ks then ks else ks ++ [k]) ks).Nodup ∧
      ∀ k, k ∈ l.foldl (fun ks k => if k ∈ ks then ks else ks ++ [k]) ks ↔ k ∈ ks ∨ k ∈ l := by
    intro l
    induction l with
    | nil => intro ks h; simpa using h
    | cons a l ih =>
      intro ks h
      rw [List.foldl_cons]
      by_cases ha : a ∈ ks
      · rw [if_pos ha]
        obtain ⟨h1, h2⟩ := ih ks h
        refine ⟨h1, fun k => ?_⟩
        rw [h2, List.mem_cons]
        constructor
        · rintro (h | h); exacts [Or.inl h, Or.inr (Or.inr h)]
        · rintro (h | rfl | h); exacts [Or.inl h, Or.inl ha, Or.inr h]
      · rw [if_neg ha]
        obtain ⟨h1, h2⟩ := ih (ks ++ [a]) (by
          rw [List.nodup_append]
          refine ⟨h, by simp, ?_⟩
          intro x hx y hy e
          simp at hy
          exact ha (by rw [← hy, ← e]; exact hx))
        refine ⟨h1, fun k => ?_⟩
        rw [h2, List.mem_append, List.mem_singleton, List.mem_cons, or_assoc]
  obtain ⟨h1, h2⟩ := this keys [] List.nodup_nil
  exact ⟨h1, fun k => by unfold firsts; rw [h2]; simp⟩

/-- The blocks: row `b` has exactly the degrees of freedom with the `b`-th key, in increasing order; the keys of the rows are different,
and each degree of freedom is in a row. -/
theorem blocks (keys : List κ) :
    (firsts keys).Nodup ∧ (∀ k, k ∈ keys ↔ k ∈ firsts keys) ∧
    ∀ b (hb : b < (firsts keys).length), row keys b = (List.range keys.length).filter fun i => keys[i]? = some (firsts keys)[b] := by
  obtain ⟨hnd, hmem⟩ := firsts_spec keys
  refine ⟨hnd, fun k => (hmem k).symm, fun b hb => ?_⟩
  have hcount : ∀ r, (sizes keys).getD r 0 = (keys.map (firsts keys).idxOf).count r := by
    intro r
    by_cases hr : r < (firsts keys).length
    · rw [List.getD_eq_getElem _ _ (by simpa [sizes] using hr)]
      simp only [sizes, List.getElem_map]
      rw [List.count, List.count, List.countP_map]
      refine List.countP_congr fun k hk => ?_
      simp only [beq_iff_eq, Function.comp]
      constructor
      · rintro rfl; exact hnd.idxOf_getElem r hr
      · rintro rfl; rw [List.getElem_idxOf]
    · rw [List.getD_eq_default _ _ (by simp [sizes]; omega)]
      symm
      rw [List.count_eq_zero]
      intro hm
      obtain ⟨k, hk, e⟩ := List.mem_map.1 hm
      have := List.idxOf_lt_length_iff.2 ((hmem k).2 hk)
      omega
  have hptr : ∀ r, (filled keys).ptr r = CellExchange.displ (sizes keys) (r + 1) := by
    intro r
    unfold filled CellExchange.fill
    rw [CellExchange.fill_ptr, CellExchange.zip_fst _ _ (by simp), CellExchange.displ_succ, hcount]
  have hind : ∀ r, r ≤ (firsts keys).length → indptr keys r = CellExchange.displ (sizes keys) r := by
    intro r hr
    unfold indptr
    cases r with
    | zero => rw [CellExchange.shiftBack_zero]; rfl
    | succ r => rw [CellExchange.shiftBack_succ _ _ _ hr, hptr]
  unfold row
  rw [hind b (by omega), hind (b + 1) (by omega), CellExchange.displ_succ, Nat.add_sub_cancel_left]
  unfold filled
  rw [CellExchange.fill_segment (sizes keys) 0 _ _ _ (by simp) hcount (fun _ _ => rfl) b rfl,
    CellExchange.zip_filter _ _ 0 (by simp), List.length_map]
  have : ((List.range keys.length).filter fun i => (keys.map (firsts keys).idxOf).getD i 0 == b) =
      (List.range keys.length).filter fun i => keys[i]? = some (firsts keys)[b] := by
    refine List.filter_congr fun i hi => ?_
    have hi := List.mem_range.1 hi
    rw [List.getD_eq_getElem _ _ (by simpa using hi), List.getElem_map, List.getElem?_eq_getElem hi, Bool.eq_iff_iff, beq_iff_eq,
      decide_eq_true_iff, Option.some.injEq]
    constructor
    · intro e
      have hm := (hmem keys[i]).2 (List.getElem_mem hi)
      have := List.getElem_idxOf (List.idxOf_lt_length_iff.2 hm)
      rw [← this]
      congr 1
    · intro e; rw [e]; exact hnd.idxOf_getElem b hb
  rw [this]
  conv => rhs; rw [← List.map_id (List.filter _ _)]
  refine List.map_congr_left fun i hi => ?_
  have := List.mem_range.1 (List.mem_filter.1 hi).1
  rw [List.getD_eq_getElem _ _ (by simpa using this)]
  simp

/-- Two coordinates have the same key only if they are close, in relation to the extent of the domain; coordinates that are further apart
than `delta` times the extent are in different blocks. -/
theorem key_close (delta lo hi c c' : ℚ) (hd : 0 < delta) (h : lo < hi) (hk : key delta lo hi c = key delta lo hi c') :
    |c - c'| < delta * (hi - lo) := by
  unfold key at hk
  have h1 := Int.abs_sub_lt_one_of_floor_eq_floor hk
  have hpos : 0 < hi - lo := by linarith
  have he : 1 / (hi - lo) / delta * (c - lo) + 1 / 2 - (1 / (hi - lo) / delta * (c' - lo) + 1 / 2) =
      (c - c') / (delta * (hi - lo)) := by
    field_simp; ring
  rw [he, abs_div, abs_of_pos (show 0 < delta * (hi - lo) by positivity), div_lt_one (by positivity)] at h1
  exact h1

/-- But there are coordinates arbitrarily close to each other in different blocks. -/
theorem key_fails (eps : ℚ) (h : 0 < eps) : ∃ c c', |c - c'| < eps ∧ key (1 / 10) 0 1 c ≠ key (1 / 10) 0 1 c' := by
  refine ⟨1 / 20, 1 / 20 - min (eps / 2) (1 / 20), ?_, ?_⟩
  · have : 0 < min (eps / 2) (1 / 20) := by positivity
    rw [abs_of_pos (by linarith)]
    have := min_le_left (eps / 2) (1 / 20 : ℚ)
    linarith
  · have h1 : 0 < min (eps / 2) (1 / 20) := by positivity
    have h2 := min_le_right (eps / 2) (1 / 20 : ℚ)
    have e1 : key (1 / 10) 0 1 (1 / 20) = 1 := by unfold key; norm_num
    have e2 : key (1 / 10) 0 1 (1 / 20 - min (eps / 2) (1 / 20)) = 0 := by
      unfold key
      rw [Int.floor_eq_iff]
      constructor
      · norm_num; linarith
      · norm_num; linarith
    rw [e1, e2]; decide

/-- Two triangles with one inner vertex each; five degrees of freedom in three blocks. -/
theorem sample_case :
    (combine ⟨[[0, -1, -2], [-2, 1, -1]], 2, 3⟩ ⟨[[-1, 0, 1], [1, -2, 0]], 3, 2⟩).map (·.dofs) = some [[0, 2, 3], [3, 1, 2]] ∧
    (combine ⟨[[0, 1]], 2, 2⟩ ⟨[[0, -1]], 2, 2⟩).isNone = true ∧
    equal ⟨[[0, 1], [1, 2]], 3, 0⟩ ⟨[[0, 1], [1, 2], [2, 0]], 3, 0⟩ false = none ∧
    firsts [5, 3, 5, 4, 3] = [5, 3, 4] ∧ row [5, 3, 5, 4, 3] 0 = [0, 2] ∧ row [5, 3, 5, 4, 3] 1 = [1, 4] ∧
    row [5, 3, 5, 4, 3] 2 = [3] := by
  decide

end PyNucleus.Props.C116
