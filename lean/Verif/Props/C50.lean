import Verif.Proof.IChol
import Verif.Props.C17

/-!
# C50 incomplete Cholesky

The property of an incomplete Cholesky factor: `(L L^T)_ij = A_ij` for every stored entry
`(i, j)` of the symmetric matrix `A`.  The code divides the entries of a column one at a time and
subtracts `data[hh]*data[jj]` with `data[hh]` not yet divided (`hh > jj`, linalg.pyx 89-97), so
that the property fails as soon as three indices are mutually coupled (`ichol_wrong`); without
such triples it holds (`ichol_partial`).
-/

namespace PyNucleus.Props.C50

open PyNucleus.Loops PyNucleus.Spec PyNucleus.CSR PyNucleus.SSS PyNucleus.Direct PyNucleus.IChol Finset
open PyNucleus.Props.C17 (withDiag)

variable {K : Type}

/-- `(i, j)` is stored. -/
def Stored (A : CSR K) (i j : Nat) : Prop := j ∈ (A.row i).map Prod.fst

/-- The lower triangular factor returned by `ichol_csr`. -/
def factorEntry [Field K] (r : CSR K × List K) (i j : Nat) : K :=
  withDiag r.1 (fun i => r.2.getD i 0) i j

/-- Facts about the columns built by the first two steps. -/
private theorem columns [Field K] (A : CSR K) (hA : A.Valid)
    (hnd : ∀ i, i < A.numRows → ((A.row i).map Prod.fst).Nodup) (u : List Nat) (dg : List K)
    (hu : u.length = ((List.range A.numRows).map fun i => ((A.row i).filter fun e => e.1 < i).length).sum) :
    let C := (lowerColumns A u dg).1
    C.Valid ∧ C.numRows = A.numRows ∧ C.numCols = A.numRows ∧
    (lowerColumns A u dg).2 = (forRange 0 A.numRows dg fun d i => findDiag A i d) ∧
    (∀ c, c < A.numRows → ∀ e, e ∈ C.row c ↔ c < e.1 ∧ e.1 < A.numRows ∧ (c, e.2) ∈ A.row e.1) ∧
    (∀ c, c < A.numRows → ((C.row c).map Prod.fst).Nodup) ∧
    ∀ c i, c < i → i < A.numRows → C.entry c i = A.entry i c := by
  have hu' : u.length = (lowItems A).length := by
    rw [hu]; unfold lowItems; rw [List.length_flatMap]; simp
  obtain ⟨B, h1, h2, h3, h4, h5⟩ := lowerColumns_eq A hA u dg hu'
  rw [h1]
  obtain ⟨_, s2, s3⟩ := C10.sort_rows B h2
  have hrow : ∀ c, c < A.numRows → ((sortMatrix B).row c).Perm
      ((List.range A.numRows).flatMap fun i => ((A.row i).filter fun e => e.1 = c ∧ c < i).map fun e => (i, e.2)) := by
    intro c hc
    rw [← lowItems_filter, ← h5 c hc]
    exact (s3 c (by omega)).1
  refine ⟨s2, h3, h4, rfl, fun c hc e => ?_, fun c hc => ?_, fun c i hci hi => ?_⟩
  · rw [(hrow c hc).mem_iff, List.mem_flatMap]
    constructor
    · rintro ⟨i, hi, he⟩
      obtain ⟨x, hx, rfl⟩ := List.mem_map.1 he
      obtain ⟨hx1, hx2⟩ := List.mem_filter.1 hx
      simp only [decide_eq_true_eq] at hx2
      refine ⟨hx2.2, List.mem_range.1 hi, ?_⟩
      rw [← hx2.1]; exact hx1
    · rintro ⟨g1, g2, g3⟩
      exact ⟨e.1, List.mem_range.2 g2, List.mem_map.2 ⟨(c, e.2), List.mem_filter.2 ⟨g3, by simpa using g1⟩, rfl⟩⟩
  · rw [((hrow c hc).map Prod.fst).nodup_iff, List.map_flatMap, List.nodup_iff_pairwise_ne, List.pairwise_flatMap]
    constructor
    · intro i hi
      rw [List.map_map, List.pairwise_map]
      have hp : (A.row i).Pairwise fun a b => a.1 ≠ b.1 := List.pairwise_map.1 (hnd i (List.mem_range.1 hi))
      apply List.Pairwise.imp_of_mem _ (hp.filter _)
      intro a b ha hb hab
      have h1 := (List.mem_filter.1 ha).2
      have h2 := (List.mem_filter.1 hb).2
      simp only [decide_eq_true_eq] at h1 h2
      exact absurd (h1.1.trans h2.1.symm) hab
    · apply List.Pairwise.imp _ List.pairwise_lt_range
      intro a b hab x hx y hy
      rw [List.map_map] at hx hy
      obtain ⟨x', _, rfl⟩ := List.mem_map.1 hx
      obtain ⟨y', _, rfl⟩ := List.mem_map.1 hy
      show a ≠ b
      omega
  · rw [C10.sort_entry B h2 c i (by omega)]
    unfold CSR.entry
    rw [h5 c (by omega), lowItems_filter]
    have := filter_flatMap_key (fun k => ((A.row k).filter fun e => e.1 = c ∧ c < k).map Prod.snd) A.numRows i hi
    simp only [List.map_map, Function.comp_def] at this
    rw [this]
    congr 2
    apply List.filter_congr
    intro e _
    simp [hci]

/-- On a pattern without three mutually coupled indices the factor reproduces the stored
entries of the lower triangle.  Missing: patterns with such triples, for which the statement is
false (`ichol_wrong`).  `u`, `dg`: uninitialised arrays. -/
theorem ichol_partial [Field K] (sqrt : K → K) (hsqrt : ∀ x, sqrt x ≠ 0 → sqrt x * sqrt x = x)
    (A : CSR K) (hA : A.Valid) (hnd : ∀ i, i < A.numRows → ((A.row i).map Prod.fst).Nodup)
    (hdiag : ∀ i, i < A.numRows → Stored A i i)
    (htri : ∀ i j k, i < j → j < k → k < A.numRows → ¬ (Stored A j i ∧ Stored A k i ∧ Stored A k j))
    (u : List Nat) (dg : List K) (hdg : dg.length = A.numRows)
    (hu : u.length = ((List.range A.numRows).map fun i => ((A.row i).filter fun e => e.1 < i).length).sum)
    (hpiv : ∀ i, i < A.numRows → (ichol sqrt A u dg).2.getD i 0 ≠ 0) :
    ∀ i j, j ≤ i → i < A.numRows → Stored A i j →
      ∑ m ∈ range A.numRows, factorEntry (ichol sqrt A u dg) i m * factorEntry (ichol sqrt A u dg) j m = A.entry i j := by
  obtain ⟨c1, c2, c3, c4, c5, c6, c7⟩ := columns A hA hnd u dg hu
  obtain ⟨d1, d2⟩ := diagLoop A hA dg hdg A.numRows (le_refl _)
  rw [← c4] at d1 d2
  unfold ichol at *
  simp only [] at *
  generalize (lowerColumns A u dg).1 = C at *
  generalize (lowerColumns A u dg).2 = dd at *
  have hs : StrictlyBelow C := fun j hj e he => ((c5 j (by omega) e).1 he).1
  have ht : TriangleFree C := by
    intro i hi e he e' he' e'' he'' heq
    obtain ⟨a1, a2, a3⟩ := (c5 i (by omega) e).1 he
    obtain ⟨b1, b2, b3⟩ := (c5 e.1 a2 e').1 he'
    obtain ⟨f1, f2, f3⟩ := (c5 i (by omega) e'').1 he''
    exact htri i e.1 e'.1 a1 b1 b2 ⟨List.mem_map.2 ⟨_, a3, rfl⟩, List.mem_map.2 ⟨_, heq ▸ f3, rfl⟩, List.mem_map.2 ⟨_, b3, rfl⟩⟩
  obtain ⟨f1, f2, f3, f4⟩ := factor_eq sqrt C c1 (by omega) ht hs dd (by omega)
  generalize factor sqrt C dd = f at *
  obtain ⟨g1, g2⟩ := Galerkin.data_map C c1 f.2 (fun i _ v => v / f.1.getD i 0) f2 f4
  -- entries of the factor
  have hL : ∀ i m, i < A.numRows → m < A.numRows → factorEntry (({ C with data := f.2 } : CSR K), f.1) i m =
      if i = m then f.1.getD i 0 else if m < i then A.entry i m / f.1.getD m 0 else 0 := by
    intro i m hi hm
    unfold factorEntry withDiag
    by_cases h : i = m
    · rw [if_pos h, if_pos h]
    · rw [if_neg h, if_neg h, entry_at', g2 m (by omega), at'_map _ (fun v => v / f.1.getD m 0) (by simp) _ (c6 m hm),
        ← entry_at']
      by_cases hmi : m < i
      · rw [if_pos hmi, c7 m i hmi hi]
      · rw [if_neg hmi, entry_strict C hs m i (by omega) (by omega), zero_div]
  have hdd : ∀ i, i < A.numRows → dd.getD i 0 = A.entry i i := by
    intro i hi
    rw [d2 i, if_pos hi]
    obtain ⟨e, he1, he2⟩ := List.mem_map.1 (hdiag i hi)
    rw [entry_at']
    have hn := hnd i hi
    generalize A.row i = l at *
    induction l with
    | nil => simp at he1
    | cons a t ih =>
      rw [at'_cons]
      rw [List.map_cons, List.nodup_cons] at hn
      by_cases ha : a.1 = i
      · rw [List.find?_cons_of_pos (by simpa using ha), if_pos ha, at'_zero t i, add_zero]
        · rfl
        · intro x hx hxi
          exact hn.1 (List.mem_map.2 ⟨x, hx, by rw [hxi, ha]⟩)
      · rw [List.find?_cons_of_neg (by simpa using ha), if_neg ha, zero_add]
        rcases List.mem_cons.1 he1 with rfl | he1
        · exact absurd he2 ha
        · exact ih he1 hn.2
  intro i j hji hi hst
  have hLs : ∑ m ∈ range A.numRows, factorEntry (({ C with data := f.2 } : CSR K), f.1) i m *
      factorEntry (({ C with data := f.2 } : CSR K), f.1) j m =
      ∑ m ∈ range (j + 1), factorEntry (({ C with data := f.2 } : CSR K), f.1) i m *
        factorEntry (({ C with data := f.2 } : CSR K), f.1) j m := by
    symm
    apply sum_subset (fun a ha => mem_range.2 (by have := mem_range.1 ha; omega))
    intro m hm1 hm2
    have := mt mem_range.2 hm2
    rw [hL j m (by omega) (mem_range.1 hm1), if_neg (by omega), if_neg (by omega), mul_zero]
  rw [hLs, sum_range_succ]
  by_cases hij : i = j
  · subst hij
    rw [hL i i hi hi, if_pos rfl]
    have hs2 : ∑ m ∈ range i, factorEntry (({ C with data := f.2 } : CSR K), f.1) i m *
        factorEntry (({ C with data := f.2 } : CSR K), f.1) i m =
        ∑ m ∈ range i, at' ((C.row m).map fun e => (e.1, e.2 / f.1.getD m 0 * (e.2 / f.1.getD m 0))) i := by
      apply sum_congr rfl
      intro m hm
      have hm := mem_range.1 hm
      rw [hL i m hi (by omega), if_neg (by omega), if_pos hm,
        at'_map _ (fun v => v / f.1.getD m 0 * (v / f.1.getD m 0)) (by simp) _ (c6 m (by omega)), ← entry_at', c7 m i hm hi]
    rw [hs2]
    have hp := hpiv i hi
    have hf3 := f3 i (by omega)
    rw [hdd i hi] at hf3
    have hq := hsqrt (A.entry i i - ∑ m ∈ range i, at' ((C.row m).map fun e => (e.1, e.2 / f.1.getD m 0 * (e.2 / f.1.getD m 0))) i)
      (by rw [← hf3]; exact hp)
    rw [← hf3] at hq
    rw [hq]; ring
  · have hji' : j < i := by omega
    rw [hL i j hi (by omega), hL j j (by omega) (by omega), if_neg hij, if_pos hji', if_pos rfl,
      div_mul_cancel₀ _ (hpiv j (by omega)), sum_eq_zero, zero_add]
    intro m hm
    have hm := mem_range.1 hm
    rw [hL i m hi (by omega), hL j m (by omega) (by omega), if_neg (by omega), if_pos (by omega), if_neg (by omega), if_pos hm]
    have hz : ∀ k, ¬ Stored A k m → A.entry k m = 0 := by
      intro k hk
      rw [entry_at']
      exact at'_zero _ _ fun e he h => hk (List.mem_map.2 ⟨e, he, h⟩)
    by_cases h1 : Stored A i m
    · by_cases h2 : Stored A j m
      · exact absurd ⟨h2, h1, hst⟩ (htri m j i hm hji' hi)
      · rw [hz j h2, zero_div, mul_zero]
    · rw [hz i h1, zero_div, zero_mul]

/-! ### the failing case and a correct one -/

/-- A square root on the squares met below. -/
def root (x : ℚ) : ℚ := if x = 4 then 2 else if x = 1 then 1 else 0

theorem root_sq : ∀ x, root x ≠ 0 → root x * root x = x := by
  intro x
  unfold root
  by_cases h4 : x = 4
  · rw [if_pos h4, h4]; decide +kernel
  · rw [if_neg h4]
    by_cases h1 : x = 1
    · rw [if_pos h1, h1]; decide +kernel
    · rw [if_neg h1]; intro h; exact absurd rfl h

/-- The symmetric positive definite matrix `[[4,2,2],[2,2,2],[2,2,5]]`. -/
def full : CSR ℚ := ⟨[0, 3, 6, 9], [0, 1, 2, 0, 1, 2, 0, 1, 2], [4, 2, 2, 2, 2, 2, 2, 2, 5], 3, 3⟩

/-- `ichol_csr` is wrong on the full 3x3 matrix: all pivots are nonzero, entry `(2,1)` is stored
with value 2, and the product of the factors has 1 there. -/
theorem ichol_wrong :
    (∀ i, i < 3 → (ichol root full [0, 0, 0] [9, 9, 9]).2.getD i 0 ≠ 0) ∧ Stored full 2 1 ∧ full.entry 2 1 = 2 ∧
    ∑ m ∈ range 3, factorEntry (ichol root full [0, 0, 0] [9, 9, 9]) 2 m *
      factorEntry (ichol root full [0, 0, 0] [9, 9, 9]) 1 m = 1 := by
  refine ⟨?_, by show 1 ∈ (full.row 2).map Prod.fst; decide, by decide +kernel, by decide +kernel⟩
  have : ∀ i ∈ List.range 3, (ichol root full [0, 0, 0] [9, 9, 9]).2.getD i 0 ≠ 0 := by decide +kernel
  exact fun i hi => this i (List.mem_range.2 hi)

/-- A star: index 0 coupled to 1 and 2. -/
def star : CSR ℚ := ⟨[0, 3, 5, 7], [0, 1, 2, 0, 1, 0, 2], [4, 2, 2, 2, 2, 2, 5], 3, 3⟩

example : star.Valid ∧ (∀ i, i < 3 → ((star.row i).map Prod.fst).Nodup) ∧ (∀ i, i < 3 → Stored star i i) ∧
    (∀ i j k, i < j → j < k → k < 3 → ¬ (Stored star j i ∧ Stored star k i ∧ Stored star k j)) ∧
    ([0, 0].length = ((List.range star.numRows).map fun i => ((star.row i).filter fun e => e.1 < i).length).sum) := by
  have h1 : ∀ i ∈ List.range 3, ((star.row i).map Prod.fst).Nodup := by decide +kernel
  have h2 : ∀ i ∈ List.range 3, i ∈ (star.row i).map Prod.fst := by decide +kernel
  have h3 : ¬ 1 ∈ (star.row 2).map Prod.fst := by decide +kernel
  refine ⟨⟨⟨rfl, rfl, rfl, by decide⟩, rfl, by decide⟩, fun i hi => h1 i (List.mem_range.2 hi),
    fun i hi => h2 i (List.mem_range.2 hi), fun i j k a b c h => ?_, by decide +kernel⟩
  obtain ⟨rfl, rfl, rfl⟩ : i = 0 ∧ j = 1 ∧ k = 2 := by omega
  exact h3 h.2.2

example : (ichol root star [0, 0] [9, 9, 9]).2 = [2, 1, 2] ∧ (ichol root star [0, 0] [9, 9, 9]).1.data = [1, 1] := by
  decide +kernel

end PyNucleus.Props.C50
