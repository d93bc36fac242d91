import Verif.Proof.Reports
import Mathlib.Analysis.SpecialFunctions.Pow.Real
import Mathlib.Algebra.Order.Ring.Rat

/-!
# C101: reports of timings and results
-/

namespace PyNucleus.Props.C101

open PyNucleus.Reports

/-- If the merging of the timers of all ranks succeeds, each timer of a rank is listed once, with one
entry for each rank, which is the rank's own or the default. -/
theorem timers_partial {α V : Type} [DecidableEq α] (ranks : List (List (α × V))) (dflt : V)
    (h0 : ranks ≠ []) (hr : ∀ r ∈ ranks, (r.map Prod.fst).Nodup) (keys : List α)
    (h : mergeAll (ranks.map fun r => r.map Prod.fst) = some keys) :
    keys.Nodup ∧ (∀ z, z ∈ keys ↔ ∃ r ∈ ranks, ∃ v, (z, v) ∈ r) ∧
      (∀ z ∈ keys, table dflt keys (ranks.map fun r z => r.lookup z) z =
        some (ranks.map fun r => (r.lookup z).getD dflt)) ∧
      (∀ z, z ∉ keys → table dflt keys (ranks.map fun r z => r.lookup z) z = none) := by
  cases ranks with
  | nil => exact absurd rfl h0
  | cons r ranks =>
    rw [List.map_cons, mergeAll] at h
    obtain ⟨h1, h2⟩ := mergeFold_some _ _ _ (hr r (by simp)) (by
      intro b hb
      obtain ⟨r', hr', rfl⟩ := List.mem_map.mp hb
      exact hr r' (by simp [hr'])) h
    refine ⟨h1, fun z => ?_, fun z hz => ?_, fun z hz => table_none dflt keys h1 _ z hz⟩
    · rw [h2]
      simp
    · rw [table_eq dflt keys h1 _ z hz (by simp)]
      simp

/-- The merging of two lists raises an error exactly if a key that only the second list has comes
there before a key of both. -/
theorem merge_raises {α : Type} [DecidableEq α] (a b : List α) (ha : a.Nodup) (hb : b.Nodup) :
    mergeOrdered a b = none ↔ NewBeforeCommon a b :=
  mergeLoop_none a.length a b (le_refl _) ha hb

/-- The order of the second list is kept; that of the first one is kept as well if both lists order the
common keys in the same way. -/
theorem merge_order {α : Type} [DecidableEq α] (a b k : List α) (ha : a.Nodup) (hb : b.Nodup)
    (h : mergeOrdered a b = some k) :
    k.Nodup ∧ (∀ z, z ∈ k ↔ z ∈ a ∨ z ∈ b) ∧ b.Sublist k ∧
      (a.filter (· ∈ b) = b.filter (· ∈ a) → a.Sublist k) :=
  mergeLoop_some a.length a b k (le_refl _) ha hb h

/-- The report of timings fails for ranks one of which has an additional timer that started before a
common one: timers 1 on the first rank, 2 and 1 on the second. -/
theorem timers_fails :
    ¬ ∀ (a b : List Nat), a.Nodup → b.Nodup → ∃ keys, mergeAll [a, b] = some keys := by
  intro h
  obtain ⟨k, hk⟩ := h [1] [2, 1] (by decide) (by decide)
  revert hk
  simp [mergeAll, mergeOrdered, mergeLoop]

/-- The mean of the report is the mean of all calls of all ranks. -/
theorem mean_call {K : Type} [Field K] [CharZero K] (vals : List (List K)) (h : ∀ v ∈ vals, v ≠ []) :
    meanCall (vals.map callsAndMean) = vals.flatten.sum / (vals.flatten.length : K) := by
  obtain ⟨h1, h2⟩ := mean_all vals h
  unfold meanCall
  rw [h1, h2]

section
variable {K : Type} [Field K] [LinearOrder K]

/-- The comparison with a reference reports exactly the differences, if no two tested entries have the
same label. -/
theorem diff_partial (entries : List (Param K)) (d : List (Nat × Value K)) (r : List (Nat × Mismatch K))
    (he : (testedLabels entries).Nodup) (hd : (d.map Prod.fst).Nodup) (h : diff entries d = some r)
    (l : Nat) (m : Mismatch K) : r.lookup l = some m ↔ Differs entries d l m :=
  lookup_diff entries d r he hd h l m

/-- It fails exactly if a value cannot be compared with its reference. -/
theorem diff_raises (entries : List (Param K)) (d : List (Nat × Value K))
    (he : (testedLabels entries).Nodup) (hd : (d.map Prod.fst).Nodup) :
    diff entries d = none ↔ ∃ p ∈ entries, p.tested = true ∧ ∃ v, (p.label, v) ∈ d ∧ Incomparable p v :=
  diff_none entries d he hd

/-- A report does not differ from the reference that was written from it. -/
theorem own_partial [IsStrictOrderedRing K] (entries : List (Param K))
    (he : (testedLabels entries).Nodup)
    (ht : ∀ p ∈ entries, (∀ t ∈ p.aTol, (0 : K) ≤ t) ∧ ∀ t ∈ p.rTol, (0 : K) ≤ t) :
    diff entries (toDict true entries) = some [] := by
  have hd : toDict true entries = (entries.filter (·.tested)).map fun p => (p.label, p.value) := by
    unfold toDict
    rw [if_pos rfl, toDict_fold _ _ (by simpa [testedLabels] using he)]
    rfl
  have hkeys : ((toDict true entries).map Prod.fst).Nodup := by
    rw [hd, List.map_map]
    exact he
  have hown : ∀ p ∈ entries, p.tested = true → ∀ v, (p.label, v) ∈ toDict true entries → v = p.value := by
    intro p hp hpt v hv
    have h1 := lookup_of_mem hkeys hv
    have h2 : (p.label, p.value) ∈ toDict true entries := by
      rw [hd]
      exact List.mem_map.mpr ⟨p, List.mem_filter.mpr ⟨hp, by simpa using hpt⟩, rfl⟩
    rw [lookup_of_mem hkeys h2] at h1
    exact (Option.some.inj h1).symm
  have htol : ∀ t : Option K, (∀ x ∈ t, (0 : K) ≤ x) → 0 ≤ tol t := by
    intro t h
    cases t with
    | none => exact one_div_nonneg.mpr (pow_nonneg (by norm_num) _)
    | some x => exact h x rfl
  have hclose : ∀ p ∈ entries, ∀ x : K, Close p x x := by
    intro p hp x
    unfold Close
    rw [sub_self, abs_zero]
    exact add_nonneg (htol _ (ht p hp).1) (mul_nonneg (htol _ (ht p hp).2) (abs_nonneg _))
  have hmatch : ∀ p ∈ entries, Matches p p.value := by
    intro p hp
    unfold Matches
    cases hv : p.value with
    | num x => exact Or.inl ⟨x, x, rfl, rfl, hclose p hp x⟩
    | list l =>
      exact Or.inr (Or.inr (Or.inl ⟨l, l, rfl, rfl, List.forall₂_same.mpr fun x _ => hclose p hp x⟩))
    | other s => exact Or.inr (Or.inr (Or.inr ⟨s, rfl, rfl⟩))
  cases hr : diff entries (toDict true entries) with
  | none =>
    obtain ⟨p, hp, hpt, v, hv, hinc⟩ := (diff_none entries _ he hkeys).mp hr
    obtain rfl := hown p hp hpt v hv
    rcases hinc with ⟨x, s, h1, h2⟩ | ⟨l, h1, h2⟩
    · rw [h1] at h2; cases h2
    · exact absurd h1 (h2 l)
  | some r =>
    cases r with
    | nil => rfl
    | cons q r =>
      obtain ⟨l, m⟩ := q
      have hl : ((l, m) :: r).lookup l = some m := by simp
      rcases (lookup_diff entries _ _ he hkeys hr l m).mp hl with ⟨p, hp, hpt, rfl, h⟩ | ⟨h, v, hv, -⟩
      · rcases h with ⟨v, hv, hn, -⟩ | ⟨h, -⟩
        · obtain rfl := hown p hp hpt v hv
          exact absurd (hmatch p hp) hn
        · refine absurd ?_ (h p.value)
          rw [hd]
          exact List.mem_map.mpr ⟨p, List.mem_filter.mpr ⟨hp, by simpa using hpt⟩, rfl⟩
      · rw [hd] at hv
        obtain ⟨p, hp, he'⟩ := List.mem_map.mp hv
        obtain ⟨hp, hpt⟩ := List.mem_filter.mp hp
        exact absurd (Prod.mk.inj he').1 (h p hp (by simpa using hpt))

/-- Two entries with the same label: the reference that was written from them is not matched. -/
theorem own_fails :
    ¬ ∀ (entries : List (Param ℚ)), diff entries (toDict true entries) = some [] := by
  intro h
  have := h [⟨0, .num 1, none, none, true⟩, ⟨0, .num 1, none, none, true⟩]
  revert this
  decide +kernel

/-- Differences of a series: each own group with differences is listed with them, and only these. -/
theorem series_partial : ∀ (groups : List (Nat × List (Param K))) (d : List (Nat × List (Nat × Value K)))
    (r : List (Nat × List (Nat × Mismatch K))), seriesDiff groups d = some r →
    ∀ l p, (l, p) ∈ r ↔
      p ≠ [] ∧ ∃ entries ref, (l, entries) ∈ groups ∧ d.lookup l = some ref ∧ diff entries ref = some p := by
  intro groups
  induction groups with
  | nil =>
    intro d r h l p
    cases h
    simp
  | cons g groups ih =>
    obtain ⟨label, entries⟩ := g
    intro d r h l p
    rw [seriesDiff] at h
    obtain ⟨ref, href, h⟩ := Option.bind_eq_some_iff.mp h
    obtain ⟨q, hq, h⟩ := Option.bind_eq_some_iff.mp h
    obtain ⟨r', hr', rfl⟩ := Option.map_eq_some_iff.mp h
    have ih' := ih d r' hr' l p
    have hstep : (p ≠ [] ∧ ∃ entries' ref, (l, entries') ∈ (label, entries) :: groups ∧
        d.lookup l = some ref ∧ diff entries' ref = some p) ↔
        (q ≠ [] ∧ l = label ∧ p = q) ∨ (l, p) ∈ r' := by
      rw [ih']
      constructor
      · rintro ⟨hp, entries', ref', hm, h1, h2⟩
        rcases List.mem_cons.mp hm with he | hm
        · obtain ⟨rfl, rfl⟩ := Prod.mk.inj he
          rw [href] at h1; cases h1
          rw [hq] at h2; cases h2
          exact Or.inl ⟨hp, rfl, rfl⟩
        · exact Or.inr ⟨hp, entries', ref', hm, h1, h2⟩
      · rintro (⟨hp, rfl, rfl⟩ | ⟨hp, entries', ref', hm, h1, h2⟩)
        · exact ⟨hp, entries, ref, by simp, href, hq⟩
        · exact ⟨hp, entries', ref', by simp [hm], h1, h2⟩
    rw [hstep]
    cases q with
    | nil => simp
    | cons x q =>
      simp only [List.length_cons, gt_iff_lt, Nat.zero_lt_succ, if_true, List.mem_cons, Prod.mk.injEq,
        ne_eq, reduceCtorEq, not_false_eq_true, true_and]

/-- A group that only the reference has is not reported. -/
theorem series_fails :
    ¬ ∀ (groups : List (Nat × List (Param ℚ))) (d : List (Nat × List (Nat × Value ℚ))),
      seriesDiff groups d = some [] → ∀ l, d.lookup l ≠ none → groups.lookup l ≠ none := by
  intro h
  exact h [] [(3, [(0, .num 1)])] rfl 3 (by decide) rfl

end

/-- The pairs of a series are those of the groups that have all three attributes; they are sorted by the
sort key, which is the key itself by default. -/
theorem pairs {K : Type} [LinearOrder K] [Inhabited K] (argsort : List K → List Nat)
    (ha : IsArgsort argsort) (keyName valueName : Nat) (groups : List (List (Nat × K))) (sortBy : Option Nat)
    (reverse : Bool) :
    let r := getPair argsort keyName valueName sortBy reverse groups
    (List.zip r.1 r.2).Perm (groups.filterMap fun g =>
      (attr g keyName).bind fun k => (attr g valueName).bind fun v =>
        (attr g (sortBy.getD keyName)).map fun _ => (k, v)) ∧
    r.1.length = r.2.length ∧
    (sortBy = none → r.1.Pairwise fun x y => if reverse then y ≤ x else x ≤ y) := by
  intro r
  have hrows : ∀ (rows : List (K × K × K)), rows = collect keyName valueName (sortBy.getD keyName) groups →
      ((argsort (rows.map fun r => r.2.2)).Perm (List.range rows.length)) := by
    intro rows _
    have := (ha (rows.map fun r => r.2.2)).1
    simpa using this
  refine ⟨?_, ?_, ?_⟩
  · have h := zip_perm (collect keyName valueName (sortBy.getD keyName) groups)
      (if reverse then (argsort ((collect keyName valueName (sortBy.getD keyName) groups).map fun r => r.2.2)).reverse
        else argsort ((collect keyName valueName (sortBy.getD keyName) groups).map fun r => r.2.2)) (by
        have := hrows _ rfl
        cases reverse
        · exact this
        · exact (List.reverse_perm _).trans this)
    refine h.trans ?_
    unfold collect
    rw [List.map_filterMap]
    refine List.Perm.of_eq (List.filterMap_congr fun g _ => ?_)
    cases attr g keyName <;> simp
    cases attr g valueName <;> simp
    cases attr g (sortBy.getD keyName) <;> simp
  · show (List.map _ _).length = (List.map _ _).length
    simp
  · rintro rfl
    have hsort : (collect keyName valueName keyName groups).map (fun r => r.2.2) =
        (collect keyName valueName keyName groups).map fun r => r.1 := by
      unfold collect
      rw [List.map_filterMap, List.map_filterMap]
      refine List.filterMap_congr fun g _ => ?_
      cases attr g keyName <;> simp
    have hs := (ha ((collect keyName valueName keyName groups).map fun r => r.1)).2
    show (List.map _ _).Pairwise _
    dsimp only [Option.getD_none]
    rw [hsort]
    cases reverse
    · simpa using hs
    · simp only [if_true]
      rw [List.map_reverse, List.pairwise_reverse]
      exact hs

/-- If the values are a multiple of a power of the (positive, distinct) keys, all rates are the
exponent. -/
theorem rate_power (p C : ℝ) (hC : 0 < C) : ∀ (idx : List ℝ), (∀ x ∈ idx, 0 < x) →
    idx.IsChain (· ≠ ·) → roc false idx (idx.map fun x => C * x ^ p) = List.replicate (idx.length - 1) p := by
  intro idx
  induction idx with
  | nil => intro _ _; rfl
  | cons x idx ih =>
    intro hpos hne
    cases idx with
    | nil => rfl
    | cons y idx =>
      have hx : 0 < x := hpos x (by simp)
      have hy : 0 < y := hpos y (by simp)
      have ih' := ih (fun z hz => hpos z (by simp [hz])) (List.isChain_cons_cons.mp hne).2
      have hxy : x ≠ y := (List.isChain_cons_cons.mp hne).1
      rw [List.map_cons, List.map_cons, roc]
      rw [List.map_cons] at ih'
      rw [ih']
      simp only [Bool.false_eq_true, if_false, List.length_cons, Nat.add_sub_cancel, List.replicate_succ]
      congr 1
      rw [mul_div_mul_left _ _ hC.ne', ← Real.div_rpow hx.le hy.le, Real.log_rpow (div_pos hx hy)]
      have : Real.log (x / y) ≠ 0 := by
        refine Real.log_ne_zero_of_pos_of_ne_one (div_pos hx hy) fun h => hxy ?_
        rw [div_eq_one_iff_eq hy.ne'] at h
        exact h
      rw [mul_div_assoc, div_self this, mul_one]

/-- If the values are a multiple of an exponential function of the keys, all rates for `exp` are the
factor in the exponent. -/
theorem rate_exp (p C : ℝ) (hC : 0 < C) : ∀ (idx : List ℝ),
    idx.IsChain (· ≠ ·) → roc true idx (idx.map fun x => C * Real.exp (p * x)) = List.replicate (idx.length - 1) p := by
  intro idx
  induction idx with
  | nil => intro _; rfl
  | cons x idx ih =>
    intro hne
    cases idx with
    | nil => rfl
    | cons y idx =>
      have ih' := ih (List.isChain_cons_cons.mp hne).2
      have hxy : x ≠ y := (List.isChain_cons_cons.mp hne).1
      rw [List.map_cons, List.map_cons, roc]
      rw [List.map_cons] at ih'
      rw [ih']
      simp only [if_true, List.length_cons, Nat.add_sub_cancel, List.replicate_succ]
      congr 1
      rw [mul_div_mul_left _ _ hC.ne', ← Real.exp_sub, Real.log_exp, ← mul_sub,
        mul_div_assoc, div_self (sub_ne_zero.mpr hxy), mul_one]

/-- Concrete cases: two ranks with different timers, a difference within and one beyond the tolerance,
a missing and an additional value, a sorted series. -/
theorem sample_case :
    mergeAll [[1, 2, 4], [2, 4, 3]] = some [1, 2, 4, 3] ∧
    (table (0 : Nat) [1, 2] [fun k => if k = 1 then some 5 else none, fun k => some (k + 6)] 1 = some [5, 7] ∧
      table (0 : Nat) [1, 2] [fun k => if k = 1 then some 5 else none, fun k => some (k + 6)] 2 = some [0, 8]) ∧
    meanCall ([[1, 2], [6]].map (callsAndMean (K := ℚ))) = 3 ∧
    diff (K := ℚ) [⟨0, .num 1, some (1/10), none, true⟩, ⟨1, .list [1, 2], none, none, true⟩, ⟨2, .other 5, none, none, true⟩,
        ⟨3, .num 7, none, none, false⟩]
      [(0, .num (21/20)), (1, .list [1, 3]), (4, .num 2)] =
      some [(1, (some (.list [1, 2]), some (.list [1, 3]))), (2, (some (.other 5), none)), (4, (none, some (.num 2)))] ∧
    getPair (fun _ => [1, 0]) 0 1 none false [[(0, 3), (1, 10)], [(1, 5)], [(0, 2), (1, 20)]] =
      ([2, 3], [20, 10]) := by
  refine ⟨?_, ?_, ?_, ?_, ?_⟩ <;> decide +kernel

end PyNucleus.Props.C101
