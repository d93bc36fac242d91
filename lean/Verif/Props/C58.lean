import Verif.Proof.ClusterPairs
import Mathlib.Analysis.Real.Sqrt

/-!
# C58: near-field and far-field cluster pairs cover the dof pairs that interact exactly once

For a kernel with an interaction ball (`complement` false) of finite or infinite radius.  The other kernels are in C59.
-/

namespace PyNucleus.Props.C58

open PyNucleus.ClusterPairs

variable {ν K : Type} [Field K] [LinearOrder K] [IsStrictOrderedRing K]

/-- What is used of `sqrt`. -/
def IsSqrt (sqrt : K → K) : Prop := ∀ a, 0 ≤ a → 0 ≤ sqrt a ∧ sqrt a * sqrt a = a

/-- The box of every cluster contains the supports of its dofs. -/
def Encloses (S : Setup ν K) (support : Nat → List K → Prop) : Prop := ∀ n, ∀ i ∈ S.dofs n, ∀ x, support i x → InBox (S.box n) x

/-- Two dofs interact: points of their supports are within the horizon. -/
def Interact (S : Setup ν K) (support : Nat → List K → Prop) (i j : Nat) : Prop :=
  match S.horizon with
  | none => True
  | some h => 0 ≤ h ∧ ∃ x y, support i x ∧ support j y ∧ ptDist2 x y ≤ h ^ 2

/-- Number of cluster pairs that contain a pair of dofs. -/
def covering (S : Setup ν K) (L : List (ν × ν)) (i j : Nat) : Nat := L.countP fun p => decide (i ∈ S.dofs p.1 ∧ j ∈ S.dofs p.2)

omit [IsStrictOrderedRing K] in
private theorem covering_append (S : Setup ν K) (L M : List (ν × ν)) (i j : Nat) : covering S (L ++ M) i j = covering S L i j + covering S M i j := by
  simp [covering]

omit [IsStrictOrderedRing K] in
private theorem covering_single (S : Setup ν K) {n1 n2 : ν} (h1 : (S.dofs n1).Nodup) (h2 : (S.dofs n2).Nodup) (i j : Nat) :
    cover S.dofs [(n1, n2)] i j = if i ∈ S.dofs n1 ∧ j ∈ S.dofs n2 then 1 else 0 := by
  rw [cover_eq_countP (by simpa using ⟨h1, h2⟩)]
  by_cases h : i ∈ S.dofs n1 ∧ j ∈ S.dofs n2 <;> simp [h]

private theorem not_beyond {S : Setup ν K} (hsq : IsSqrt S.sqrt) {support : Nat → List K → Prop} (he : Encloses S support) {h : K} (hh : S.horizon = some h) {i j : Nat} (hi : Interact S support i j)
    {n1 n2 : ν} (h1 : i ∈ S.dofs n1) (h2 : j ∈ S.dofs n2) : ¬ S.dist n1 n2 > h := by
  intro hd
  simp only [Interact, hh] at hi
  obtain ⟨h0, x, y, hx, hy, hxy⟩ := hi
  have hle := dist2_le (he n1 i h1 x hx) (he n2 j h2 y hy)
  have hs := hsq _ (dist2_nonneg (S.box n1) (S.box n2))
  unfold Setup.dist at hd
  nlinarith [hs.1, hs.2]

/-- `getAdmissibleClusters` appends near and far pairs to the lists; no pair of dofs of the two clusters is covered twice, no other pair is covered, and every pair that interacts is
covered once. -/
theorem admissible_cover (S : Setup ν K) (hsplit : Splits S) (hsq : IsSqrt S.sqrt) (hc : S.complement = false) (support : Nat → List K → Prop) (he : Encloses S support)
    (rem : Nat) (n1 n2 : ν) (h1 : (S.dofs n1).Nodup) (h2 : (S.dofs n2).Nodup) (st : Pairs ν) :
    ∃ near far, (getAdmissible S rem n1 n2 st).1.near = st.near ++ near ∧ (getAdmissible S rem n1 n2 st).1.far = st.far ++ far ∧
      ∀ i j, (covering S (near ++ far.map Prod.snd) i j ≤ 1) ∧ (¬ (i ∈ S.dofs n1 ∧ j ∈ S.dofs n2) → covering S (near ++ far.map Prod.snd) i j = 0) ∧
        (i ∈ S.dofs n1 → j ∈ S.dofs n2 → Interact S support i j → covering S (near ++ far.map Prod.snd) i j = 1) := by
  obtain ⟨A, B, C, e⟩ := effect_getAdmissible hsplit rem n1 n2 st
  refine ⟨A, B, e.near, e.far, fun i j => ?_⟩
  have hcov := e.cover i j
  rw [cover_eq_countP (fun p hp => ⟨nodup_below hsplit (e.sub p hp).toBelow.1 h1, nodup_below hsplit (e.sub p hp).toBelow.2 h2⟩), covering_single S h1 h2] at hcov
  change covering S (A ++ B.map Prod.snd ++ C) i j = _ at hcov
  rw [covering_append] at hcov
  refine ⟨?_, ?_, ?_⟩
  · split at hcov <;> omega
  · intro h
    rw [if_neg h] at hcov
    omega
  · intro hi hj hint
    rw [if_pos ⟨hi, hj⟩] at hcov
    have hz : covering S C i j = 0 := by
      unfold covering
      rw [List.countP_eq_zero]
      intro p hp hm
      have hv := e.zero p hp
      obtain ⟨hm1, hm2⟩ := of_decide_eq_true hm
      cases hh : S.horizon with
      | none =>
        unfold verdict at hv
        simp only [hh] at hv
        split at hv <;> cases hv
      | some h =>
        have hnb := not_beyond hsq he hh hint hm1 hm2
        unfold verdict at hv
        simp only [hh, hc, hnb, decide_false, Bool.and_false, Bool.false_and, Bool.false_eq_true, if_false] at hv
        split at hv
        · cases hv
        · split at hv <;> cases hv
    omega

/-- The same for `getCoveringClusters`, which has near pairs only. -/
theorem covering_cover (S : Setup ν K) (hsplit : Splits S) (hsq : IsSqrt S.sqrt) (support : Nat → List K → Prop) (he : Encloses S support)
    (rem : Nat) (n1 n2 : ν) (h1 : (S.dofs n1).Nodup) (h2 : (S.dofs n2).Nodup) (near0 : List (ν × ν)) :
    ∃ near, getCovering S rem n1 n2 near0 = near0 ++ near ∧
      ∀ i j, (covering S near i j ≤ 1) ∧ (¬ (i ∈ S.dofs n1 ∧ j ∈ S.dofs n2) → covering S near i j = 0) ∧
        (i ∈ S.dofs n1 → j ∈ S.dofs n2 → Interact S support i j → covering S near i j = 1) := by
  obtain ⟨A, C, e, hsub, hsk, hcover⟩ := ClusterPairs.covering hsplit rem n1 n2 near0
  refine ⟨A, e, fun i j => ?_⟩
  have hcov := hcover i j
  rw [cover_eq_countP (fun p hp => ⟨nodup_below hsplit (hsub p hp).1 h1, nodup_below hsplit (hsub p hp).2 h2⟩), covering_single S h1 h2] at hcov
  change covering S (A ++ C) i j = _ at hcov
  rw [covering_append] at hcov
  refine ⟨?_, ?_, ?_⟩
  · split at hcov <;> omega
  · intro h
    rw [if_neg h] at hcov
    omega
  · intro hi hj hint
    rw [if_pos ⟨hi, hj⟩] at hcov
    have hz : covering S C i j = 0 := by
      unfold covering
      rw [List.countP_eq_zero]
      intro p hp hm
      obtain ⟨hm1, hm2⟩ := of_decide_eq_true hm
      rcases hsk p hp with ⟨h, hh, hd⟩ | hd | hd
      · exact not_beyond hsq he hh hint hm1 hm2 hd
      · rw [hd] at hm1; simp at hm1
      · rw [hd] at hm2; simp at hm2
    omega

/-! ## A concrete case -/

/-- Four intervals in a tree with three levels: cluster 0 has the children 1 and 2, these have the children 3, 4 and 5, 6. -/
def four (F : Type) [Field F] (sqrt : F → F) (horizon : Option F) : Setup Nat F where
  box n := if n = 0 then [(0, 8)] else if n = 1 then [(0, 4)] else if n = 2 then [(4, 8)] else if n = 3 then [(0, 2)] else if n = 4 then [(2, 4)] else if n = 5 then [(4, 6)] else [(6, 8)]
  dofs n := if n = 0 then [0, 1, 2, 3] else if n = 1 then [0, 1] else if n = 2 then [2, 3] else if n < 7 then [n - 3] else []
  children n := if n = 0 then [1, 2] else if n = 1 then [3, 4] else if n = 2 then [5, 6] else []
  mixed _ := false
  assembled _ := true
  order _ := 1
  eta := 1
  maxLevels := 5
  dim := 1
  horizon := horizon
  complement := false
  sqrt := sqrt

/-- Square root of the squares that occur. -/
def root (a : Rat) : Rat := ((List.range 20).find? fun n => (n * n : Rat) == a).getD 0

theorem four_splits (F : Type) [Field F] [LinearOrder F] (sqrt : F → F) (horizon : Option F) : Splits (four F sqrt horizon) := by
  intro n hn
  simp only [four] at hn ⊢
  by_cases h0 : n = 0
  · subst h0; simp
  · by_cases h1 : n = 1
    · subst h1; simp
    · by_cases h2 : n = 2
      · subst h2; simp
      · simp [h0, h1, h2] at hn

/-- Infinite horizon: six far pairs and four near ones, two of them after a merge of four. -/
example : (getAdmissible (four Rat root none) 5 0 0 ⟨[], []⟩).1.far = [(2, 3, 5), (2, 3, 6), (2, 4, 6), (2, 5, 3), (2, 6, 3), (2, 6, 4)] ∧
    (getAdmissible (four Rat root none) 5 0 0 ⟨[], []⟩).1.near = [(1, 1), (4, 5), (5, 4), (2, 2)] := by
  decide +kernel

/-- With the horizon 1 the pairs at distance 2 and 4 are left out. -/
example : (getAdmissible (four Rat root (some 1)) 5 0 0 ⟨[], []⟩).1.far = [] ∧
    (getAdmissible (four Rat root (some 1)) 5 0 0 ⟨[], []⟩).1.near = [(3, 3), (3, 4), (4, 3), (4, 4), (4, 5), (5, 4), (5, 5), (5, 6), (6, 5), (6, 6)] := by
  decide +kernel

example : getCovering (four Rat root (some 1)) 5 0 0 [] = [(3, 3), (3, 4), (4, 3), (4, 4), (4, 5), (5, 4), (5, 5), (5, 6), (6, 5), (6, 6)] := by decide +kernel

/-- Support of a dof: its interval. -/
def interval (i : Nat) (x : List ℝ) : Prop := ∃ v : ℝ, x = [v] ∧ ((i = 0 ∧ 0 ≤ v ∧ v ≤ 2) ∨ (i = 1 ∧ 2 ≤ v ∧ v ≤ 4) ∨ (i = 2 ∧ 4 ≤ v ∧ v ≤ 6) ∨ (i = 3 ∧ 6 ≤ v ∧ v ≤ 8))

theorem four_encloses : Encloses (four ℝ Real.sqrt (some 1)) interval := by
  intro n i hi x hx
  obtain ⟨v, rfl, hv⟩ := hx
  simp only [four] at hi ⊢
  by_cases h : n < 7
  · have : n = 0 ∨ n = 1 ∨ n = 2 ∨ n = 3 ∨ n = 4 ∨ n = 5 ∨ n = 6 := by omega
    unfold InBox
    rcases this with rfl | rfl | rfl | rfl | rfl | rfl | rfl <;> simp at hi ⊢ <;> rcases hv with ⟨hq, h1, h2⟩ | ⟨hq, h1, h2⟩ | ⟨hq, h1, h2⟩ | ⟨hq, h1, h2⟩ <;>
      first | (exfalso; omega) | (constructor <;> linarith)
  · simp [show n ≠ 0 by omega, show n ≠ 1 by omega, show n ≠ 2 by omega, h] at hi

/-- The hypotheses of the theorem hold in the concrete case, with dofs that interact. -/
example : Splits (four ℝ Real.sqrt (some 1)) ∧ IsSqrt (four ℝ Real.sqrt (some 1)).sqrt ∧ (four ℝ Real.sqrt (some 1)).complement = false ∧
    Encloses (four ℝ Real.sqrt (some 1)) interval ∧ ((four ℝ Real.sqrt (some 1)).dofs 0).Nodup ∧ Interact (four ℝ Real.sqrt (some 1)) interval 1 2 := by
  refine ⟨four_splits _ _ _, fun a ha => ⟨Real.sqrt_nonneg a, Real.mul_self_sqrt ha⟩, rfl, four_encloses, by simp [four], ?_⟩
  simp only [Interact, four]
  refine ⟨by norm_num, [4], [4], ⟨4, rfl, ?_⟩, ⟨4, rfl, ?_⟩, ?_⟩
  · norm_num
  · norm_num
  · norm_num [ptDist2]

end PyNucleus.Props.C58
