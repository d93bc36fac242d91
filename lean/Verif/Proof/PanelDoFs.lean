import Verif.Proof.PanelType
import Verif.Proof.RelativePosition
import Mathlib.Data.Rat.Lemmas
import Mathlib.Data.Rat.Cast.CharZero
import Mathlib.Data.List.Permutation
import Mathlib.Tactic.IntervalCases

/-! # Permutations of the dofs of two cells -/

namespace PyNucleus.PanelType

open PyNucleus.Loops PyNucleus.ShapeFunctions

/-- Properties of a row of the table of permutations. -/
def RowOk (nodes : List (List ℚ)) (d : Nat) (σ : List Nat) (row : List Nat) : Prop :=
  row.length = nodes.length ∧ row.Nodup ∧ (∀ k, k < nodes.length → row.getD k 0 < nodes.length) ∧
    ∀ k, k < nodes.length → ∀ j, j < d + 1 → (nodes.getD k []).getD j 0 = (nodes.getD (row.getD k 0) []).getD (σ.getD j 0) 0

instance (nodes : List (List ℚ)) (d : Nat) (σ : List Nat) (row : List Nat) : Decidable (RowOk nodes d σ row) := by unfold RowOk; infer_instance

theorem rows_1 : ∀ p, p < 4 → ∀ σ ∈ (List.range 2).permutations', ∃ row ∈ dofRow (nodes ℚ p 1) σ, RowOk (nodes ℚ p 1) 1 σ row := by decide +kernel

theorem rows_2 : ∀ p, p < 4 → ∀ σ ∈ (List.range 3).permutations', ∃ row ∈ dofRow (nodes ℚ p 2) σ, RowOk (nodes ℚ p 2) 2 σ row := by decide +kernel

theorem rows_3 : ∀ p, p < 4 → ∀ σ ∈ (List.range 4).permutations', ∃ row ∈ dofRow (nodes ℚ p 3) σ, RowOk (nodes ℚ p 3) 3 σ row := by decide +kernel

theorem rows (p d : Nat) (hp : p ≤ 3) (hd : 1 ≤ d) (hd3 : d ≤ 3) (σ : List Nat) (hσ : σ.Perm (List.range (d + 1))) :
    ∃ row, dofRow (nodes ℚ p d) σ = some row ∧ RowOk (nodes ℚ p d) d σ row := by
  interval_cases d
  · obtain ⟨row, h1, h2⟩ := rows_1 p (by omega) σ (List.mem_permutations'.2 hσ)
    exact ⟨row, h1, h2⟩
  · obtain ⟨row, h1, h2⟩ := rows_2 p (by omega) σ (List.mem_permutations'.2 hσ)
    exact ⟨row, h1, h2⟩
  · obtain ⟨row, h1, h2⟩ := rows_3 p (by omega) σ (List.mem_permutations'.2 hσ)
    exact ⟨row, h1, h2⟩

theorem copyDofs_spec (n shift lo hi : Nat) (row perm : List Nat) (hs : shift ≤ lo) (hh : n + hi ≤ perm.length + shift) :
    (copyDofs n shift lo hi row perm).length = perm.length ∧ ∀ t, (copyDofs n shift lo hi row perm).getD t 0 =
      if n + lo ≤ t + shift ∧ t + shift < n + hi then n + row.getD (t + shift - n) 0 else perm.getD t 0 := by
  have H : ∀ m, lo + m ≤ hi → ((List.range' lo m).foldl (fun perm k => perm.set (n + k - shift) (n + row.getD k 0)) perm).length = perm.length ∧
      ∀ t, ((List.range' lo m).foldl (fun perm k => perm.set (n + k - shift) (n + row.getD k 0)) perm).getD t 0 =
        if n + lo ≤ t + shift ∧ t + shift < n + (lo + m) then n + row.getD (t + shift - n) 0 else perm.getD t 0 := by
    intro m
    induction m with
    | zero =>
      intro _
      refine ⟨rfl, fun t => ?_⟩
      rw [if_neg (by omega)]
      rfl
    | succ m ih =>
      intro hm
      obtain ⟨h1, h2⟩ := ih (by omega)
      rw [List.range'_1_concat, List.foldl_append]
      simp only [List.foldl_cons, List.foldl_nil]
      refine ⟨by rw [List.length_set, h1], fun t => ?_⟩
      rw [getD_set _ _ _ _ (by rw [h1]; omega), h2]
      by_cases ht : t = n + (lo + m) - shift
      · subst ht
        rw [if_pos rfl, if_pos (by omega), show n + (lo + m) - shift + shift - n = lo + m by omega]
      · rw [if_neg ht]
        by_cases hc : n + lo ≤ t + shift ∧ t + shift < n + (lo + m)
        · rw [if_pos hc, if_pos (by omega)]
        · rw [if_neg hc, if_neg (by omega)]
  by_cases hlh : lo ≤ hi
  · have := H (hi - lo) (by omega)
    rw [show lo + (hi - lo) = hi by omega] at this
    exact this
  · unfold copyDofs forRange
    rw [show hi - lo = 0 by omega]
    refine ⟨rfl, fun t => ?_⟩
    rw [if_neg (by omega)]
    rfl

/-- The local dof written to position `n + i`. -/
def select (E : DoFMap.Element) (nv n num i : Nat) : Option Nat :=
  let v := E.perVertex
  let e := E.perEdge
  let f := E.perFace
  if num = 1 then (if v ≤ i + v ∧ i + v < n then some (i + v) else none)
  else if num = 2 then
    if nv * v + e ≤ i + (2 * v + e) ∧ i + (2 * v + e) < n then some (i + (2 * v + e))
    else if 2 * v ≤ i + 2 * v ∧ i + 2 * v < nv * v then some (i + 2 * v) else none
  else if num = 3 then
    if nv * v + 6 * e + f ≤ i + (3 * v + 3 * e + f) ∧ i + (3 * v + 3 * e + f) < n then some (i + (3 * v + 3 * e + f))
    else if nv * v + 3 * e ≤ i + (3 * v + 3 * e) ∧ i + (3 * v + 3 * e) < nv * v + 6 * e then some (i + (3 * v + 3 * e))
    else if 3 * v ≤ i + 3 * v ∧ i + 3 * v < nv * v then some (i + 3 * v) else none
  else none

theorem secondDofs_spec (E : DoFMap.Element) (nv n num : Nat) (row perm : List Nat) (hnv : num ≤ nv) (hlen : perm.length = 2 * n) (hn : nv * E.perVertex ≤ n)
    (h3 : num = 3 → nv * E.perVertex + 6 * E.perEdge ≤ n) :
    (∀ t, t < n → (secondDofs E nv n num row perm).getD t 0 = perm.getD t 0) ∧
    ∀ i k, select E nv n num i = some k → (secondDofs E nv n num row perm).getD (n + i) 0 = n + row.getD k 0 := by
  have hv : num * E.perVertex ≤ nv * E.perVertex := Nat.mul_le_mul_right _ hnv
  unfold secondDofs select
  dsimp only
  split
  · rename_i h
    subst h
    have h1 := copyDofs_spec n E.perVertex E.perVertex n row perm le_rfl (by omega)
    refine ⟨fun t ht => ?_, fun i k hk => ?_⟩
    · rw [h1.2, if_neg (by omega)]
    · rw [h1.2]
      split at hk
      · rw [Option.some.injEq] at hk
        rw [if_pos (by omega), ← hk]; congr 2; omega
      · simp at hk
  split
  · rename_i h
    subst h
    have h1 := copyDofs_spec n (2 * E.perVertex) (2 * E.perVertex) (nv * E.perVertex) row perm le_rfl (by omega)
    have h2 := copyDofs_spec n (2 * E.perVertex + E.perEdge) (nv * E.perVertex + E.perEdge) n row _ (by omega) (by rw [h1.1]; omega)
    refine ⟨fun t ht => ?_, fun i k hk => ?_⟩
    · rw [h2.2, if_neg (by omega), h1.2, if_neg (by omega)]
    · rw [h2.2, h1.2]
      split at hk
      · rw [Option.some.injEq] at hk
        rw [if_pos (by omega), ← hk]; congr 2; omega
      rw [if_neg (by omega)]
      split at hk
      · rw [Option.some.injEq] at hk
        rw [if_pos (by omega), ← hk]; congr 2; omega
      · simp at hk
  split
  · rename_i h
    have h3 := h3 h
    subst h
    have h1 := copyDofs_spec n (3 * E.perVertex) (3 * E.perVertex) (nv * E.perVertex) row perm le_rfl (by omega)
    have h2 := copyDofs_spec n (3 * E.perVertex + 3 * E.perEdge) (nv * E.perVertex + 3 * E.perEdge) (nv * E.perVertex + 6 * E.perEdge) row _ (by omega) (by rw [h1.1]; omega)
    have h3 := copyDofs_spec n (3 * E.perVertex + 3 * E.perEdge + E.perFace) (nv * E.perVertex + 6 * E.perEdge + E.perFace) n row _ (by omega) (by rw [h2.1, h1.1]; omega)
    refine ⟨fun t ht => ?_, fun i k hk => ?_⟩
    · rw [h3.2, if_neg (by omega), h2.2, if_neg (by omega), h1.2, if_neg (by omega)]
    · rw [h3.2, h2.2, h1.2]
      split at hk
      · rw [Option.some.injEq] at hk
        rw [if_pos (by omega), ← hk]; congr 2; omega
      rw [if_neg (by omega)]
      split at hk
      · rw [Option.some.injEq] at hk
        rw [if_pos (by omega), ← hk]; congr 2; omega
      rw [if_neg (by omega)]
      split at hk
      · rw [Option.some.injEq] at hk
        rw [if_pos (by omega), ← hk]; congr 2; omega
      · simp at hk
  · exact ⟨fun _ _ => rfl, fun i k hk => by simp at hk⟩

/-- The local dofs that are not on the simplex of the first `m` vertices, in order. -/
def off (nodes : List (List ℚ)) (d m : Nat) : List Nat :=
  (List.range nodes.length).filter fun k => decide (∃ j, j < d + 1 ∧ m ≤ j ∧ (nodes.getD k []).getD j 0 ≠ 0)

theorem select_off : ∀ d, d < 3 → ∀ p, p < 4 → ∀ m, m < d + 1 → ∀ i, i < (off (nodes ℚ p (d + 1)) (d + 1) (m + 1)).length →
    select (element p (d + 1)) (d + 2) (nodes ℚ p (d + 1)).length (m + 1) i = some ((off (nodes ℚ p (d + 1)) (d + 1) (m + 1)).getD i 0) := by decide +kernel

theorem off_pos : ∀ d, d < 3 → ∀ p, p < 4 → ∀ m, m < d + 1 → 0 < (off (nodes ℚ p (d + 1)) (d + 1) (m + 1)).length := by decide +kernel

theorem counts : ∀ d, d < 3 → ∀ p, p < 4 → (d + 2) * (element p (d + 1)).perVertex ≤ (nodes ℚ p (d + 1)).length ∧
    (d = 2 → (d + 2) * (element p (d + 1)).perVertex + 6 * (element p (d + 1)).perEdge ≤ (nodes ℚ p (d + 1)).length) := by decide +kernel

section
variable {K : Type} [Field K] [LinearOrder K] [IsStrictOrderedRing K]

open Interaction in
omit [LinearOrder K] [IsStrictOrderedRing K] in
theorem distance_sum (dim : Nat) (x y : Nat → K) : forRange 0 dim 0 (fun d2 j => d2 + (x j - y j) ^ 2) = euclid2 dim x y := by
  induction dim with
  | zero => simp [forRange, euclid2]
  | succ n ih => rw [forRange_succ, ih, euclid2, euclid2, Finset.sum_range_succ]

omit [Field K] [IsStrictOrderedRing K] in
theorem min_max_fold {α : Type} (l : List α) (f : α → K) (d : K × K) (h : K) :
    (h ≤ (l.foldl (fun d a => (min d.1 (f a), max d.2 (f a))) d).1 ↔ h ≤ d.1 ∧ ∀ a ∈ l, h ≤ f a) ∧
    ((l.foldl (fun d a => (min d.1 (f a), max d.2 (f a))) d).2 ≤ h ↔ d.2 ≤ h ∧ ∀ a ∈ l, f a ≤ h) := by
  induction l generalizing d with
  | nil => simp
  | cons a l ih =>
    rw [List.foldl_cons, (ih _).1, (ih _).2]
    simp only [le_min_iff, max_le_iff, List.mem_cons, forall_eq_or_imp]
    tauto

open Interaction in
theorem extreme_spec (dim n1 n2 : Nat) (inf h : K) (s1 s2 : Nat → Nat → K) :
    (h ≤ (extremeDistances dim n1 n2 inf s1 s2).1 ↔ h ≤ inf ∧ ∀ i k, i < n1 → k < n2 → h ≤ euclid2 dim (s1 i) (s2 k)) ∧
    ((extremeDistances dim n1 n2 inf s1 s2).2 ≤ h ↔ 0 ≤ h ∧ ∀ i k, i < n1 → k < n2 → euclid2 dim (s1 i) (s2 k) ≤ h) := by
  have e : extremeDistances dim n1 n2 inf s1 s2 = ((List.range n1).flatMap fun i => (List.range n2).map fun k => (i, k)).foldl
      (fun d a => (min d.1 (euclid2 dim (s1 a.1) (s2 a.2)), max d.2 (euclid2 dim (s1 a.1) (s2 a.2)))) (inf, 0) := by
    unfold extremeDistances
    dsimp only
    simp only [distance_sum]
    unfold forRange
    simp only [List.foldl_flatMap, List.foldl_map, Nat.sub_zero, List.range_eq_range']
  rw [e, (min_max_fold _ _ _ _).1, (min_max_fold _ _ _ _).2]
  simp only [List.mem_flatMap, List.mem_map, List.mem_range]
  constructor
  · refine and_congr_right fun _ => ⟨fun h i k hi hk => h (i, k) ⟨i, hi, k, hk, rfl⟩, ?_⟩
    rintro h _ ⟨i, hi, k, hk, rfl⟩
    exact h i k hi hk
  · refine and_congr_right fun _ => ⟨fun h i k hi hk => h (i, k) ⟨i, hi, k, hk, rfl⟩, ?_⟩
    rintro h _ ⟨i, hi, k, hk, rfl⟩
    exact h i k hi hk

end

end PyNucleus.PanelType
