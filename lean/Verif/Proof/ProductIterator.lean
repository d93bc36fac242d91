import Verif.Model.ProductIterator

/-! Helper lemmas for the product iterator. -/

namespace PyNucleus.ProductIterator

/-- All tuples with entries in `[0, m)` in lexicographic order. -/
def allTuples (m : Nat) : Nat → List (List Int)
  | 0 => [[]]
  | d + 1 => (List.range m).flatMap fun x : Nat => (allTuples m d).map fun t => (x : Int) :: t

theorem carry_cons (m x : Int) : ∀ (i : Nat) (t : List Int), i < t.length →
    carry m (x :: t) (i + 1) =
      match carry m t i with
      | (t', true) => (x :: t', true)
      | (t', false) => if x + 1 = m then (0 :: t', false) else ((x + 1) :: t', true) := by
  intro i
  induction i with
  | zero =>
    intro t ht
    rw [carry, carry]
    simp only [List.getD_cons_succ]
    by_cases h : t.getD 0 0 = m
    · rw [if_pos h, if_pos h]
      simp only [List.set_cons_succ, List.modify_zero_cons, carry, List.getD_cons_zero,
        List.set_cons_zero]
    · rw [if_neg h, if_neg h]
  | succ i ih =>
    intro t ht
    rw [carry]
    conv => rhs; rw [carry]
    simp only [List.getD_cons_succ]
    by_cases h : t.getD (i + 1) 0 = m
    · rw [if_pos h, if_pos h]
      simp only [List.set_cons_succ, List.modify_succ_cons]
      rw [ih _ (by simp; omega)]
    · rw [if_neg h, if_neg h]

theorem step_cons (m x : Int) (t : List Int) (ht : t ≠ []) :
    step m (x :: t) =
      match step m t with
      | (t', true) => (x :: t', true)
      | (t', false) => if x + 1 = m then (0 :: t', false) else ((x + 1) :: t', true) := by
  have hl : 0 < t.length := List.length_pos_iff.2 ht
  unfold step
  rw [List.length_cons, Nat.add_sub_cancel]
  obtain ⟨k, hk⟩ : ∃ k, t.length = k + 1 := ⟨t.length - 1, by omega⟩
  rw [hk, List.modify_succ_cons, Nat.add_sub_cancel, carry_cons]
  simp; omega

/-- `Yields m s l e`: stepping from `s` produces the arrays `l` and then reports the end,
leaving the array `e`. -/
inductive Yields (m : Int) : List Int → List (List Int) → List Int → Prop where
  | stop {s e} : step m s = (e, false) → Yields m s [] e
  | next {s u l e} : step m s = (u, true) → Yields m u l e → Yields m s (u :: l) e

theorem drain_of_yields {m : Int} {s : List Int} {l : List (List Int)} {e : List Int}
    (h : Yields m s l e) : drain m (l.length + 1) s = some l := by
  induction h with
  | stop h => rw [drain, h]
  | next h _ ih => rw [List.length_cons, drain, h]; simp only [ih]; rfl

/-- Stepping through the tails with a fixed first entry `x`, then the carry into `x`. -/
theorem yields_cons {m x : Int} {s : List Int} {l : List (List Int)} {e : List Int}
    (hs : s ≠ []) (hl : ∀ u ∈ l, u ≠ [])
    (h : Yields m s l e) :
    (x + 1 = m → Yields m (x :: s) (l.map (x :: ·)) (0 :: e)) ∧
    (∀ l' e', x + 1 ≠ m → Yields m ((x + 1) :: e) l' e' →
      Yields m (x :: s) (l.map (x :: ·) ++ ((x + 1) :: e) :: l') e') := by
  induction h with
  | stop h =>
    refine ⟨fun hx => ?_, fun l' e' hx hy => ?_⟩
    · refine Yields.stop ?_
      rw [step_cons _ _ _ hs, h]; simp [hx]
    · refine Yields.next ?_ hy
      rw [step_cons _ _ _ hs, h]; simp [hx]
  | @next s u l e h _ ih =>
    have ih := ih (hl u (by simp)) (fun v hv => hl v (List.mem_cons_of_mem _ hv))
    refine ⟨fun hx => ?_, fun l' e' hx hy => ?_⟩
    · refine Yields.next ?_ (ih.1 hx)
      rw [step_cons _ _ _ hs, h]
    · refine Yields.next ?_ (ih.2 l' e' hx hy)
      rw [step_cons _ _ _ hs, h]

theorem allTuples_ne_nil {m d : Nat} : ∀ u ∈ allTuples m (d + 1), u ≠ [] := by
  intro u hu
  simp only [allTuples, List.mem_flatMap, List.mem_map] at hu
  obtain ⟨_, _, _, _, rfl⟩ := hu
  simp

theorem yields_all (m : Nat) (hm : 0 < m) : ∀ d, ∃ rest,
    allTuples m (d + 1) = List.replicate (d + 1) 0 :: rest ∧
      Yields m (List.replicate (d + 1) 0) rest (List.replicate (d + 1) 0) := by
  intro d
  induction d with
  | zero =>
    -- one digit: values x, x+1, ..., m-1
    have key : ∀ r x : Nat, x + 1 + r = m →
        Yields m [(x : Int)] ((List.range' (x + 1) r).map fun y : Nat => [(y : Int)]) [0] := by
      intro r
      induction r with
      | zero =>
        intro x hx
        refine Yields.stop ?_
        have : (x : Int) + 1 = m := by omega
        simp [step, carry, this]
      | succ r ih =>
        intro x hx
        rw [List.range'_succ, List.map_cons]
        refine Yields.next ?_ (ih (x + 1) (by omega))
        have : ¬ ((x : Int) + 1 = m) := by omega
        simp [step, carry, this]
    refine ⟨(List.range' 1 (m - 1)).map fun y : Nat => [(y : Int)], ?_, ?_⟩
    · simp only [allTuples, List.map_cons, List.map_nil]
      rw [List.range_eq_range', show m = (m - 1) + 1 by omega, List.range'_succ]
      simp [List.map_eq_flatMap]
    · have := key (m - 1) 0 (by omega)
      simpa using this
  | succ d ih =>
    obtain ⟨rest, h1, h2⟩ := ih
    have hne : List.replicate (d + 1) (0 : Int) ≠ [] := by simp
    have hrest : ∀ u ∈ rest, u ≠ [] := fun u hu =>
      allTuples_ne_nil u (by rw [h1]; exact List.mem_cons_of_mem _ hu)
    have key : ∀ r x : Nat, x + 1 + r = m →
        Yields m ((x : Int) :: List.replicate (d + 1) 0)
          (rest.map ((x : Int) :: ·) ++ (List.range' (x + 1) r).flatMap
            fun y : Nat => (allTuples m (d + 1)).map fun t => (y : Int) :: t)
          (0 :: List.replicate (d + 1) 0) := by
      intro r
      induction r with
      | zero =>
        intro x hx
        simpa using (yields_cons hne hrest h2).1 (show (x : Int) + 1 = m by omega)
      | succ r ih =>
        intro x hx
        rw [List.range'_succ, List.flatMap_cons, h1, List.map_cons]
        refine (yields_cons hne hrest h2).2 _ _ (show ¬ ((x : Int) + 1 = m) by omega) ?_
        have := ih (x + 1) (by omega)
        rw [h1] at this
        simpa using this
    refine ⟨rest.map ((0 : Int) :: ·) ++ (List.range' 1 (m - 1)).flatMap
            fun y : Nat => (allTuples m (d + 1)).map fun t => (y : Int) :: t, ?_, ?_⟩
    · rw [allTuples, List.range_eq_range']
      conv => lhs; rw [show m = (m - 1) + 1 by omega, List.range'_succ]
      rw [show m - 1 + 1 = m by omega, List.flatMap_cons, h1]
      simp [List.replicate_succ]
    · have := key (m - 1) 0 (by omega)
      simpa [List.replicate_succ] using this

theorem step_reset (m : Nat) (hm : 0 < m) (d : Nat) :
    step m (reset (d + 1)) = (List.replicate (d + 1) 0, true) := by
  have : ∀ d, step m (List.replicate d (0 : Int) ++ [-1]) = (List.replicate (d + 1) 0, true) := by
    intro d
    induction d with
    | zero => simp [step, carry]; omega
    | succ d ih =>
      rw [List.replicate_succ, List.cons_append, step_cons _ _ _ (by simp), ih]
      simp [List.replicate_succ]
  simpa [reset] using this d

theorem allTuples_mem (m : Nat) : ∀ d (t : List Int), t ∈ allTuples m d ↔
    t.length = d ∧ ∀ x ∈ t, 0 ≤ x ∧ x < m := by
  intro d
  induction d with
  | zero => 
    intro t
    simp only [allTuples, List.mem_singleton]
    constructor
    · rintro rfl; simp
    · exact fun h => List.length_eq_zero_iff.1 h.1
  | succ d ih =>
    intro t
    simp only [allTuples, List.mem_flatMap, List.mem_range, List.mem_map, ih]
    constructor
    · rintro ⟨x, hx, u, ⟨h1, h2⟩, rfl⟩
      refine ⟨by simp [h1], ?_⟩
      intro y hy
      rcases List.mem_cons.1 hy with rfl | hy
      · omega
      · exact h2 y hy
    · rintro ⟨h1, h2⟩
      cases t with
      | nil => simp at h1
      | cons x u =>
        have hx := h2 x (by simp)
        refine ⟨x.toNat, by omega, u, ⟨by simpa using h1, fun y hy => h2 y (List.mem_cons_of_mem _ hy)⟩, ?_⟩
        rw [Int.toNat_of_nonneg hx.1]

theorem allTuples_length (m : Nat) : ∀ d, (allTuples m d).length = m ^ d := by
  intro d
  induction d with
  | zero => rfl
  | succ d ih =>
    simp only [allTuples, List.length_flatMap, List.length_map, ih]
    rw [List.map_const', List.sum_replicate_nat, List.length_range, Nat.pow_succ, Nat.mul_comm]

/-- Strict lexicographic order. -/
def Lex : List Int → List Int → Prop
  | [], [] => False
  | [], _ :: _ => True
  | _ :: _, [] => False
  | x :: t, y :: u => x < y ∨ (x = y ∧ Lex t u)

theorem allTuples_sorted (m : Nat) : ∀ d, (allTuples m d).Pairwise Lex := by
  intro d
  induction d with
  | zero => simp [allTuples]
  | succ d ih =>
    rw [allTuples, List.flatMap_def, List.pairwise_flatten]
    refine ⟨?_, ?_⟩
    · intro l hl
      obtain ⟨x, _, rfl⟩ := List.mem_map.1 hl
      rw [List.pairwise_map]
      exact ih.imp (fun h => Or.inr ⟨rfl, h⟩)
    · rw [List.pairwise_map]
      refine List.pairwise_lt_range.imp ?_
      intro a b hab u hu v hv
      obtain ⟨u', _, rfl⟩ := List.mem_map.1 hu
      obtain ⟨v', _, rfl⟩ := List.mem_map.1 hv
      exact Or.inl (by omega)

end PyNucleus.ProductIterator
