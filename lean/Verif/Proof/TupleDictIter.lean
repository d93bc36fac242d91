import Verif.Proof.TupleDict

/-! Iteration over a `tupleDict`. -/

namespace PyNucleus.TupleDict

open PyNucleus.SortedRow PyNucleus.Spec

variable {V : Type}

/-- Items of one row. -/
def rowItems (r : Row V) (i : Nat) : List ((Nat × Int) × V) := r.live.map fun p => ((i, p.1), p.2)

/-- Items of the rows from `i` on. -/
def itemsFrom (rows : List (Row V)) (i : Nat) : List ((Nat × Int) × V) :=
  if h : i < rows.length then rowItems rows[i] i ++ itemsFrom rows (i + 1) else []
termination_by rows.length - i

theorem itemsFrom_lt {rows : List (Row V)} {i : Nat} (h : i < rows.length) :
    itemsFrom rows i = rowItems rows[i] i ++ itemsFrom rows (i + 1) := by
  rw [itemsFrom]; simp [h]

theorem itemsFrom_ge {rows : List (Row V)} {i : Nat} (h : rows.length ≤ i) :
    itemsFrom rows i = [] := by
  rw [itemsFrom]; simp [Nat.not_lt.2 h]

theorem skipEmpty_spec (rows : List (Row V)) (i : Nat) :
    itemsFrom rows (skipEmpty rows i) = itemsFrom rows i ∧ i ≤ skipEmpty rows i ∧
      ∀ h : skipEmpty rows i < rows.length, rows[skipEmpty rows i].count ≠ 0 := by
  fun_induction skipEmpty rows i with
  | case1 i h h0 ih =>
    refine ⟨?_, by omega, ih.2.2⟩
    rw [ih.1, itemsFrom_lt h]
    simp [rowItems, Row.live, h0]
  | case2 i h h0 => exact ⟨rfl, Nat.le_refl _, fun _ => h0⟩
  | case3 i h => exact ⟨rfl, Nat.le_refl _, fun h' => absurd h' h⟩

theorem iterate_row (d : Dict V) (i : Nat) (h : i < d.rows.length) (hwf : d.rows[i].WF) :
    ∀ (k jj fuel : Nat), jj + k = d.rows[i].count → 0 < k →
      iterate d (k + fuel) ⟨i, jj⟩ =
        (iterate d fuel ⟨skipEmpty d.rows (i + 1), 0⟩).map fun p =>
          ((rowItems d.rows[i] i).drop jj ++ p.1, p.2) := by
  intro k
  induction k with
  | zero => intro jj fuel _ h0; omega
  | succ k ih =>
    intro jj fuel hjj _
    have hlt : jj < d.rows[i].count := by omega
    have hbuf : jj < d.rows[i].buf.length := by have := hwf.count_le; omega
    have hitem : (rowItems d.rows[i] i)[jj]? =
        some ((i, (d.rows[i].buf[jj]).1), (d.rows[i].buf[jj]).2) := by
      unfold rowItems Row.live
      rw [List.getElem?_map, List.getElem?_take_of_lt hlt, List.getElem?_eq_getElem hbuf]
      rfl
    have hlen : (rowItems d.rows[i] i).length = d.rows[i].count := by
      unfold rowItems; rw [List.length_map, hwf.live_length]
    have hdrop : (rowItems d.rows[i] i).drop jj =
        ((i, (d.rows[i].buf[jj]).1), (d.rows[i].buf[jj]).2) :: (rowItems d.rows[i] i).drop (jj + 1) := by
      rw [List.drop_eq_getElem_cons (by omega)]
      rw [List.getElem?_eq_getElem (by omega)] at hitem
      rw [Option.some.inj hitem]
    rw [show k + 1 + fuel = (k + fuel) + 1 by omega, iterate, next]
    simp only [List.getElem?_eq_getElem h, List.getElem?_eq_getElem hbuf]
    by_cases hk : k = 0
    · subst hk
      rw [if_neg (by omega)]
      simp only [Nat.zero_add]
      have hnil : (rowItems d.rows[i] i).drop (jj + 1) = [] := by
        apply List.drop_eq_nil_of_le; omega
      rw [hdrop, hnil]
      cases iterate d fuel ⟨skipEmpty d.rows (i + 1), 0⟩ <;> simp
    · rw [if_pos (by omega)]
      simp only
      rw [ih (jj + 1) fuel (by omega) (by omega), hdrop]
      cases iterate d fuel ⟨skipEmpty d.rows (i + 1), 0⟩ <;> simp

theorem iterate_from (d : Dict V) (hwf : ∀ i (h : i < d.rows.length), d.rows[i].WF) :
    ∀ (n i fuel : Nat), d.rows.length - i = n → (itemsFrom d.rows i).length < fuel →
      iterate d fuel ⟨skipEmpty d.rows i, 0⟩ = some (itemsFrom d.rows i, true) := by
  intro n
  induction n using Nat.strongRecOn with
  | _ n ih =>
    intro i fuel hn hfuel
    obtain ⟨h1, h2, h3⟩ := skipEmpty_spec d.rows i
    obtain ⟨fuel, rfl⟩ : ∃ f, fuel = f + 1 := ⟨fuel - 1, by omega⟩
    by_cases h : skipEmpty d.rows i < d.rows.length
    · have hc := h3 h
      have hit := itemsFrom_lt h
      rw [h1] at hit
      have hlen : (rowItems d.rows[skipEmpty d.rows i] (skipEmpty d.rows i)).length =
          d.rows[skipEmpty d.rows i].count := by
        unfold rowItems; rw [List.length_map, (hwf _ h).live_length]
      have hsum := congrArg List.length hit
      rw [List.length_append, hlen] at hsum
      have := iterate_row d _ h (hwf _ h) d.rows[skipEmpty d.rows i].count 0
        (fuel + 1 - d.rows[skipEmpty d.rows i].count) (by omega) (by omega)
      rw [show d.rows[skipEmpty d.rows i].count + (fuel + 1 - d.rows[skipEmpty d.rows i].count)
        = fuel + 1 by omega] at this
      rw [this, ih (d.rows.length - (skipEmpty d.rows i + 1)) (by omega) _ _ rfl (by omega)]
      rw [Option.map_some, List.drop_zero, ← hit]
    · have hnone : d.rows[skipEmpty d.rows i]? = none := by
        rw [List.getElem?_eq_none_iff]; omega
      rw [itemsFrom_ge (by omega)] at h1
      rw [iterate, next, ← h1]
      simp only [hnone]

theorem itemsFrom_mem (rows : List (Row V)) (k : Nat × Int) (v : V) :
    ∀ (n i : Nat), rows.length - i = n →
      ((k, v) ∈ itemsFrom rows i ↔ i ≤ k.1 ∧ ∃ h : k.1 < rows.length, (k.2, v) ∈ rows[k.1].live) := by
  intro n
  induction n with
  | zero =>
    intro i hi
    rw [itemsFrom_ge (by omega)]
    simp only [List.not_mem_nil, false_iff, not_and, not_exists]
    intro h1 h2; omega
  | succ n ih =>
    intro i hi
    rw [itemsFrom_lt (by omega), List.mem_append, ih (i + 1) (by omega)]
    unfold rowItems
    rw [List.mem_map]
    constructor
    · rintro (⟨p, hp, he⟩ | ⟨h1, h2⟩)
      · obtain ⟨hk, hv⟩ := Prod.mk.inj he
        subst hk; subst hv
        exact ⟨Nat.le_refl _, by omega, hp⟩
      · exact ⟨by omega, h2⟩
    · rintro ⟨h1, h2, h3⟩
      by_cases hik : i = k.1
      · subst hik
        exact Or.inl ⟨_, h3, rfl⟩
      · exact Or.inr ⟨by omega, h2, h3⟩

/-- Lexicographic order on keys. -/
def LexLt (a b : Nat × Int) : Prop := a.1 < b.1 ∨ (a.1 = b.1 ∧ a.2 < b.2)

theorem itemsFrom_sorted (rows : List (Row V)) (hwf : ∀ i (h : i < rows.length), rows[i].WF) :
    ∀ (n i : Nat), rows.length - i = n →
      (itemsFrom rows i).Pairwise (fun a b => LexLt a.1 b.1) := by
  intro n
  induction n with
  | zero =>
    intro i hi
    rw [itemsFrom_ge (by omega)]
    exact List.Pairwise.nil
  | succ n ih =>
    intro i hi
    rw [itemsFrom_lt (by omega), List.pairwise_append]
    refine ⟨?_, ih (i + 1) (by omega), ?_⟩
    · unfold rowItems
      rw [List.pairwise_map]
      exact (hwf i (by omega)).live_sorted.imp (fun h => Or.inr ⟨rfl, h⟩)
    · intro a ha b hb
      unfold rowItems at ha
      obtain ⟨p, _, rfl⟩ := List.mem_map.1 ha
      obtain ⟨kb, vb⟩ := b
      have := (itemsFrom_mem rows kb vb n (i + 1) (by omega)).1 hb
      exact Or.inl (by show i < kb.1; omega)

theorem itemsFrom_data (rows : List (Row V)) :
    ∀ (n i : Nat), rows.length - i = n →
      (itemsFrom rows i).map (fun p => (p.1.2, p.2)) =
        ((rows.drop i).map fun r => r.buf.take r.count).flatten := by
  intro n
  induction n with
  | zero =>
    intro i hi
    rw [itemsFrom_ge (by omega), List.drop_eq_nil_of_le (show rows.length ≤ i by omega)]
    rfl
  | succ n ih =>
    intro i hi
    rw [itemsFrom_lt (by omega), List.map_append, ih (i + 1) (by omega),
      List.drop_eq_getElem_cons (show i < rows.length by omega), List.map_cons, List.flatten_cons]
    congr 1
    unfold rowItems Row.live
    rw [List.map_map]
    exact List.map_id _

theorem itemsFrom_length (d : Dict V) (hwf : ∀ i (h : i < d.rows.length), d.rows[i].WF) :
    (itemsFrom d.rows 0).length = (d.rows.map Row.count).sum := by
  have h := congrArg List.length (itemsFrom_data d.rows _ 0 rfl)
  rw [List.length_map, List.drop_zero, List.length_flatten, List.map_map] at h
  rw [h]
  congr 1
  apply List.map_congr_left
  intro r hr
  obtain ⟨i, hi, rfl⟩ := List.mem_iff_getElem.1 hr
  exact (hwf i hi).live_length

/-- Splitting concatenated rows by their lengths. -/
theorem splitCounts_flatten : ∀ (L : List (List (Int × V))),
    splitCounts (L.map List.length) L.flatten =
      L.map fun l => { buf := l, count := l.length, length := l.length }
  | [] => rfl
  | l :: L => by
    simp only [List.map_cons, List.flatten_cons, splitCounts, List.take_left, List.drop_left,
      splitCounts_flatten L]

theorem rel_setState {n : Nat} {d : Dict V} {m : EdgeMap V} (h : Rel n d m) :
    Rel n (setState (getState d)) m := by
  have hcount : d.rows.map Row.count = (d.rows.map Row.live).map List.length := by
    rw [List.map_map]
    apply List.map_congr_left
    intro r hr
    obtain ⟨i, hi, rfl⟩ := List.mem_iff_getElem.1 hr
    exact (h.wf i hi).live_length.symm
  have hrows : (setState (getState d)).rows =
      d.rows.map fun r => { buf := r.live, count := r.live.length, length := r.live.length } := by
    simp only [setState, getState, getData, hcount]
    refine (splitCounts_flatten (d.rows.map Row.live)).trans ?_
    rw [List.map_map]
    rfl
  refine ⟨by rw [hrows, List.length_map, h.len], ?_, ?_, h.out, ?_⟩
  · intro i hi
    simp only [hrows, List.getElem_map]
    have hi' : i < d.rows.length := by rw [hrows, List.length_map] at hi; exact hi
    refine ⟨Nat.le_refl _, rfl, ?_⟩
    refine (sorted_iff _ _ (Nat.le_refl _)).2 ?_
    simp only [List.take_length]
    exact (h.wf i hi').live_sorted
  · intro i hi J v
    have hi' : i < d.rows.length := by rw [hrows, List.length_map] at hi; exact hi
    simp only [hrows, List.getElem_map]
    rw [← h.repr i hi' J v]
    show (J, v) ∈ d.rows[i].live.take d.rows[i].live.length ↔ _
    rw [List.take_length]
  · rw [hrows]
    simp only [setState, getState, getData, List.length_flatten, List.map_map]
    rfl

end PyNucleus.TupleDict
