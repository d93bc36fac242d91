import Verif.Proof.Timers
import Mathlib.Algebra.Order.Ring.Int

/-!
# C105: timers and the values they enter in the logger
-/

namespace PyNucleus.Props.C105

open PyNucleus.Timers PyNucleus.Spec.Timers

variable {K : Type} [AddCommGroup K]

/-- The interval of a timer that is not running is the time it ran, whatever the other timers do and
however often it was used. -/
theorem interval (key : Nat → Nat) (manual : Nat → Bool) (evs : List (Event K)) (h : Proper evs)
    (t : Nat) (hc : starts t evs = stops t evs) :
    (run key manual evs).elapsed t = spentBy t evs := by
  rcases elapsed_inv key manual t evs h with ⟨_, h2⟩ | ⟨h1, _⟩
  · exact h2
  · omega

/-- The logger holds under a key, in the order of the events, one value for each end of a timer with this
key, unless its data is entered by hand, and for each `enterData`: the time the timer has run so far. -/
theorem values (key : Nat → Nat) (manual : Nat → Bool) (evs : List (Event K)) (h : Proper evs)
    (he : ∀ e ∈ evs, isEmpty e = false) (k : Nat) :
    (run key manual evs).get k = entries key manual k evs := get_run key manual k evs h he

/-- The number of values is the number of calls. -/
theorem calls (key : Nat → Nat) (manual : Nat → Bool) (evs : List (Event K)) (h : Proper evs)
    (he : ∀ e ∈ evs, isEmpty e = false) (k : Nat) :
    ((run key manual evs).get k).length = evs.countP fun e => (enters key manual k e).isSome := by
  rw [get_run key manual k evs h he, length_entries]

/-- Wanted: the sum of the values of a key (which the report prints) is the time its timers ran. Proved if
each of these timers is used once. -/
theorem total_partial (key : Nat → Nat) (manual : Nat → Bool) (evs : List (Event K)) (h : Proper evs)
    (he : ∀ e ∈ evs, isEmpty e = false) (k : Nat) (hm : ∀ t, key t = k → manual t = false)
    (hn : ∀ t, Event.enter t ∈ evs → key t ≠ k) (ho : ∀ t, key t = k → starts t evs ≤ 1)
    (hc : ∀ t, key t = k → starts t evs = stops t evs) :
    ((run key manual evs).get k).sum = spent (fun t => key t == k) evs := by
  rw [get_run key manual k evs h he, sum_once key manual k evs h hm hn ho,
    openPart_closed _ evs fun t ht => hc t (by simpa using ht), add_zero]

/-- A timer that is used twice enters the time of its first use again. -/
theorem total_fails : ¬ ∀ (key : Nat → Nat) (manual : Nat → Bool) (evs : List (Event Int)), Proper evs →
    (∀ e ∈ evs, isEmpty e = false) → ∀ k, (∀ t, key t = k → manual t = false) →
    (∀ t, Event.enter t ∈ evs → key t ≠ k) → (∀ t, key t = k → starts t evs = stops t evs) →
    ((run key manual evs).get k).sum = spent (fun t => key t == k) evs := by
  intro hall
  have h := hall (fun _ => 0) (fun _ => false) [.start 0 0, .stop 0 5, .start 0 7, .stop 0 8] ?_ ?_ 0
    (fun _ _ => rfl) ?_ ?_
  · exact absurd h (by decide)
  · intro l e r hl
    match l, hl with
    | [], hl => cases hl; rfl
    | [_], hl => cases hl; rfl
    | [_, _], hl => cases hl; rfl
    | [_, _, _], hl => cases hl; rfl
    | _ :: _ :: _ :: _ :: l, hl => cases l <;> cases hl
  · intro e he
    simp only [List.mem_cons, List.not_mem_nil, or_false] at he
    rcases he with rfl | rfl | rfl | rfl <;> rfl
  · intro t ht
    simp at ht
  · intro t _
    by_cases ht : 0 = t <;> simp [starts, stops, isStart, isStop, ht]

/-- A timer whose data is entered by hand once, at the end, gives the time of all of its uses. -/
theorem by_hand (key : Nat → Nat) (manual : Nat → Bool) (evs : List (Event K)) (t : Nat)
    (h : Proper (evs ++ [.enter t])) (he : ∀ e ∈ evs, isEmpty e = false)
    (hk : ∀ e ∈ evs, enters key manual (key t) e = none) :
    (run key manual (evs ++ [.enter t])).get (key t) = [spentBy t evs] := by
  rw [get_run key manual (key t) _ h (by
    intro e hm
    rcases List.mem_append.1 hm with hm | hm
    · exact he e hm
    · rw [List.mem_singleton.1 hm]; rfl), entries_append]
  have h0 : entries key manual (key t) evs = [] := by
    apply List.eq_nil_of_length_eq_zero
    rw [length_entries, List.countP_eq_zero]
    intro e hm; simp [hk e hm]
  rw [h0]
  simp [enters, spentBy, spent, signed]

/-- `empty` removes the values that were entered before and no others. -/
theorem emptied (key : Nat → Nat) (manual : Nat → Bool) (l r : List (Event K))
    (he : ∀ e ∈ r, isEmpty e = false) (k : Nat) :
    (run key manual (l ++ r)).get k =
      (run key manual l).get k ++ (run key manual (l ++ .empty :: r)).get k := by
  have h := get_suffix key manual k r he (step key manual (run key manual l) .empty)
    (run key manual l) rfl rfl rfl
  obtain ⟨x, h1, h2⟩ := h
  simp only [run, List.foldl_append, List.foldl_cons] at *
  rw [h2, h1]

/-- Each key is there once, and a key is there if and only if it has values. -/
theorem keys (key : Nat → Nat) (manual : Nat → Bool) (evs : List (Event K)) :
    ((run key manual evs).values.map Prod.fst).Nodup ∧
    ∀ k, k ∈ (run key manual evs).values.map Prod.fst ↔ (run key manual evs).get k ≠ [] := by
  have hadd : ∀ (d : List (Nat × List K)) (k : Nat) (x : K), (d.map Prod.fst).Nodup →
      (∀ k', k' ∈ d.map Prod.fst ↔ (d.lookup k').getD [] ≠ []) →
      ((addValue d k x).map Prod.fst).Nodup ∧
      ∀ k', k' ∈ (addValue d k x).map Prod.fst ↔ ((addValue d k x).lookup k').getD [] ≠ [] := by
    intro d k x hd hl
    rw [nodup_addValue d k x hd]
    constructor
    · split
      · exact hd
      · rename_i hk
        exact List.nodup_append.2 ⟨hd, by simp, by
          intro a ha b hb; rw [List.mem_singleton.1 hb]; rintro rfl; exact hk ha⟩
    · intro k'
      rw [lookup_addValue]
      by_cases hk : k' = k
      · subst hk
        rw [if_pos rfl]
        constructor
        · intro _; simp
        · intro _; split
          · assumption
          · simp
      · rw [if_neg hk, List.append_nil, ← hl k']
        split
        · rfl
        · simp [hk]
  unfold run
  have : ∀ (evs : List (Event K)) (s : State K), (s.values.map Prod.fst).Nodup →
      (∀ k, k ∈ s.values.map Prod.fst ↔ s.get k ≠ []) →
      ((evs.foldl (step key manual) s).values.map Prod.fst).Nodup ∧
      ∀ k, k ∈ (evs.foldl (step key manual) s).values.map Prod.fst ↔
        (evs.foldl (step key manual) s).get k ≠ [] := by
    intro evs
    induction evs with
    | nil => intro s h1 h2; exact ⟨h1, h2⟩
    | cons e evs ih =>
      intro s h1 h2
      have hs : ((step key manual s e).values.map Prod.fst).Nodup ∧
          ∀ k, k ∈ (step key manual s e).values.map Prod.fst ↔ (step key manual s e).get k ≠ [] := by
        cases e with
        | start t time => exact ⟨h1, h2⟩
        | stop t time =>
          cases hm : manual t
          · have := hadd s.values (key t) (s.elapsed t + (time - s.startTime t)) h1 h2
            simpa [step, State.get, hm] using this
          · simpa [step, State.get, hm] using And.intro h1 h2
        | enter t => exact hadd s.values (key t) (s.elapsed t) h1 h2
        | empty => simp [step, State.get]
      exact ih _ hs.1 hs.2
  exact this evs initial (by simp [initial]) (by simp [initial, State.get])

/-- Two nested timers with different keys, and one that is entered by hand after two uses. -/
theorem sample_case :
    let key : Nat → Nat := fun t => t
    let manual : Nat → Bool := fun t => t == 2
    let evs : List (Event Int) := [.start 0 0, .start 1 2, .stop 1 5, .start 2 5, .stop 2 6, .start 2 7,
      .stop 2 9, .stop 0 10, .enter 2]
    (run key manual evs).values = [(1, [3]), (0, [10]), (2, [3])] ∧ starts 0 evs = stops 0 evs ∧
      spentBy 2 evs = 3 ∧ entries key manual 1 evs = [3] := by decide

end PyNucleus.Props.C105
