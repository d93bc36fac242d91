import Verif.Spec.Timers
import Mathlib.Data.List.Induction
import Mathlib.Tactic.Abel

namespace PyNucleus.Timers

open PyNucleus.Spec.Timers

variable {K : Type}

theorem lookup_addValue (d : List (Nat × List K)) (k k' : Nat) (x : K) :
    ((addValue d k x).lookup k').getD [] = (d.lookup k').getD [] ++ if k' = k then [x] else [] := by
  induction d with
  | nil =>
    by_cases h : k' = k
    · simp [addValue, List.lookup, h]
    · have h' : (k' == k) = false := by simp [h]
      simp [addValue, List.lookup, h, h']
  | cons p d ih =>
    obtain ⟨q, l⟩ := p
    by_cases hq : q = k
    · subst hq
      by_cases h : k' = q
      · simp [addValue, h]
      · have h' : (k' == q) = false := by simp [h]
        simp [addValue, List.lookup_cons, h, h']
    · by_cases h : k' = q
      · subst h; simp [addValue, hq]
      · have h' : (k' == q) = false := by simp [h]
        simp only [addValue, hq, if_false, List.lookup_cons, h']
        exact ih

section
variable [AddCommGroup K]

theorem spent_append (T : Nat → Bool) (l r : List (Event K)) :
    spent T (l ++ r) = spent T l + spent T r := by simp [spent]

theorem spent_single (T : Nat → Bool) (e : Event K) : spent T [e] = signed T e := by simp [spent]

theorem run_append (key : Nat → Nat) (manual : Nat → Bool) (l : List (Event K)) (e : Event K) :
    run key manual (l ++ [e]) = step key manual (run key manual l) e := by
  simp [run, List.foldl_append]

theorem Proper_left {l r : List (Event K)} (h : Proper (l ++ r)) : Proper l := by
  intro a e b hl
  exact h a e (b ++ r) (by simp [hl])

/-- A timer is not running and `elapsed` is the time it has run, or it is running. -/
theorem elapsed_inv (key : Nat → Nat) (manual : Nat → Bool) (t : Nat) (l : List (Event K))
    (h : Proper l) :
    (starts t l = stops t l ∧ (run key manual l).elapsed t = spentBy t l) ∨
    (starts t l = stops t l + 1 ∧
      (run key manual l).elapsed t - (run key manual l).startTime t = spentBy t l) := by
  induction l using List.reverseRecOn with
  | nil => left; simp [starts, stops, run, initial, spentBy, spent]
  | append_singleton l e ih =>
    have ha := h l e [] (by simp)
    have ih := ih (Proper_left h)
    rw [run_append]
    have hs : spentBy t (l ++ [e]) = spentBy t l + signed (fun u => u == t) e := by
      rw [spentBy, spent_append, spent_single]; rfl
    rw [hs]
    cases e with
    | start u time =>
      by_cases hu : u = t
      · subst hu
        simp only [Allowed] at ha
        rcases ih with ⟨h1, h2⟩ | ⟨h1, h2⟩
        · right
          refine ⟨by simp [starts, stops, isStart, isStop] at *; omega, ?_⟩
          simp [step, signed, h2, sub_eq_add_neg]
        · omega
      · simpa [starts, stops, isStart, isStop, step, signed, hu, Ne.symm hu] using ih
    | stop u time =>
      by_cases hu : u = t
      · subst hu
        simp only [Allowed] at ha
        rcases ih with ⟨h1, h2⟩ | ⟨h1, h2⟩
        · omega
        · left
          refine ⟨by simp [starts, stops, isStart, isStop] at *; omega, ?_⟩
          simp only [step, signed, if_true, beq_self_eq_true]
          rw [← h2]; abel
      · simpa [starts, stops, isStart, isStop, step, signed, hu, Ne.symm hu] using ih
    | enter u => simpa [starts, stops, isStart, isStop, step, signed] using ih
    | empty => simpa [starts, stops, isStart, isStop, step, signed] using ih

theorem entries_append (key : Nat → Nat) (manual : Nat → Bool) (k : Nat) (l : List (Event K))
    (e : Event K) : entries key manual k (l ++ [e]) = entries key manual k l ++
      ((enters key manual k e).map fun t => spentBy t (l ++ [e])).toList := by
  unfold entries
  rw [List.length_append, List.length_singleton, List.range_succ, List.filterMap_append]
  congr 1
  · apply List.filterMap_congr
    intro i hi
    have hi : i < l.length := List.mem_range.1 hi
    rw [List.getElem?_append_left hi, List.take_append_of_le_length (by omega)]
  · have ht : List.take (l.length + 1) (l ++ [e]) = l ++ [e] := List.take_of_length_le (by simp)
    cases h : enters key manual k e <;> simp [h, ht]

/-- What one event adds to the values of a key, if it does not empty the logger. -/
def added (key : Nat → Nat) (manual : Nat → Bool) (s : State K) (k : Nat) (e : Event K) : List K :=
  ((enters key manual k e).map fun t => (step key manual s e).elapsed t).toList

theorem get_step (key : Nat → Nat) (manual : Nat → Bool) (s : State K) (k : Nat) (e : Event K)
    (he : isEmpty e = false) :
    (step key manual s e).get k = s.get k ++ added key manual s k e := by
  cases e with
  | start t time => simp [step, State.get, added, enters]
  | stop t time =>
    cases hm : manual t
    · by_cases hk : key t = k
      · subst hk
        have h1 := lookup_addValue s.values (key t) (key t) (s.elapsed t + (time - s.startTime t))
        simp only [State.get, step, added, enters, hm]
        simpa using h1
      · have h1 := lookup_addValue s.values (key t) k (s.elapsed t + (time - s.startTime t))
        simp only [State.get, step, added, enters, hm, hk, false_and, if_false]
        simpa [Ne.symm hk] using h1
    · simp [step, State.get, added, enters, hm]
  | enter t =>
    by_cases hk : key t = k
    · subst hk
      have h1 := lookup_addValue s.values (key t) (key t) (s.elapsed t)
      simp only [State.get, step, added, enters]
      simpa using h1
    · have h1 := lookup_addValue s.values (key t) k (s.elapsed t)
      simp only [State.get, step, added, enters, hk, if_false]
      simpa [Ne.symm hk] using h1
  | empty => simp [isEmpty] at he

theorem get_run (key : Nat → Nat) (manual : Nat → Bool) (k : Nat) (l : List (Event K))
    (h : Proper l) (he : ∀ e ∈ l, isEmpty e = false) :
    (run key manual l).get k = entries key manual k l := by
  induction l using List.reverseRecOn with
  | nil => simp [run, initial, State.get, entries]
  | append_singleton l e ih =>
    rw [run_append, entries_append, get_step _ _ _ _ _ (he e (by simp)),
      ih (Proper_left h) fun e he' => he e (by simp [he'])]
    congr 1
    unfold added
    cases hen : enters key manual k e with
    | none => rfl
    | some t =>
      have hinv := elapsed_inv key manual t (l ++ [e]) h
      rw [run_append] at hinv
      have ha := h l e [] (by simp)
      have hc : starts t (l ++ [e]) = stops t (l ++ [e]) := by
        cases e with
        | start u time => simp [enters] at hen
        | stop u time =>
          simp only [enters] at hen
          split at hen
          · cases hen
            simp only [Allowed] at ha
            simp [starts, stops, isStart, isStop] at *; omega
          · cases hen
        | enter u =>
          simp only [enters] at hen
          split at hen
          · cases hen
            simp only [Allowed] at ha
            simp [starts, stops, isStart, isStop] at *; omega
          · cases hen
        | empty => simp [enters] at hen
      rcases hinv with ⟨_, h2⟩ | ⟨h1, _⟩
      · simp [h2]
      · omega

/-- Timers are the same whatever the logger holds. -/
theorem step_timers (key : Nat → Nat) (manual : Nat → Bool) (s s' : State K) (e : Event K)
    (h1 : s.elapsed = s'.elapsed) (h2 : s.startTime = s'.startTime) :
    (step key manual s e).elapsed = (step key manual s' e).elapsed ∧
    (step key manual s e).startTime = (step key manual s' e).startTime := by
  cases e <;> simp [step, h1, h2]

theorem get_suffix (key : Nat → Nat) (manual : Nat → Bool) (k : Nat) (r : List (Event K))
    (he : ∀ e ∈ r, isEmpty e = false) (s s' : State K)
    (h1 : s.elapsed = s'.elapsed) (h2 : s.startTime = s'.startTime) (hs : s.values = []) :
    ∃ x, (r.foldl (step key manual) s).get k = x ∧ (r.foldl (step key manual) s').get k = s'.get k ++ x := by
  suffices H : ∀ (r : List (Event K)) (s s' : State K) (a b : List K), (∀ e ∈ r, isEmpty e = false) →
      s.elapsed = s'.elapsed → s.startTime = s'.startTime → s.get k = a → s'.get k = b ++ a →
      ∃ x, (r.foldl (step key manual) s).get k = x ∧ (r.foldl (step key manual) s').get k = b ++ x by
    exact H r s s' [] (s'.get k) he h1 h2 (by simp [State.get, hs]) (by simp)
  intro r
  induction r with
  | nil => intro s s' a b _ _ _ ha hb; exact ⟨a, ha, hb⟩
  | cons e r ih =>
    intro s s' a b he h1 h2 ha hb
    have hst := step_timers key manual s s' e h1 h2
    have hadd : added key manual s k e = added key manual s' k e := by
      unfold added; rw [hst.1]
    exact ih _ _ (a ++ added key manual s k e) b (fun e' h' => he e' (by simp [h'])) hst.1 hst.2
      (by rw [get_step _ _ _ _ _ (he e (by simp)), ha])
      (by rw [get_step _ _ _ _ _ (he e (by simp)), hb, hadd, List.append_assoc])

/-- The part of the time of timers that have not been stopped. -/
def openPart (T : Nat → Bool) (l : List (Event K)) : K :=
  (l.map fun e => match e with
    | .start t time => if T t = true ∧ stops t l = 0 then -time else 0
    | _ => 0).sum

theorem openPart_split (T : Nat → Bool) (t : Nat) (ht : T t = true) (time : K) (l : List (Event K))
    (h0 : stops t l = 0) :
    openPart T l = openPart T (l ++ [.stop t time]) + spentBy t l := by
  unfold openPart spentBy spent
  have hst : ∀ u, stops u (l ++ [Event.stop t time]) = stops u l + if t = u then 1 else 0 := by
    intro u; by_cases h : t = u <;> simp [stops, isStop, h]
  rw [List.map_append, List.sum_append]
  simp only [List.map_cons, List.map_nil, List.sum_cons, List.sum_nil, add_zero, hst]
  have hno : ∀ e ∈ l, isStop t e = false := by
    intro e he
    have := List.countP_eq_zero.1 h0 e he
    simpa using this
  generalize hl : stops = S at h0 ⊢
  clear hst hl
  rw [← List.sum_map_add]
  congr 1
  apply List.map_congr_left
  intro e he
  cases e with
  | start u time' =>
    by_cases hu : u = t
    · subst hu; simp [signed, ht, h0]
    · simp [signed, hu, Ne.symm hu]
  | stop u time' =>
    have := hno _ he
    simp only [isStop, beq_eq_false_iff_ne] at this
    simp [signed, this]
  | enter u => simp [signed]
  | empty => simp [signed]

theorem sum_once (key : Nat → Nat) (manual : Nat → Bool) (k : Nat) (l : List (Event K))
    (h : Proper l) (hm : ∀ t, key t = k → manual t = false)
    (hn : ∀ t, Event.enter t ∈ l → key t ≠ k) (ho : ∀ t, key t = k → starts t l ≤ 1) :
    spent (fun t => key t == k) l =
      (entries key manual k l).sum + openPart (fun t => key t == k) l := by
  induction l using List.reverseRecOn with
  | nil => simp [spent, entries, openPart]
  | append_singleton l e ih =>
    have ha := h l e [] (by simp)
    have hle : ∀ t, starts t l ≤ starts t (l ++ [e]) := by intro t; simp [starts]
    have ih := ih (Proper_left h) (fun t ht => hn t (by simp [ht])) fun t ht => (hle t).trans (ho t ht)
    rw [spent_append, spent_single, entries_append, List.sum_append, ih]
    have hsame : (∀ u, stops u (l ++ [e]) = stops u l) → openPart (fun t => key t == k) (l ++ [e]) =
        openPart (fun t => key t == k) l + (match e with
          | .start t time => if (key t == k) = true ∧ stops t l = 0 then -time else 0
          | _ => 0) := by
      intro hs
      unfold openPart
      simp only [hs, List.map_append, List.sum_append, List.map_cons, List.map_nil, List.sum_cons,
        List.sum_nil, add_zero]
      cases e <;> rfl
    cases e with
    | start t time =>
      rw [hsame fun u => by simp [stops, isStop]]
      by_cases hk : key t = k
      · have h0 : stops t l = 0 := by
          have h1 := ho t hk
          have h2 : starts t (l ++ [Event.start t time]) = starts t l + 1 := by simp [starts, isStart]
          simp only [Allowed] at ha
          omega
        simp [enters, signed, hk, h0]; abel
      · simp [enters, signed, hk]
    | stop t time =>
      by_cases hk : key t = k
      · have h0 : stops t l = 0 := by
          have h1 := ho t hk
          have h2 := hle t
          simp only [Allowed] at ha
          omega
        rw [openPart_split (fun t => key t == k) t (by simp [hk]) time l h0]
        have : spentBy t (l ++ [Event.stop t time]) = spentBy t l + time := by
          rw [spentBy, spent_append, spent_single]; simp [signed, spentBy]
        simp [enters, signed, hk, hm t hk, this]; abel
      · have hsp : openPart (fun t => key t == k) (l ++ [Event.stop t time]) =
            openPart (fun t => key t == k) l := by
          unfold openPart
          rw [List.map_append, List.sum_append]
          simp only [List.map_cons, List.map_nil, List.sum_cons, List.sum_nil, add_zero]
          congr 1
          apply List.map_congr_left
          intro e _
          cases e with
          | start u time' =>
            by_cases hu : t = u
            · subst hu; simp [hk]
            · simp [stops, isStop, hu]
          | _ => rfl
        rw [hsp]; simp [enters, signed, hk]
    | enter t =>
      have := hn t (by simp)
      rw [hsame fun u => by simp [stops, isStop]]
      simp [enters, signed, this]
    | empty =>
      rw [hsame fun u => by simp [stops, isStop]]
      simp [enters, signed]

theorem openPart_closed (T : Nat → Bool) (l : List (Event K))
    (hc : ∀ t, T t = true → starts t l = stops t l) : openPart T l = 0 := by
  unfold openPart
  apply List.sum_eq_zero
  intro x hx
  obtain ⟨e, he, rfl⟩ := List.mem_map.1 hx
  cases e with
  | start t time =>
    dsimp only
    split
    · rename_i hT
      have h0 : starts t l = 0 := by rw [hc t hT.1, hT.2]
      have := List.countP_eq_zero.1 h0 _ he
      simp [isStart] at this
    · rfl
  | _ => rfl

theorem length_entries (key : Nat → Nat) (manual : Nat → Bool) (k : Nat) (l : List (Event K)) :
    (entries key manual k l).length = l.countP fun e => (enters key manual k e).isSome := by
  induction l using List.reverseRecOn with
  | nil => simp [entries]
  | append_singleton l e ih =>
    rw [entries_append, List.length_append, ih, List.countP_append]
    cases h : enters key manual k e <;> simp [h]

theorem nodup_addValue (d : List (Nat × List K)) (k : Nat) (x : K) (h : (d.map Prod.fst).Nodup) :
    ((addValue d k x).map Prod.fst) = if k ∈ d.map Prod.fst then d.map Prod.fst else d.map Prod.fst ++ [k] := by
  induction d with
  | nil => simp [addValue]
  | cons p d ih =>
    obtain ⟨q, l⟩ := p
    have hd : (d.map Prod.fst).Nodup := (List.nodup_cons.1 h).2
    by_cases hq : q = k
    · simp [addValue, hq]
    · have := ih hd
      simp only [addValue, hq, if_false, List.map_cons, this]
      by_cases hm : k ∈ d.map Prod.fst
      · rw [if_pos hm, if_pos (List.mem_cons_of_mem _ hm)]
      · rw [if_neg hm, if_neg (by simp only [List.mem_cons, not_or]; exact ⟨Ne.symm hq, hm⟩)]; rfl

end

end PyNucleus.Timers
