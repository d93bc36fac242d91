import Verif.Proof.Overlap2
import Mathlib.Algebra.CharZero.Defs
import Mathlib.Tactic.FieldSimp
import Mathlib.Data.List.Flatten

namespace PyNucleus.Overlap

open PyNucleus.Loops

/-! ## Counting -/

theorem find_isSome {d : List (Nat × Nat)} {i : Nat} : (d.find? fun e => decide (e.1 = i)).isSome = true ↔ i ∈ d.map Prod.fst := by
  rw [List.find?_isSome]
  simp

/-- What `dofCount` contains after the dofs `l`. -/
structure Counted (l : List Nat) (d : List (Nat × Nat)) : Prop where
  nodup : (d.map Prod.fst).Nodup
  mem : ∀ i, i ∈ d.map Prod.fst ↔ i ∈ l
  val : ∀ e ∈ d, e.2 = 1 + l.count e.1

theorem countOne_counted {l : List Nat} {d : List (Nat × Nat)} (h : Counted l d) (i : Nat) : Counted (l ++ [i]) (countOne d i) := by
  have hmap : (d.map fun e : Nat × Nat => if e.1 = i then (e.1, e.2 + 1) else e).map Prod.fst = d.map Prod.fst := by
    rw [List.map_map]
    refine List.map_congr_left fun e _ => ?_
    dsimp only [Function.comp]
    split <;> rfl
  unfold countOne
  by_cases hi : i ∈ d.map Prod.fst
  · rw [if_pos (find_isSome.2 hi)]
    refine ⟨by rw [hmap]; exact h.nodup, fun j => ?_, fun e he => ?_⟩
    · rw [hmap, h.mem j, List.mem_append, List.mem_singleton]
      exact ⟨Or.inl, fun q => q.elim id fun q => by rw [q]; exact (h.mem i).1 hi⟩
    · obtain ⟨e', he', rfl⟩ := List.mem_map.1 he
      have hv := h.val e' he'
      by_cases q : e'.1 = i
      · rw [if_pos q]
        dsimp only
        rw [List.count_append, hv, q]
        simp
        omega
      · rw [if_neg q, List.count_append, hv, List.count_singleton, if_neg (by simpa using Ne.symm q)]
        omega
  · rw [if_neg (by rw [find_isSome]; exact hi)]
    have hil : i ∉ l := fun q => hi ((h.mem i).2 q)
    refine ⟨?_, fun j => ?_, fun e he => ?_⟩
    · rw [List.map_append, List.map_singleton]
      exact List.nodup_append.2 ⟨h.nodup, by simp, fun a ha b hb => by
        rw [List.mem_singleton.1 hb]; rintro rfl; exact hi ha⟩
    · rw [List.map_append, List.mem_append, List.mem_append, h.mem j]
      simp
    · rcases List.mem_append.1 he with he | he
      · have hv := h.val e he
        have hne : e.1 ≠ i := fun q => hi (q ▸ List.mem_map_of_mem (f := Prod.fst) he)
        rw [List.count_append, hv, List.count_singleton, if_neg (by simpa using Ne.symm hne)]
        omega
      · rw [List.mem_singleton.1 he]
        dsimp only
        rw [List.count_append, List.count_eq_zero_of_not_mem hil]
        simp

theorem counted_fold (l : List Nat) : ∀ (l0 : List Nat) (d : List (Nat × Nat)), Counted l0 d → Counted (l0 ++ l) (l.foldl countOne d) := by
  induction l with
  | nil => intro l0 d h; simpa using h
  | cons i l ih =>
    intro l0 d h
    have := ih (l0 ++ [i]) (countOne d i) (countOne_counted h i)
    simpa using this

theorem counted_dofCount (M : Manager) : Counted (M.overlaps.flatMap Prod.snd) M.dofCount := by
  have h : ∀ (o : List (Nat × List Nat)) (l0 : List Nat) (d : List (Nat × Nat)), Counted l0 d →
      Counted (l0 ++ o.flatMap Prod.snd) (o.foldl (fun d o => o.2.foldl countOne d) d) := by
    intro o
    induction o with
    | nil => intro l0 d h; simpa using h
    | cons a o ih =>
      intro l0 d h
      have := ih _ _ (counted_fold a.2 l0 d h)
      simpa using this
  have := h M.overlaps [] [] ⟨by simp, by simp, by simp⟩
  simpa [Manager.dofCount] using this

theorem shared_of_mem {M : Manager} (hk : M.keys.Nodup) {o : Nat × List Nat} (ho : o ∈ M.overlaps) : M.shared o.1 = o.2 := by
  unfold Manager.shared
  cases e : M.overlaps.find? fun e => decide (e.1 = o.1) with
  | none =>
    have := List.find?_eq_none.1 e o ho
    simp at this
  | some o' =>
    have h1 := List.mem_of_find?_eq_some e
    have h2 := List.find?_some e
    have h2 := of_decide_eq_true h2
    have := List.inj_on_of_nodup_map hk h1 ho h2
    rw [this]; rfl

theorem shared_of_not_mem {M : Manager} {s : Nat} (h : s ∉ M.keys) : M.shared s = [] := by
  unfold Manager.shared
  cases e : M.overlaps.find? fun e => decide (e.1 = s) with
  | none => rfl
  | some o' =>
    have h1 := List.mem_of_find?_eq_some e
    have h2 := List.find?_some e
    have h2 := of_decide_eq_true h2
    exact absurd (List.mem_map.2 ⟨o', h1, h2⟩) h

theorem count_flat {M : Manager} (hk : M.keys.Nodup) (hn : ∀ s, (M.shared s).Nodup) (i : Nat) :
    (M.overlaps.flatMap Prod.snd).count i = (M.keys.filter fun s => decide (i ∈ M.shared s)).length := by
  have h : ∀ o : List (Nat × List Nat), (∀ e ∈ o, e ∈ M.overlaps) →
      (o.flatMap Prod.snd).count i = ((o.map Prod.fst).filter fun s => decide (i ∈ M.shared s)).length := by
    intro o
    induction o with
    | nil => intro _; rfl
    | cons a o ih =>
      intro h
      have ha := shared_of_mem hk (h a List.mem_cons_self)
      rw [List.flatMap_cons, List.count_append, ih fun e he => h e (List.mem_cons_of_mem _ he), List.map_cons]
      by_cases q : i ∈ a.2
      · rw [List.filter_cons_of_pos (by simpa [ha] using q), List.length_cons, List.count_eq_one_of_mem (ha ▸ hn a.1) q]
        omega
      · rw [List.filter_cons_of_neg (by simpa [ha] using q), List.count_eq_zero_of_not_mem q]
        omega
  exact h M.overlaps fun _ h => h

variable {P : Nat} {ov : Nat → Manager} {gid : Nat → Nat → Nat}

theorem Consistent.sharing_iff (hc : Consistent P ov gid) {r i s : Nat} (hr : r < P) (hi : i < (ov r).n) (hs : s < P) (hne : s ≠ r) :
    (∃ j, j < (ov s).n ∧ gid s j = gid r i) ↔ i ∈ (ov r).shared s := by
  constructor
  · rintro ⟨j, hj, e⟩
    exact (hc.complete r s i j hr hs hne.symm hi hj e.symm).2
  · intro hm
    obtain ⟨j, hj, rfl⟩ := List.getElem_of_mem hm
    obtain ⟨p1, p2, p3⟩ := hc.partner hr hs hj
    rw [List.getD_eq_getElem _ _ hj] at p2
    exact ⟨_, p3, p2.symm⟩

theorem Consistent.sharing_count (hc : Consistent P ov gid) {r i : Nat} (hr : r < P) (hi : i < (ov r).n) :
    sharing P ov gid (gid r i) = 1 + ((ov r).overlaps.flatMap Prod.snd).count i := by
  classical
  rw [count_flat (hc.keys_nodup r hr) (hc.nodup r hr)]
  unfold sharing
  have hl : ((ov r).keys.filter fun s => decide (i ∈ (ov r).shared s)).Nodup := (hc.keys_nodup r hr).filter _
  rw [← List.toFinset_card_of_nodup hl]
  have : (Finset.range P).filter (fun s => ∃ j, j < (ov s).n ∧ gid s j = gid r i) =
      insert r ((ov r).keys.filter fun s => decide (i ∈ (ov r).shared s)).toFinset := by
    ext s
    rw [Finset.mem_filter, Finset.mem_range, Finset.mem_insert, List.mem_toFinset, List.mem_filter, decide_eq_true_iff]
    constructor
    · rintro ⟨hs, hj⟩
      by_cases e : s = r
      · exact Or.inl e
      · obtain ⟨j, hj, q⟩ := hj
        exact Or.inr (hc.complete r s i j hr hs (Ne.symm e) hi hj q.symm)
    · rintro (rfl | ⟨hk, hm⟩)
      · exact ⟨hr, i, hi, rfl⟩
      · obtain ⟨h1, h2⟩ := hc.keys_lt r hr s hk
        exact ⟨h1, (hc.sharing_iff hr hi h1 h2).2 hm⟩
  rw [this, Finset.card_insert_of_notMem]
  · omega
  · rw [List.mem_toFinset, List.mem_filter]
    rintro ⟨hk, _⟩
    exact (hc.keys_lt r hr r hk).2 rfl

theorem distribute_getD {K : Type} [Field K] (D : List (Nat × K)) : ∀ (v : List K), (D.map Prod.fst).Nodup → (∀ e ∈ D, e.1 < v.length) →
    (distribute D v).length = v.length ∧ (∀ e ∈ D, (distribute D v).getD e.1 0 = v.getD e.1 0 * e.2) ∧
      ∀ i, i ∉ D.map Prod.fst → (distribute D v).getD i 0 = v.getD i 0 := by
  induction D with
  | nil => intro v _ _; exact ⟨rfl, by simp, fun i _ => rfl⟩
  | cons a D ih =>
    intro v hn hl
    rw [List.map_cons, List.nodup_cons] at hn
    obtain ⟨h1, h2, h3⟩ := ih (v.set a.1 (v.getD a.1 0 * a.2)) hn.2 fun e he => by
      rw [List.length_set]; exact hl e (List.mem_cons_of_mem _ he)
    have hstep : distribute (a :: D) v = distribute D (v.set a.1 (v.getD a.1 0 * a.2)) := rfl
    rw [hstep]
    refine ⟨by rw [h1, List.length_set], fun e he => ?_, fun i hi => ?_⟩
    · rcases List.mem_cons.1 he with rfl | he
      · rw [h3 _ hn.1, getD_set, if_pos ⟨rfl, hl e List.mem_cons_self⟩]
      · have hne : e.1 ≠ a.1 := fun q => hn.1 (q ▸ List.mem_map_of_mem (f := Prod.fst) he)
        rw [h2 e he, getD_set, if_neg fun q => hne q.1.symm]
    · rw [List.map_cons, List.mem_cons, not_or] at hi
      rw [h3 i hi.2, getD_set, if_neg fun q => hi.1 q.1.symm]

end PyNucleus.Overlap
