import Verif.Model.CellExchange
import Mathlib.Data.List.GetD
import Mathlib.Data.List.Nodup

/-!
# Helper lemmas for the exchange of cells
-/

namespace PyNucleus.CellExchange

theorem displ_succ (c : List Nat) (r : Nat) : displ c (r + 1) = displ c r + c.getD r 0 := by
  unfold displ
  by_cases h : r < c.length
  · rw [List.take_succ_eq_append_getElem h, List.sum_append, List.getD_eq_getElem _ _ h]; simp
  · rw [List.take_of_length_le (by omega), List.take_of_length_le (by omega), List.getD_eq_default _ _ (by omega)]; rfl

theorem displ_mono (c : List Nat) (r d : Nat) : displ c r ≤ displ c (r + d) := by
  induction d with
  | zero => exact Nat.le_refl _
  | succ d ih => rw [← Nat.add_assoc, displ_succ]; omega

theorem displ_le (c : List Nat) {r r' : Nat} (h : r < r') : displ c r + c.getD r 0 ≤ displ c r' := by
  rw [← displ_succ]
  have := displ_mono c (r + 1) (r' - (r + 1))
  rwa [show r + 1 + (r' - (r + 1)) = r' by omega] at this

theorem fill_ptr {α : Type} (l : List (Nat × α)) (b : Buf α) (r : Nat) :
    (l.foldl put b).ptr r = b.ptr r + (l.map (·.1)).count r := by
  induction l generalizing b with
  | nil => simp
  | cons c l ih =>
    rw [List.foldl_cons, ih, List.map_cons, List.count_cons]
    dsimp only [put]
    by_cases h : r = c.1
    · subst h; simp; omega
    · rw [Function.update_of_ne h]
      have : ¬ (c.1 == r) = true := by simpa using fun e => h e.symm
      rw [if_neg this]; omega

theorem fill_out {α : Type} (l : List (Nat × α)) (b : Buf α)
    (hd : ∀ r r' k k', k < (l.map (·.1)).count r → k' < (l.map (·.1)).count r' → b.ptr r + k = b.ptr r' + k' → r = r') :
    (∀ x, (∀ r k, k < (l.map (·.1)).count r → x ≠ b.ptr r + k) → (l.foldl put b).out x = b.out x) ∧
    ∀ r k v, ((l.filter fun c => c.1 == r).map (·.2))[k]? = some v → (l.foldl put b).out (b.ptr r + k) = v := by
  induction l generalizing b with
  | nil => simp
  | cons c l ih =>
    have hcount : ∀ r, ((c :: l).map (·.1)).count r = (l.map (·.1)).count r + if r = c.1 then 1 else 0 := by
      intro r
      rw [List.map_cons, List.count_cons]
      by_cases h : r = c.1
      · simp [h]
      · have : ¬ c.1 = r := fun e => h e.symm
        simp [h, this]
    have hptr : ∀ r, (put b c).ptr r = b.ptr r + if r = c.1 then 1 else 0 := by
      intro r
      dsimp only [put]
      by_cases h : r = c.1
      · subst h; simp
      · rw [Function.update_of_ne h, if_neg h]; rfl
    have hd' : ∀ r r' k k', k < (l.map (·.1)).count r → k' < (l.map (·.1)).count r' →
        (put b c).ptr r + k = (put b c).ptr r' + k' → r = r' := by
      intro r r' k k' hk hk' he
      rw [hptr, hptr] at he
      refine hd r r' (k + if r = c.1 then 1 else 0) (k' + if r' = c.1 then 1 else 0) ?_ ?_ (by omega)
      · rw [hcount]; omega
      · rw [hcount]; omega
    obtain ⟨h1, h2⟩ := ih (put b c) hd'
    constructor
    · intro x hx
      rw [List.foldl_cons, h1 x]
      · dsimp only [put]
        rw [Function.update_of_ne]
        have := hx c.1 0 (by rw [hcount]; simp)
        simpa using this
      · intro r k hk
        rw [hptr]
        have := hx r (k + if r = c.1 then 1 else 0) (by rw [hcount]; omega)
        omega
    · intro r k v hv
      rw [List.foldl_cons]
      by_cases hr : r = c.1
      · subst hr
        rw [List.filter_cons_of_pos (by simp), List.map_cons] at hv
        cases k with
        | zero =>
          simp only [List.getElem?_cons_zero, Option.some.injEq] at hv
          rw [Nat.add_zero, h1]
          · simp [put, hv]
          · intro r k hk he
            rw [hptr] at he
            have := hd c.1 r 0 (k + if r = c.1 then 1 else 0) (by rw [hcount]; simp) (by rw [hcount]; omega) (by omega)
            rw [if_pos this.symm, ← this] at he
            omega
        | succ k =>
          rw [List.getElem?_cons_succ] at hv
          have := h2 c.1 k v hv
          rw [hptr, if_pos rfl] at this
          rw [← this]; congr 1; omega
      · rw [List.filter_cons_of_neg (by simpa using fun e : c.1 = r => hr e.symm)] at hv
        have := h2 r k v hv
        rwa [hptr, if_neg hr, Nat.add_zero] at this

theorem mem_uniq (part : List Nat) (s : Nat) : s ∈ uniq part ↔ s ∈ part := by
  unfold uniq
  rw [List.mem_filter, List.mem_range]
  constructor
  · intro h; simpa using h.2
  · intro h
    refine ⟨?_, by simpa using h⟩
    have : ∀ l : List Nat, s ∈ l → s ≤ l.foldr max 0 := by
      intro l
      induction l with
      | nil => intro h; cases h
      | cons a l ih =>
        intro h
        rw [List.foldr_cons]
        rcases List.mem_cons.1 h with rfl | h
        · exact Nat.le_max_left _ _
        · exact Nat.le_trans (ih h) (Nat.le_max_right _ _)
    have := this part h
    omega

theorem foldl_set (rk f : Nat → Nat) (u : List Nat) (hinj : ∀ s ∈ u, ∀ s' ∈ u, rk s = rk s' → s = s') (c : List Nat) :
    (u.foldl (fun c s => c.set (rk s) (f s)) c).length = c.length ∧
    (∀ s ∈ u, rk s < c.length → (u.foldl (fun c s => c.set (rk s) (f s)) c).getD (rk s) 0 = f s) ∧
    ∀ r, (∀ s ∈ u, rk s ≠ r) → (u.foldl (fun c s => c.set (rk s) (f s)) c).getD r 0 = c.getD r 0 := by
  induction u generalizing c with
  | nil => simp
  | cons a u ih =>
    obtain ⟨h1, h2, h3⟩ := ih (fun s hs s' hs' => hinj s (List.mem_cons_of_mem _ hs) s' (List.mem_cons_of_mem _ hs'))
      (c.set (rk a) (f a))
    refine ⟨by rw [List.foldl_cons, h1, List.length_set], ?_, ?_⟩
    · intro s hs hlt
      rw [List.foldl_cons]
      by_cases hu : s ∈ u
      · exact h2 s hu (by rwa [List.length_set])
      · have : s = a := by rcases List.mem_cons.1 hs with h | h; exacts [h, absurd h hu]
        subst this
        rw [h3]
        · rw [List.getD_eq_getElem _ _ (by rwa [List.length_set])]; simp
        · intro s' hs' he
          exact hu (hinj s' (List.mem_cons_of_mem _ hs') s List.mem_cons_self he ▸ hs')
    · intro r hr
      rw [List.foldl_cons, h3 r fun s hs => hr s (List.mem_cons_of_mem _ hs)]
      have hne := hr a List.mem_cons_self
      simp only [List.getD_eq_getElem?_getD, List.getElem?_set_ne hne]

theorem sendCount_spec (P : Nat) (rk : Nat → Nat) (part : List Nat) (hP : ∀ s ∈ part, rk s < P)
    (hinj : ∀ s ∈ part, ∀ s' ∈ part, rk s = rk s' → s = s') (r : Nat) :
    (sendCount P rk part).length = P ∧ (sendCount P rk part).getD r 0 = (part.map rk).count r := by
  obtain ⟨h1, h2, h3⟩ := foldl_set rk (fun s => part.count s) (uniq part)
    (fun s hs s' hs' => hinj s ((mem_uniq _ _).1 hs) s' ((mem_uniq _ _).1 hs')) (List.replicate P 0)
  refine ⟨by unfold sendCount; rw [h1, List.length_replicate], ?_⟩
  by_cases h : ∃ s ∈ part, rk s = r
  · obtain ⟨s, hs, rfl⟩ := h
    have := h2 s ((mem_uniq _ _).2 hs) (by rw [List.length_replicate]; exact hP s hs)
    unfold sendCount
    rw [this, List.count, List.count, List.countP_map]
    refine List.countP_congr fun s' hs' => ?_
    simp only [beq_iff_eq, Function.comp]
    exact ⟨fun e => by rw [e], fun e => hinj s' hs' s hs e⟩
  · have := h3 r fun s hs e => h ⟨s, (mem_uniq _ _).1 hs, e⟩
    unfold sendCount
    rw [this]
    have h0 : (List.replicate P 0).getD r 0 = 0 := by
      by_cases hr : r < P
      · rw [List.getD_replicate _ hr]
      · exact List.getD_eq_default _ _ (by rw [List.length_replicate]; omega)
    rw [h0]
    symm
    rw [List.count_eq_zero]
    intro hm
    obtain ⟨s, hs, e⟩ := List.mem_map.1 hm
    exact h ⟨s, hs, e⟩

theorem zip_fst {α : Type} (rs : List Nat) (vals : List α) (h : rs.length = vals.length) :
    (rs.zip vals).map (·.1) = rs := by
  rw [List.map_fst_zip (by omega)]

theorem fill_segment {α : Type} (counts : List Nat) (d : α) (ptr : Nat → Nat) (rs : List Nat) (vals : List α)
    (hl : rs.length = vals.length) (hc : ∀ r, counts.getD r 0 = rs.count r) (hr : ∀ r, rs.count r ≠ 0 → ptr r = displ counts r)
    (r : Nat) (hptr : ptr r = displ counts r) :
    (List.range (counts.getD r 0)).map (fun k => (fill ⟨ptr, fun _ => d⟩ rs vals).out (displ counts r + k)) =
      ((rs.zip vals).filter fun c => c.1 == r).map (·.2) := by
  have hdis := (fill_out (rs.zip vals) (⟨ptr, fun _ => d⟩ : Buf α) (by
    rw [zip_fst rs vals hl]
    intro r r' k k' hk hk' he
    dsimp only at he
    rw [hr r (by omega), hr r' (by omega)] at he
    rw [← hc] at hk hk'
    rcases Nat.lt_trichotomy r r' with h | h | h
    · have := displ_le counts h; omega
    · exact h
    · have := displ_le counts h; omega)).2 r
  have hlen : (((rs.zip vals).filter fun c => c.1 == r).map (·.2)).length = counts.getD r 0 := by
    rw [hc, List.length_map, ← List.countP_eq_length_filter]
    conv => rhs; rw [← zip_fst rs vals hl]
    rw [List.count, List.countP_map]
    rfl
  apply List.ext_getElem
  · rw [hlen]; simp
  · intro k hk hk'
    rw [List.getElem_map, List.getElem_range]
    have := hdis k _ (List.getElem?_eq_getElem hk')
    dsimp only at this
    rw [hptr] at this
    exact this

theorem shiftBack_zero (n : Nat) (p : Nat → Nat) : shiftBack n p 0 = 0 := by
  induction n generalizing p with
  | zero => simp [shiftBack]
  | succ n ih => exact ih _

theorem shiftBack_gt (n : Nat) (p : Nat → Nat) (r : Nat) (h : n < r) : shiftBack n p r = p r := by
  induction n generalizing p with
  | zero => rw [shiftBack, Function.update_of_ne (by omega)]
  | succ n ih => rw [shiftBack, ih _ (by omega), Function.update_of_ne (by omega)]

theorem shiftBack_succ (n : Nat) (p : Nat → Nat) (r : Nat) (h : r < n) : shiftBack n p (r + 1) = p r := by
  induction n generalizing p with
  | zero => omega
  | succ n ih =>
    rw [shiftBack]
    by_cases hr : r < n
    · rw [ih _ hr, Function.update_of_ne (by omega)]
    · have : r = n := by omega
      subst this
      rw [shiftBack_gt _ _ _ (by omega), Function.update_self]

/-- The vals of the cells of rank `r`, in their order. -/
theorem zip_filter {α : Type} (rs : List Nat) (vals : List α) (d : α) (h : rs.length = vals.length) (r : Nat) :
    ((rs.zip vals).filter fun c => c.1 == r).map (·.2) =
      ((List.range rs.length).filter fun i => rs.getD i 0 == r).map fun i => vals.getD i d := by
  have hz : rs.zip vals = (List.range rs.length).map fun i => (rs.getD i 0, vals.getD i d) := by
    apply List.ext_getElem
    · simp [h]
    · intro i h1 h2
      have h3 : i < rs.length := by simpa using h2
      rw [List.getElem_zip, List.getElem_map, List.getElem_range, List.getD_eq_getElem _ _ h3,
        List.getD_eq_getElem _ _ (by omega)]
  rw [hz, List.filter_map, List.map_map]
  rfl

end PyNucleus.CellExchange

namespace PyNucleus.CellExchange

theorem shiftBack_ptr (P : Nat) (rk : Nat → Nat) (p : Proc) (hP : ∀ s ∈ p.part, rk s < P)
    (hinj : ∀ s ∈ p.part, ∀ s' ∈ p.part, rk s = rk s' → s = s') (r : Nat) :
    shiftBack P (packIdx P rk p).ptr r = displ (sendCount P rk p.part) r := by
  have hptr : ∀ r, (packIdx P rk p).ptr r = displ (sendCount P rk p.part) (r + 1) := by
    intro r
    unfold packIdx fill
    rw [fill_ptr, zip_fst _ _ (by simp), displ_succ, (sendCount_spec P rk p.part hP hinj r).2]
  cases r with
  | zero => rw [shiftBack_zero]; rfl
  | succ r =>
    by_cases h : r < P
    · rw [shiftBack_succ _ _ _ h, hptr]
    · rw [shiftBack_gt _ _ _ (by omega), hptr, displ_succ]
      have hl := (sendCount_spec P rk p.part hP hinj 0).1
      rw [List.getD_eq_default _ _ (by omega), Nat.add_zero]

theorem map_getD (rk : Nat → Nat) (part : List Nat) (q i : Nat) (h : i < part.length) :
    ((part.map rk).getD i 0 == q) = (rk (part.getD i 0) == q) := by
  rw [List.getD_eq_getElem _ _ (by simpa using h), List.getD_eq_getElem _ _ h, List.getElem_map]

theorem segment_idx (P : Nat) (rk : Nat → Nat) (p : Proc) (hP : ∀ s ∈ p.part, rk s < P)
    (hinj : ∀ s ∈ p.part, ∀ s' ∈ p.part, rk s = rk s' → s = s') (q : Nat) :
    segment P rk p (packIdx P rk p) q =
      ((List.range p.part.length).filter fun i => rk (p.part.getD i 0) == q).map (· + p.offset) := by
  unfold segment packIdx
  rw [fill_segment (sendCount P rk p.part) 0 _ (p.part.map rk) _ (by simp)
    (fun r => (sendCount_spec P rk p.part hP hinj r).2) (fun _ _ => rfl) q rfl, zip_filter _ _ 0 (by simp), List.length_map]
  rw [List.filter_congr fun i hi => map_getD rk p.part q i (List.mem_range.1 hi)]
  refine List.map_congr_left fun i hi => ?_
  have := List.mem_range.1 (List.mem_filter.1 hi).1
  rw [List.getD_eq_getElem _ _ (by simpa using this)]
  simp

theorem segment_cells (P : Nat) (rk : Nat → Nat) (p : Proc) (hP : ∀ s ∈ p.part, rk s < P)
    (hinj : ∀ s ∈ p.part, ∀ s' ∈ p.part, rk s = rk s' → s = s') (hc : p.cells.length = p.part.length) (q : Nat) :
    segment P rk p (packCells P rk p) q =
      ((List.range p.part.length).filter fun i => rk (p.part.getD i 0) == q).map fun i => p.cells.getD i [] := by
  unfold segment packCells
  rw [fill_segment (sendCount P rk p.part) [] _ (p.part.map rk) _ (by simp [hc])
    (fun r => (sendCount_spec P rk p.part hP hinj r).2) (fun r _ => shiftBack_ptr P rk p hP hinj r) q
    (shiftBack_ptr P rk p hP hinj q), zip_filter _ _ [] (by simp [hc]), List.length_map]
  rw [List.filter_congr fun i hi => map_getD rk p.part q i (List.mem_range.1 hi)]

theorem keys_spec {α : Type} (l : List (Nat × α)) (ks : List Nat) (h : ks.Nodup) :
    (l.foldl (fun ks m => if ks.contains m.1 then ks else ks ++ [m.1]) ks).Nodup ∧
    ∀ g, g ∈ l.foldl (fun ks m => if ks.contains m.1 then ks else ks ++ [m.1]) ks ↔ g ∈ ks ∨ g ∈ l.map (·.1) := by
  induction l generalizing ks with
  | nil => simpa using h
  | cons m l ih =>
    rw [List.foldl_cons]
    by_cases hm : ks.contains m.1 = true
    · rw [if_pos hm]
      obtain ⟨h1, h2⟩ := ih ks h
      refine ⟨h1, fun g => ?_⟩
      rw [h2, List.map_cons, List.mem_cons]
      have : m.1 ∈ ks := by simpa using hm
      constructor
      · rintro (h | h); exacts [Or.inl h, Or.inr (Or.inr h)]
      · rintro (h | rfl | h); exacts [Or.inl h, Or.inl this, Or.inr h]
    · rw [if_neg hm]
      have hn : m.1 ∉ ks := by simpa using hm
      obtain ⟨h1, h2⟩ := ih (ks ++ [m.1]) (by
        rw [List.nodup_append]
        refine ⟨h, by simp, ?_⟩
        intro a ha b hb e
        simp at hb
        exact hn (by rw [← hb, ← e]; exact ha))
      refine ⟨h1, fun g => ?_⟩
      rw [h2, List.map_cons, List.mem_cons, List.mem_append, List.mem_singleton, or_assoc]

theorem mapM_of {α β : Type} (f : α → Option β) (g : α → β) (l : List α) (h : ∀ a ∈ l, f a = some (g a)) :
    l.mapM f = some (l.map g) := by
  induction l with
  | nil => rfl
  | cons a l ih =>
    rw [List.mapM_cons, h a List.mem_cons_self, ih fun b hb => h b (List.mem_cons_of_mem _ hb)]
    rfl

end PyNucleus.CellExchange
