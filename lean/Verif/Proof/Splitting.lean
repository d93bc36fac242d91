import Verif.Model.Splitting
import Verif.Proof.DoFReset
import Verif.Proof.CellFinder
import Mathlib.Data.List.GetD

/-! # Splitting of maps: lemmas -/

namespace PyNucleus.Splitting

open PyNucleus.DoFMap PyNucleus.Spec

theorem start_ok (ind : Int → Bool) : start.Ok ind :=
  ⟨by decide, by decide, (fun d v h => by cases h), (fun d v h => by cases h), (fun d d' v h => by cases h),
    (fun v h1 h2 => by simp only [start] at h1 h2; omega)⟩

theorem resetAll_congr {ind ind' : Int → Bool} : ∀ (l : List Int) (s : Reset),
    (∀ d ∈ l, s.old2new d = none → ind d = ind' d) → resetAll ind s l = resetAll ind' s l := by
  intro l
  induction l with
  | nil => intro s _; rfl
  | cons d l ih =>
    intro s h
    have h1 : resetOne ind s d = resetOne ind' s d := by
      unfold resetOne
      cases hd : s.old2new d with
      | some v => rfl
      | none => simp only [h d (by simp) hd]
    simp only [resetAll, h1]
    rw [ih (resetOne ind' s d).2]
    intro d' hd' hn
    refine h d' (by simp [hd']) ?_
    unfold resetOne at hn
    cases q : s.old2new d' with
    | none => rfl
    | some v =>
      exfalso
      cases hd : s.old2new d with
      | some w => simp only [hd] at hn; rw [q] at hn; cases hn
      | none =>
        have hne : d' ≠ d := fun e => by rw [e, hd] at q; cases q
        simp only [hd] at hn
        split at hn <;> (simp only [Function.update_of_ne hne] at hn; rw [q] at hn; cases hn)

theorem resetAll_mono {ind : Int → Bool} : ∀ (l : List Int) (s : Reset) (d v : Int), s.old2new d = some v →
    (resetAll ind s l).2.old2new d = some v := by
  intro l
  induction l with
  | nil => intro s d v h; exact h
  | cons a l ih =>
    intro s d v h
    simp only [resetAll]
    refine ih _ d v ?_
    unfold resetOne
    cases ha : s.old2new a with
    | some w => exact h
    | none =>
      have hne : d ≠ a := fun e => by rw [e, ha] at h; cases h
      dsimp only
      split <;> (simp only [Function.update_of_ne hne]; exact h)

theorem resetRows_congr {ind ind' : Int → Bool} : ∀ (rows : List (List Int)) (s : Reset),
    (∀ d ∈ rows.flatten, s.old2new d = none → ind d = ind' d) → resetRows ind s rows = resetRows ind' s rows := by
  intro rows
  induction rows with
  | nil => intro s _; rfl
  | cons r rows ih =>
    intro s h
    have h1 : resetAll ind s r = resetAll ind' s r := resetAll_congr r s fun d hd => h d (by simp [hd])
    simp only [resetRows, h1]
    rw [ih (resetAll ind' s r).2]
    intro d hd hn
    refine h d (by simp at hd ⊢; exact Or.inr hd) ?_
    cases q : s.old2new d with
    | none => rfl
    | some v => rw [resetAll_mono r s d v q] at hn; cases hn

/-- What is known about a finished renumbering. -/
theorem finished {ind : Int → Bool} {s' : Reset} {l : List Int} (h1 : start.After ind s' l) :
    (∀ d ∈ l, ∀ d' ∈ l, (s'.old2new d).getD 0 = (s'.old2new d').getD 0 → d = d') ∧
    (∀ d ∈ l, (0 ≤ (s'.old2new d).getD 0 ↔ 0 ≤ d ∧ ind d = true)) ∧
    ∀ v : Int, (-(-s'.dofNewBoundary - 1) ≤ v ∧ v < s'.dofNew.toNat) ↔ ∃ d ∈ l, (s'.old2new d).getD 0 = v := by
  refine ⟨fun d hd d' hd' h => ?_, fun d hd => ?_, fun v => ⟨fun ⟨hv1, hv2⟩ => ?_, ?_⟩⟩
  · obtain ⟨v, hv⟩ := h1.seen d hd
    obtain ⟨v', hv'⟩ := h1.seen d' hd'
    rw [hv, hv'] at h
    simp only [Option.getD_some] at h
    subst h
    exact h1.ok.inj d d' v hv hv'
  · obtain ⟨v, hv⟩ := h1.seen d hd
    rw [hv]
    exact h1.ok.sign d v hv
  · have := h1.ok.new
    obtain ⟨d, hd⟩ := h1.ok.onto v (by omega) (by omega)
    refine ⟨d, ?_, by rw [hd]; rfl⟩
    rcases h1.only d v hd with q | q
    · cases q
    · exact q
  · rintro ⟨d, hd, rfl⟩
    obtain ⟨v, hv⟩ := h1.seen d hd
    rw [hv, Option.getD_some]
    have := h1.ok.range d v hv
    have := h1.ok.new
    omega

/-- Writing consistent pairs. -/
theorem writeIndex_fold : ∀ (L : List (Int × Int)) (mem : List Int),
    (L.foldl writeIndex mem).length = mem.length ∧
    ∀ e : Nat, e < mem.length → ((L.foldl writeIndex mem).getD e 0 = mem.getD e 0 ∧ (∀ p ∈ L, p.1 ≠ (e : Int))) ∨
      ∃ p ∈ L, p.1 = (e : Int) ∧ (L.foldl writeIndex mem).getD e 0 = p.2 := by
  intro L
  induction L with
  | nil => intro mem; simp
  | cons a L ih =>
    intro mem
    have hlen : (writeIndex mem a).length = mem.length := by unfold writeIndex; split <;> simp
    obtain ⟨h1, h2⟩ := ih (writeIndex mem a)
    refine ⟨by rw [List.foldl_cons, h1, hlen], fun e he => ?_⟩
    rw [List.foldl_cons]
    rcases h2 e (by omega) with ⟨h3, h4⟩ | ⟨p, hp, h3, h4⟩
    · by_cases q : a.1 = (e : Int)
      · refine Or.inr ⟨a, by simp, q, ?_⟩
        rw [h3]
        unfold writeIndex
        rw [if_pos (by omega), q, Int.toNat_natCast, List.getD_eq_getElem _ _ (by simpa using he), List.getElem_set_self]
      · refine Or.inl ⟨?_, fun p hp => ?_⟩
        · rw [h3]
          unfold writeIndex
          split
          · rw [List.getD_eq_getElem _ _ (by simpa using he), List.getElem_set_ne (by omega), List.getD_eq_getElem _ _ he]
          · rfl
        · rcases List.mem_cons.1 hp with rfl | hp
          · exact q
          · exact h4 p hp
    · exact Or.inr ⟨p, by simp [hp], h3, h4⟩

theorem cellIndices_spec (n : Nat) : ∀ (sel : List Nat), (∀ c ∈ sel, c < n) →
    (cellIndices n sel).length = n ∧ ∀ c, c < n → ((cellIndices n sel).getD c (-1) = -1 ∧ c ∉ sel) ∨
      ∃ k : Nat, (cellIndices n sel).getD c (-1) = (k : Int) ∧ sel[k]? = some c := by
  intro sel
  induction sel using List.reverseRecOn with
  | nil => 
    intro _
    simp only [cellIndices, List.zipIdx_nil, List.foldl_nil, List.length_replicate, true_and]
    intro c hc
    left
    rw [List.getD_eq_getElem _ _ (by simpa using hc)]
    simp
  | append_singleton l a ih =>
    intro h
    obtain ⟨h1, h2⟩ := ih fun c hc => h c (by simp [hc])
    have e : cellIndices n (l ++ [a]) = (cellIndices n l).set a (l.length : Int) := by
      simp [cellIndices, List.zipIdx_append, List.foldl_append]
    rw [e]
    refine ⟨by rw [List.length_set, h1], fun c hc => ?_⟩
    by_cases q : c = a
    · subst q
      refine Or.inr ⟨l.length, ?_, by simp⟩
      rw [List.getD_eq_getElem _ _ (by rw [List.length_set, h1]; exact hc), List.getElem_set_self]
    · have e2 : ((cellIndices n l).set a (l.length : Int)).getD c (-1) = (cellIndices n l).getD c (-1) := by
        rw [List.getD_eq_getElem _ _ (by rw [List.length_set, h1]; exact hc), List.getElem_set_ne (Ne.symm q),
          List.getD_eq_getElem _ _ (by rw [h1]; exact hc)]
      rw [e2]
      rcases h2 c hc with ⟨h3, h4⟩ | ⟨k, h3, h4⟩
      · exact Or.inl ⟨h3, by simp [h4, q]⟩
      · refine Or.inr ⟨k, h3, ?_⟩
        have hk : k < l.length := by
          by_contra hk
          rw [List.getElem?_eq_none (by omega)] at h4
          cases h4
        rw [List.getElem?_append_left hk]
        exact h4

theorem foldl_flat {α β σ : Type} (f : σ → β → σ) (g : α → List β) : ∀ (l : List α) (s : σ),
    l.foldl (fun s a => (g a).foldl f s) s = (l.flatMap g).foldl f s := by
  intro l
  induction l with
  | nil => intro s; rfl
  | cons a l ih => intro s; rw [List.foldl_cons, ih, List.flatMap_cons, List.foldl_append]

/-- Pairs written by `indices2`. -/
def written (dofs sub : List (List Int)) (new : List Int) : List (Int × Int) :=
  (List.range dofs.length).flatMap fun c =>
    if 0 ≤ new.getD c (-1) then (sub.getD (new.getD c (-1)).toNat []).zip (dofs.getD c []) else []

theorem indices2_eq (mem : List Int) (dofs sub : List (List Int)) (new : List Int) :
    indices2 mem dofs sub new = (written dofs sub new).foldl writeIndex mem := by
  unfold indices2 written
  rw [← foldl_flat]
  congr 1
  funext s c
  dsimp only
  split <;> rfl

theorem zip_map_self {α β : Type} (f : α → β) (l : List α) : (l.map f).zip l = l.map fun a => (f a, a) := by
  induction l with
  | nil => rfl
  | cons a l ih => simp [ih]

theorem zip_self_map {α β : Type} (f : α → β) (l : List α) : l.zip (l.map f) = l.map fun a => (a, f a) := by
  induction l with
  | nil => rfl
  | cons a l ih => simp [ih]

theorem mem_written {dofs : List (List Int)} {sel : List Nat} (hsel : ∀ c ∈ sel, c < dofs.length) (f : Int → Int) (p : Int × Int) :
    p ∈ written dofs ((rowsOf dofs sel).map fun r => r.map f) (cellIndices dofs.length sel) ↔
      ∃ d ∈ (rowsOf dofs sel).flatten, p = (f d, d) := by
  obtain ⟨h1, h2⟩ := cellIndices_spec dofs.length sel hsel
  have row : ∀ (k c : Nat), sel[k]? = some c →
      ((rowsOf dofs sel).map fun r => r.map f).getD k [] = (dofs.getD c []).map f := by
    intro k c hk
    rw [List.getD_eq_getElem?_getD, List.getElem?_map, rowsOf, List.getElem?_map, hk]
    rfl
  unfold written
  rw [List.mem_flatMap]
  constructor
  · rintro ⟨c, hc, hp⟩
    rw [List.mem_range] at hc
    rcases h2 c hc with ⟨h3, _⟩ | ⟨k, h3, h4⟩
    · rw [h3] at hp
      simp at hp
    · rw [h3, if_pos (by omega), Int.toNat_natCast, row k c h4, zip_map_self] at hp
      obtain ⟨d, hd, rfl⟩ := List.mem_map.1 hp
      refine ⟨d, List.mem_flatten.2 ⟨_, List.mem_map.2 ⟨c, List.mem_of_getElem? h4, rfl⟩, hd⟩, rfl⟩
  · rintro ⟨d, hd, rfl⟩
    obtain ⟨r, hr, hd⟩ := List.mem_flatten.1 hd
    obtain ⟨c, hc, rfl⟩ := List.mem_map.1 hr
    refine ⟨c, List.mem_range.2 (hsel c hc), ?_⟩
    rcases h2 c (hsel c hc) with ⟨_, h4⟩ | ⟨k, h3, h4⟩
    · exact absurd hc h4
    · rw [h3, if_pos (by omega), Int.toNat_natCast, row k c h4, zip_map_self]
      exact List.mem_map.2 ⟨d, hd, rfl⟩

/-! ### The matrix -/

theorem range_indptr (n : Nat) : ValidIndptr (List.range (n + 1)) n n where
  length := by simp
  first := by simp
  last := by simp
  mono := fun i hi => by
    rw [List.getD_eq_getElem _ _ (by simp; omega), List.getD_eq_getElem _ _ (by simp; omega)]
    simp

theorem pick_valid {K : Type} [One K] {n m : Nat} {ind : List Int} (hl : ind.length = n) (hr : ∀ d ∈ ind, 0 ≤ d ∧ d < m) :
    (pick n m ind : CSR K).Valid where
  indptr := by simp only [pick, List.length_map, hl]; exact range_indptr n
  data := by simp [pick]
  cols := fun j hj => by
    simp only [pick, List.mem_map] at hj
    obtain ⟨d, hd, rfl⟩ := hj
    have := hr d hd
    show d.toNat < m
    omega

theorem pick_row {K : Type} [One K] {n m : Nat} {ind : List Int} (hl : ind.length = n) (i : Nat) (hi : i < n) :
    (pick n m ind : CSR K).row i = [((ind.getD i 0).toNat, 1)] := by
  have h1 : (List.range (n + 1)).getD i 0 = i := by rw [List.getD_eq_getElem _ _ (by simp; omega)]; simp
  have h2 : (List.range (n + 1)).getD (i + 1) 0 = i + 1 := by rw [List.getD_eq_getElem _ _ (by simp; omega)]; simp
  simp only [CSR.row, csrRow, pick, h1, h2]
  rw [show i + 1 - i = 1 by omega, List.take_one, List.head?_drop, List.getElem?_eq_getElem (by simp; omega)]
  rw [List.getD_eq_getElem _ _ (show i < ind.length by omega)]
  simp

theorem pick_entry {K : Type} [AddMonoidWithOne K] {n m : Nat} {ind : List Int} (hl : ind.length = n) (i j : Nat) (hi : i < n) :
    (pick n m ind : CSR K).entry i j = if (ind.getD i 0).toNat = j then 1 else 0 := by
  rw [CSR.entry, pick_row hl i hi]
  generalize (ind.getD i 0).toNat = k
  by_cases h : k = j
  · simp [h]
  · simp [h]

/-! ### The maps with the same cells -/

theorem mem_pairs (dofs : List (List Int)) (f : Int → Int) :
    pairs dofs (dofs.map fun r => r.map f) = dofs.flatten.map fun d => (d, f d) := by
  unfold pairs
  rw [zip_self_map]
  induction dofs with
  | nil => rfl
  | cons r dofs ih => simp only [List.map_cons, List.flatMap_cons, ih, List.flatten_cons, List.map_append, zip_self_map]

theorem countOne_fold : ∀ (L : List (Int × Int)) (s : List Int × Nat), s.1.Nodup → s.1.length = s.2 → (∀ v ∈ s.1, 0 ≤ v) →
    (L.foldl countOne s).1.Nodup ∧ (L.foldl countOne s).1.length = (L.foldl countOne s).2 ∧
    ∀ v, v ∈ (L.foldl countOne s).1 ↔ v ∈ s.1 ∨ ∃ p ∈ L, 0 ≤ p.1 ∧ 0 ≤ p.2 ∧ p.2 = v := by
  intro L
  induction L with
  | nil => intro s h1 h2 _; simp [h1, h2]
  | cons a L ih =>
    intro s h1 h2 h3
    rw [List.foldl_cons]
    by_cases q : 0 ≤ a.1 ∧ 0 ≤ a.2 ∧ a.2 ∉ s.1
    · have e : countOne s a = (a.2 :: s.1, s.2 + 1) := by unfold countOne; rw [if_pos q]
      rw [e]
      obtain ⟨h4, h5, h6⟩ := ih (a.2 :: s.1, s.2 + 1) (List.nodup_cons.2 ⟨q.2.2, h1⟩) (by simp [h2]) (by
        intro v hv
        rcases List.mem_cons.1 hv with rfl | hv
        · exact q.2.1
        · exact h3 v hv)
      refine ⟨h4, h5, fun v => ?_⟩
      rw [h6]
      simp only [List.mem_cons, exists_eq_or_imp]
      constructor
      · rintro ((rfl | h) | h)
        · exact Or.inr (Or.inl ⟨q.1, q.2.1, rfl⟩)
        · exact Or.inl h
        · exact Or.inr (Or.inr h)
      · rintro (h | ⟨_, _, rfl⟩ | h)
        · exact Or.inl (Or.inr h)
        · exact Or.inl (Or.inl rfl)
        · exact Or.inr h
    · have e : countOne s a = s := by unfold countOne; rw [if_neg q]
      rw [e]
      obtain ⟨h4, h5, h6⟩ := ih s h1 h2 h3
      refine ⟨h4, h5, fun v => ?_⟩
      rw [h6]
      simp only [List.mem_cons, exists_eq_or_imp]
      constructor
      · rintro (h | h)
        · exact Or.inl h
        · exact Or.inr (Or.inr h)
      · rintro (h | ⟨p1, p2, rfl⟩ | h)
        · exact Or.inl h
        · left; by_contra hv; exact q ⟨p1, p2, hv⟩
        · exact Or.inr h

theorem indexOne_fold (L : List (Int × Int)) : ∀ (s : List Int × List Int),
    (∀ p ∈ L, 0 ≤ p.1 → 0 ≤ p.2 → p.2 < s.2.length) → ∃ s', L.foldlM indexOne s = some s' ∧ s'.2.length = s.2.length ∧
      (∀ v, v ∈ s'.1 ↔ v ∈ s.1 ∨ ∃ p ∈ L, 0 ≤ p.1 ∧ 0 ≤ p.2 ∧ p.2 = v) ∧
      ∀ e : Nat, e < s.2.length → (((e : Int) ∈ s.1 ∨ ∀ p ∈ L, 0 ≤ p.1 → p.2 ≠ (e : Int)) → s'.2.getD e 0 = s.2.getD e 0) ∧
        ((e : Int) ∉ s.1 → ∀ p ∈ L, 0 ≤ p.1 → p.2 = (e : Int) → ∃ q ∈ L, 0 ≤ q.1 ∧ q.2 = (e : Int) ∧ s'.2.getD e 0 = q.1) := by
  induction L with
  | nil => intro s _; exact ⟨s, rfl, rfl, by simp, by simp⟩
  | cons a L ih =>
    intro s h
    by_cases q : 0 ≤ a.1 ∧ 0 ≤ a.2 ∧ a.2 ∉ s.1
    · have hlt := h a (by simp) q.1 q.2.1
      have e1 : indexOne s a = some (a.2 :: s.1, s.2.set a.2.toNat a.1) := by
        unfold indexOne; rw [if_pos q, if_pos (by omega)]
      obtain ⟨s', h1, h2, h3, h4⟩ := ih (a.2 :: s.1, s.2.set a.2.toNat a.1) (by
        intro p hp; rw [List.length_set]; exact h p (by simp [hp]))
      simp only [List.length_set] at h2 h4
      refine ⟨s', by rw [List.foldlM_cons, e1]; exact h1, h2, fun v => ?_, fun e he => ⟨fun hor => ?_, fun hn p hp hp1 hp2 => ?_⟩⟩
      · rw [h3]
        simp only [List.mem_cons, exists_eq_or_imp]
        constructor
        · rintro ((rfl | h) | h)
          · exact Or.inr (Or.inl ⟨q.1, q.2.1, rfl⟩)
          · exact Or.inl h
          · exact Or.inr (Or.inr h)
        · rintro (h | ⟨_, _, rfl⟩ | h)
          · exact Or.inl (Or.inr h)
          · exact Or.inl (Or.inl rfl)
          · exact Or.inr h
      · have hne : a.2 ≠ (e : Int) := by
          rcases hor with hor | hor
          · intro hh; exact q.2.2 (hh ▸ hor)
          · exact hor a (by simp) q.1
        rw [(h4 e he).1 (by
          rcases hor with hor | hor
          · exact Or.inl (by simp [hor])
          · exact Or.inr fun p hp => hor p (by simp [hp]))]
        rw [List.getD_eq_getElem _ _ (by simpa using he), List.getElem_set_ne (by omega), List.getD_eq_getElem _ _ he]
      · by_cases hae : a.2 = (e : Int)
        · refine ⟨a, by simp, q.1, hae, ?_⟩
          rw [(h4 e he).1 (Or.inl (by simp [hae])), hae, Int.toNat_natCast, List.getD_eq_getElem _ _ (by simpa using he),
            List.getElem_set_self]
        · have hp' : p ∈ L := by
            rcases List.mem_cons.1 hp with rfl | hp
            · exact absurd hp2 hae
            · exact hp
          obtain ⟨r, hr, r1, r2, r3⟩ := (h4 e he).2 (by simp [hn, Ne.symm hae]) p hp' hp1 hp2
          exact ⟨r, by simp [hr], r1, r2, r3⟩
    · have e1 : indexOne s a = some s := by unfold indexOne; rw [if_neg q]
      obtain ⟨s', h1, h2, h3, h4⟩ := ih s fun p hp => h p (by simp [hp])
      refine ⟨s', by rw [List.foldlM_cons, e1]; exact h1, h2, fun v => ?_, fun e he => ⟨fun hor => ?_, fun hn p hp hp1 hp2 => ?_⟩⟩
      · rw [h3]
        simp only [List.mem_cons, exists_eq_or_imp]
        constructor
        · rintro (h | h)
          · exact Or.inl h
          · exact Or.inr (Or.inr h)
        · rintro (h | ⟨p1, p2, rfl⟩ | h)
          · exact Or.inl h
          · left; by_contra hv; exact q ⟨p1, p2, hv⟩
          · exact Or.inr h
      · exact (h4 e he).1 (by
          rcases hor with hor | hor
          · exact Or.inl hor
          · exact Or.inr fun p hp => hor p (by simp [hp]))
      · have hp' : p ∈ L := by
          rcases List.mem_cons.1 hp with rfl | hp
          · exact absurd ⟨hp1, by omega, by rw [hp2]; exact hn⟩ q
          · exact hp
        obtain ⟨r, hr, r1, r2, r3⟩ := (h4 e he).2 hn p hp' hp1 hp2
        exact ⟨r, by simp [hr], r1, r2, r3⟩

/-! ### Kept numbers -/

/-- The negative part of a renumbering by `keepOne`. -/
structure KeepAfter (s s' : Reset) (l : List Int) : Prop where
  bnd : s'.dofNewBoundary ≤ -1
  mono : ∀ d v, s.old2new d = some v → s'.old2new d = some v
  seen : ∀ d ∈ l, d < 0 → ∃ v, s'.old2new d = some v
  only : ∀ d v, s'.old2new d = some v → s.old2new d = some v ∨ (d ∈ l ∧ d < 0)
  range : ∀ d v, s'.old2new d = some v → s'.dofNewBoundary < v ∧ v < 0
  inj : ∀ d d' v, s'.old2new d = some v → s'.old2new d' = some v → d = d'
  onto : ∀ v, s'.dofNewBoundary < v → v < 0 → ∃ d, s'.old2new d = some v

/-- The function of a dictionary of boundary dofs. -/
def kept (s : Reset) (d : Int) : Int := if d < 0 then (s.old2new d).getD 0 else d

theorem KeepAfter.refl {s s' : Reset} {l : List Int} (h : KeepAfter s s' l) : KeepAfter s' s' [] :=
  ⟨h.bnd, fun _ _ q => q, (fun d hd => by cases hd), fun _ _ q => Or.inl q, h.range, h.inj, h.onto⟩

theorem KeepAfter.trans {s s' s'' : Reset} {l l' : List Int} (h : KeepAfter s s' l) (h' : KeepAfter s' s'' l') : KeepAfter s s'' (l ++ l') where
  bnd := h'.bnd
  mono := fun d v q => h'.mono d v (h.mono d v q)
  seen := fun d hd hn => by
    rcases List.mem_append.1 hd with q | q
    · obtain ⟨v, hv⟩ := h.seen d q hn; exact ⟨v, h'.mono d v hv⟩
    · exact h'.seen d q hn
  only := fun d v q => by
    rcases h'.only d v q with q | q
    · rcases h.only d v q with q | q
      · exact Or.inl q
      · exact Or.inr ⟨List.mem_append.2 (Or.inl q.1), q.2⟩
    · exact Or.inr ⟨List.mem_append.2 (Or.inr q.1), q.2⟩
  range := h'.range
  inj := h'.inj
  onto := h'.onto

theorem keepOne_spec (s : Reset) (h : KeepAfter s s []) (d : Int) :
    KeepAfter s (keepOne s d).2 [d] ∧ (keepOne s d).1 = kept (keepOne s d).2 d := by
  unfold keepOne
  by_cases hd : d < 0
  · rw [if_pos hd]
    cases hq : s.old2new d with
    | some v =>
      dsimp only
      refine ⟨⟨h.bnd, fun _ _ q => q, fun d' hd' _ => ?_, fun _ _ q => Or.inl q, h.range, h.inj, h.onto⟩, ?_⟩
      · rw [List.mem_singleton.1 hd']; exact ⟨v, hq⟩
      · unfold kept; rw [if_pos hd, hq]; rfl
    | none =>
      dsimp only
      have hb := h.bnd
      refine ⟨⟨by dsimp only; omega, fun d' v q => ?_, fun d' hd' _ => ?_, fun d' v q => ?_, fun d' v q => ?_, fun d1 d2 v q1 q2 => ?_, fun v hv1 hv2 => ?_⟩, ?_⟩
      · have : d' ≠ d := fun e => by rw [e, hq] at q; cases q
        simp only [Function.update_of_ne this]; exact q
      · rw [List.mem_singleton.1 hd']; exact ⟨s.dofNewBoundary, by simp⟩
      · by_cases e : d' = d
        · exact Or.inr ⟨by simp [e], by omega⟩
        · simp only [Function.update_of_ne e] at q; exact Or.inl q
      · by_cases e : d' = d
        · subst e; simp only [Function.update_self] at q; cases q; dsimp only; omega
        · simp only [Function.update_of_ne e] at q; have := h.range d' v q; dsimp only; omega
      · by_cases e1 : d1 = d <;> by_cases e2 : d2 = d
        · rw [e1, e2]
        · subst e1; simp only [Function.update_self, Function.update_of_ne e2] at q1 q2; cases q1; have := h.range _ _ q2; omega
        · subst e2; simp only [Function.update_self, Function.update_of_ne e1] at q1 q2; cases q2; have := h.range _ _ q1; omega
        · simp only [Function.update_of_ne e1, Function.update_of_ne e2] at q1 q2; exact h.inj d1 d2 v q1 q2
      · dsimp only at hv1
        by_cases e : v = s.dofNewBoundary
        · exact ⟨d, by simp [e]⟩
        · obtain ⟨d', hd'⟩ := h.onto v (by omega) hv2
          have : d' ≠ d := fun e => by rw [e, hq] at hd'; cases hd'
          exact ⟨d', by simp only [Function.update_of_ne this]; exact hd'⟩
      · unfold kept; rw [if_pos hd]; simp
  · rw [if_neg hd]
    refine ⟨⟨h.bnd, fun _ _ q => q, fun d' hd' hn => ?_, fun _ _ q => Or.inl q, h.range, h.inj, h.onto⟩, ?_⟩
    · rw [List.mem_singleton.1 hd'] at hn; exact absurd hn hd
    · unfold kept; rw [if_neg hd]

theorem kept_mono {s s' : Reset} {l l' : List Int} {r : Reset} (h1 : KeepAfter r s l) (h2 : KeepAfter s s' l') (d : Int) (hd : d ∈ l) :
    kept s' d = kept s d := by
  unfold kept
  split
  · rename_i hn
    obtain ⟨v, hv⟩ := h1.seen d hd hn
    rw [hv, h2.mono d v hv]
  · rfl

theorem keepAll_spec : ∀ (l : List Int) (s : Reset), KeepAfter s s [] → KeepAfter s (keepAll s l).2 l ∧
    (keepAll s l).1 = l.map (kept (keepAll s l).2) := by
  intro l
  induction l with
  | nil => intro s h; exact ⟨h, rfl⟩
  | cons d l ih =>
    intro s h
    obtain ⟨h1, h2⟩ := keepOne_spec s h d
    obtain ⟨h3, h4⟩ := ih _ h1.refl
    simp only [keepAll]
    refine ⟨h1.trans h3, ?_⟩
    rw [List.map_cons, ← h4, h2, kept_mono h1 h3 d (by simp)]

theorem keepRows_spec : ∀ (rows : List (List Int)) (s : Reset), KeepAfter s s [] → KeepAfter s (keepRows s rows).2 rows.flatten ∧
    (keepRows s rows).1 = rows.map fun r => r.map (kept (keepRows s rows).2) := by
  intro rows
  induction rows with
  | nil => intro s h; exact ⟨h, rfl⟩
  | cons r rows ih =>
    intro s h
    obtain ⟨h1, h2⟩ := keepAll_spec r s h
    obtain ⟨h3, h4⟩ := ih _ h1.refl
    simp only [keepRows]
    refine ⟨h1.trans h3, ?_⟩
    rw [List.map_cons, ← h4, h2]
    congr 1
    exact List.map_congr_left fun d hd => (kept_mono h1 h3 d hd).symm

theorem start_keep : KeepAfter start start [] :=
  ⟨by decide, fun _ _ q => q, (fun d hd => by cases hd), fun _ _ q => Or.inl q, (fun d v h => by cases h), (fun d d' v h => by cases h),
    (fun v h1 h2 => by simp only [start] at h1; omega)⟩

/-! ### Tags -/

theorem tagTable_spec {κ : Type} [DecidableEq κ] : ∀ (old : List (κ × Int)), (old.map Prod.fst).Nodup → ∀ k v,
    tagTable old k = some v ↔ (k, v) ∈ old := by
  intro old
  induction old using List.reverseRecOn with
  | nil => intro _ k v; simp [tagTable]
  | append_singleton l a ih =>
    intro h k v
    rw [List.map_append, List.nodup_append] at h
    have e : tagTable (l ++ [a]) = Function.update (tagTable l) a.1 (some a.2) := by simp [tagTable]
    rw [e]
    by_cases q : k = a.1
    · subst q
      simp only [Function.update_self, List.mem_append, List.mem_singleton]
      constructor
      · intro hh; cases hh; exact Or.inr rfl
      · rintro (hh | hh)
        · exact absurd rfl (h.2.2 a.1 (List.mem_map.2 ⟨_, hh, rfl⟩) a.1 (by simp))
        · rw [← hh]
    · rw [Function.update_of_ne q, ih h.1 k v]
      simp only [List.mem_append, List.mem_singleton]
      constructor
      · exact Or.inl
      · rintro (hh | hh)
        · exact hh
        · exact absurd (by rw [← hh]) q

theorem popTags_spec {κ : Type} [DecidableEq κ] : ∀ (new : List (κ × Int)) (t : κ → Option Int), (new.map Prod.fst).Nodup →
    popTags t new = new.map fun e => (t e.1).getD e.2 := by
  intro new
  induction new with
  | nil => intro t _; rfl
  | cons a l ih =>
    intro t h
    rw [List.map_cons, List.nodup_cons] at h
    unfold popTags
    cases hq : t a.1 with
    | none => simp only [List.map_cons, hq, Option.getD_none, ih t h.2]
    | some v =>
      simp only [List.map_cons, hq, Option.getD_some, ih _ h.2]
      congr 1
      refine List.map_congr_left fun e he => ?_
      rw [Function.update_of_ne]
      intro hh
      exact h.1 (hh ▸ List.mem_map.2 ⟨e, he, rfl⟩)

end PyNucleus.Splitting
