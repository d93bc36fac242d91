import Verif.Model.LevelErrors
import Mathlib.Data.List.GetD
import Mathlib.Tactic.FieldSimp
import Mathlib.Tactic.Ring
import Mathlib.Tactic.Linarith

namespace PyNucleus.LevelErrors

variable {K : Type} [Field K] [LinearOrder K]

theorem find_spec : ∀ (ts : List K) (t : K), 2 ≤ ts.length → t ≤ ts.getLast?.getD 0 →
    ts.headD 0 ≤ t →
    ∃ j, find ts t = some j ∧ j + 1 < ts.length ∧ ts.getD j 0 ≤ t ∧ t ≤ ts.getD (j + 1) 0
  | [], _, h, _, _ => by simp at h
  | [_], _, h, _, _ => by simp at h
  | t0 :: t1 :: ts, t, _, hl, hh => by
    by_cases h : t1 < t
    · have h2 : 2 ≤ (t1 :: ts).length := by
        cases ts with
        | nil => simp at hl; exact absurd h (not_lt.2 hl)
        | cons _ _ => simp
      obtain ⟨j, hj, hlt, h3, h4⟩ := find_spec (t1 :: ts) t h2 (by simpa using hl) h.le
      refine ⟨j + 1, by simp [find, h, hj], by simpa using hlt, by simpa using h3, ?_⟩
      simpa using h4
    · exact ⟨0, by simp [find, h], by simp, by simpa using hh, by simpa using le_of_not_gt h⟩

theorem find_some : ∀ (ts : List K) (t : K) (j : Nat), find ts t = some j →
    j + 1 < ts.length ∧ t ≤ ts.getD (j + 1) 0
  | [], _, _, h => by simp [find] at h
  | [_], _, _, h => by simp [find] at h
  | t0 :: t1 :: ts, t, j, h => by
    by_cases h1 : t1 < t
    · simp only [find, h1, if_true, Option.map_eq_some_iff] at h
      obtain ⟨i, hi, rfl⟩ := h
      have := find_some (t1 :: ts) t i hi
      exact ⟨by simpa using this.1, by simpa using this.2⟩
    · simp only [find, h1, if_false, Option.some.injEq] at h
      subst h
      exact ⟨by simp, by simpa using le_of_not_gt h1⟩

theorem lt_of_sorted {ts : List K} (h : ts.Pairwise (· < ·)) {i j : Nat} (hij : i < j)
    (hj : j < ts.length) : ts.getD i 0 < ts.getD j 0 := by
  rw [List.getD_eq_getElem _ _ (hij.trans hj), List.getD_eq_getElem _ _ hj]
  exact List.pairwise_iff_getElem.1 h i j (hij.trans hj) hj hij

theorem getLast_getD (l : List K) : l.getLast?.getD 0 = l.getD (l.length - 1) 0 := by
  rw [List.getLast?_eq_getElem?, List.getD_eq_getElem?_getD]

theorem le_last {ts : List K} (h : ts.Pairwise (· < ·)) {i : Nat} (hi : i < ts.length) :
    ts.getD i 0 ≤ ts.getLast?.getD 0 := by
  rw [getLast_getD]
  rcases Nat.lt_or_ge i (ts.length - 1) with h1 | h1
  · exact (lt_of_sorted h h1 (by omega)).le
  · rw [show i = ts.length - 1 by omega]

/-- A row is found exactly for times within the range. -/
theorem interpolate_isSome (ts : List K) (u : List (Row K)) (t : K) (h2 : 2 ≤ ts.length)
    (hs : ts.Pairwise (· < ·)) :
    (interpolate ts u t).isSome = true ↔ ts.headD 0 ≤ t ∧ t ≤ ts.getLast?.getD 0 := by
  constructor
  · intro h
    unfold interpolate at h
    cases hf : find ts t with
    | none => simp [hf] at h
    | some j =>
      simp only [hf, Option.bind_some] at h
      split at h
      · rename_i hc
        have hj := find_some ts t j hf
        refine ⟨?_, hc.2.1.trans (le_last hs hj.1)⟩
        refine le_trans ?_ hc.1
        cases ts with
        | nil => simp at h2
        | cons a l =>
          rcases Nat.eq_zero_or_pos j with rfl | hp
          · simp
          · have := lt_of_sorted hs hp (by omega)
            simpa using this.le
      · simp at h
  · rintro ⟨h1, h3⟩
    obtain ⟨j, hj, hlt, h4, h5⟩ := find_spec ts t h2 h3 h1
    unfold interpolate
    have hne := (lt_of_sorted hs (Nat.lt_succ_self j) hlt).ne
    simp only [hj, Option.bind_some]
    rw [if_pos ⟨h4, h5, hne⟩]; rfl

variable [IsStrictOrderedRing K]

theorem interpolate_spec (ts : List K) (u : List (Row K)) (t : K) (h2 : 2 ≤ ts.length)
    (hs : ts.Pairwise (· < ·)) (h1 : ts.headD 0 ≤ t) (h3 : t ≤ ts.getLast?.getD 0) :
    ∃ j w, j + 1 < ts.length ∧ 0 ≤ w ∧ w ≤ 1 ∧ t = (1 - w) * ts.getD j 0 + w * ts.getD (j + 1) 0 ∧
      interpolate ts u t = some fun i => (1 - w) * u.getD j 0 i + w * u.getD (j + 1) 0 i := by
  obtain ⟨j, hj, hlt, h4, h5⟩ := find_spec ts t h2 h3 h1
  have hl := lt_of_sorted hs (Nat.lt_succ_self j) hlt
  have hpos : 0 < ts.getD (j + 1) 0 - ts.getD j 0 := sub_pos.2 hl
  refine ⟨j, (t - ts.getD j 0) / (ts.getD (j + 1) 0 - ts.getD j 0), hlt,
    div_nonneg (sub_nonneg.2 h4) hpos.le, (div_le_one hpos).2 (by linarith), ?_, ?_⟩
  · have := hpos.ne'
    field_simp
    ring
  · unfold interpolate
    simp only [hj, Option.bind_some]
    rw [if_pos ⟨h4, h5, hl.ne⟩]
    congr 1
    funext i
    have := hpos.ne'
    field_simp
    ring

theorem interpolate_affine (ts : List K) (u : List (Row K)) (a b : Row K) (t : K) (h2 : 2 ≤ ts.length)
    (hs : ts.Pairwise (· < ·)) (h1 : ts.headD 0 ≤ t) (h3 : t ≤ ts.getLast?.getD 0)
    (hu : u = ts.map fun s i => a i + s * b i) :
    interpolate ts u t = some fun i => a i + t * b i := by
  obtain ⟨j, w, hlt, _, _, ht, he⟩ := interpolate_spec ts u t h2 hs h1 h3
  rw [he]
  congr 1
  funext i
  have hg : ∀ k, k < ts.length → u.getD k 0 i = a i + ts.getD k 0 * b i := by
    intro k hk
    rw [hu, List.getD_eq_getElem _ _ (by simpa using hk), List.getElem_map, List.getD_eq_getElem _ _ hk]
  rw [hg j (by omega), hg (j + 1) hlt]
  conv_rhs => rw [ht]
  ring

theorem inner_affine (ts : List K) (u : List (Row K)) (a b : Row K) (h2 : 2 ≤ ts.length)
    (hs : ts.Pairwise (· < ·)) (hu : u = ts.map fun s i => a i + s * b i) (l : List K)
    (hl : ∀ t ∈ l, ts.headD 0 ≤ t ∧ t ≤ ts.getLast?.getD 0) :
    inner ts u l = some (l.map fun t i => a i + t * b i) := by
  induction l with
  | nil => rfl
  | cons t l ih =>
    have := hl t (by simp)
    rw [inner, interpolate_affine ts u a b t h2 hs this.1 this.2 hu, Option.bind_some,
      ih fun s hs => hl s (by simp [hs])]
    rfl

theorem inTime_affine (ts : List K) (u : List (Row K)) (a b : Row K) (fine : List K)
    (hs : ts.Pairwise (· < ·)) (hf : fine.Pairwise (· < ·)) (hu : u = ts.map fun s i => a i + s * b i)
    (hne : fine ≠ []) (hts : ts ≠ []) (hh : ts.headD 0 = fine.headD 0)
    (hl : ts.getLast?.getD 0 = fine.getLast?.getD 0) :
    inTime ts u fine = some (fine.map fun t i => a i + t * b i) := by
  have hlast : u.getLast? = some fun i => a i + ts.getLast?.getD 0 * b i := by
    rw [hu, List.getLast?_map, List.getLast?_eq_some_getLast hts]; rfl
  have hhead : u.head? = some fun i => a i + ts.headD 0 * b i := by
    rw [hu, List.head?_map]
    cases ts with
    | nil => exact absurd rfl hts
    | cons x l => rfl
  match fine, hne with
  | [t], _ =>
    have : ts.getLast?.getD 0 = t := by simpa using hl
    rw [this] at hlast
    simp [inTime, hlast]
  | t0 :: t :: l, _ =>
    have h2 : 2 ≤ ts.length := by
      match ts, hts with
      | [x], _ =>
        have h1 : x = t0 := by simpa using hh
        have h3 : x = (t0 :: t :: l).getLast?.getD 0 := by simpa using hl
        have h4 := le_last hf (i := 1) (by simp)
        have h5 := lt_of_sorted hf (i := 0) (j := 1) (by omega) (by simp)
        rw [← h3, h1] at h4
        simp at h4 h5
        exact absurd h5 (not_lt.2 h4)
      | _ :: _ :: _, _ => simp
    have hmem : ∀ s ∈ (t :: l).dropLast, ts.headD 0 ≤ s ∧ s ≤ ts.getLast?.getD 0 := by
      intro s hsm
      have hm := List.dropLast_subset _ hsm
      rw [hh, hl]
      refine ⟨((List.pairwise_cons.1 hf).1 s hm).le, ?_⟩
      obtain ⟨k, hk, rfl⟩ := List.getElem_of_mem hm
      have := le_last hf (i := k + 1) (by simpa using hk)
      rw [List.getD_eq_getElem _ _ (by simpa using hk)] at this
      simpa using this
    simp only [inTime, hhead, hlast, inner_affine ts u a b h2 hs hu _ hmem, Option.map_some]
    congr 1
    have hd : t :: l = (t :: l).dropLast ++ [(t :: l).getLast (by simp)] :=
      (List.dropLast_append_getLast (by simp)).symm
    have hgl : ts.getLast?.getD 0 = (t :: l).getLast (by simp) := by
      rw [hl, List.getLast?_eq_some_getLast (by simp)]
      simp
    conv_rhs => rw [List.map_cons, hd, List.map_append]
    rw [hgl, hh]
    rfl

theorem minus_self (u : List (Row K)) : minus u u = some (u.map fun _ _ => 0) := by
  simp only [minus, if_true]
  congr 1
  induction u with
  | nil => rfl
  | cons a u ih => simp

theorem errorList_const {E : Type} (f : Nat → Option E) (e : E) (l : List Nat)
    (h : ∀ i ∈ l, f i = some e) : errorList f l = some (List.replicate l.length e) := by
  induction l with
  | nil => rfl
  | cons i l ih =>
    rw [errorList, h i (by simp), Option.bind_some, ih fun j hj => h j (by simp [hj])]
    rfl

theorem length_errorList {E : Type} (f : Nat → Option E) (l : List Nat) (r : List E)
    (h : errorList f l = some r) : r.length = l.length := by
  induction l generalizing r with
  | nil => simp [errorList] at h; subst h; rfl
  | cons i l ih =>
    simp only [errorList] at h
    cases hf : f i with
    | none => simp [hf] at h
    | some e =>
      simp only [hf, Option.bind_some, Option.map_eq_some_iff] at h
      obtain ⟨r', h1, rfl⟩ := h
      simp [ih r' h1]

end PyNucleus.LevelErrors
