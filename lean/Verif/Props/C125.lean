import Verif.Model.HierarchyParts
import Mathlib.Tactic.Common

/-!
# C125: hierarchies of elements, parts of hierarchies, and managers of hierarchies

Code modelled: see Verif/Model/HierarchyParts.lean.
-/

namespace PyNucleus.Props.C125

open PyNucleus.HierarchyParts

variable {M T L : Type}

private theorem loop_levels (standard type : T) (mesh : M) (startNo : Nat) (el : List String) (p : Elem) (k : Nat) :
    (pLoop standard el k ⟨[⟨mesh, startNo, el.getD 0 "", type⟩], p⟩).levels
      = (List.range (k + 1)).map fun i => ⟨mesh, startNo + i, el.getD i "", if i = 0 then type else standard⟩ := by
  induction k with
  | zero => rfl
  | succ k ih =>
    have hl : (pLoop standard el k ⟨[⟨mesh, startNo, el.getD 0 "", type⟩], p⟩).levels.getLast?
        = some ⟨mesh, startNo + k, el.getD k "", if k = 0 then type else standard⟩ := by
      rw [ih, List.range_succ, List.map_append]; simp
    show (pRefine standard el _).levels = _
    unfold pRefine
    rw [hl]
    dsimp only
    rw [ih, List.range_succ (n := k + 1), List.map_append]
    simp [Nat.add_assoc]

private theorem loop_param (standard : T) (el : List String) (k : Nat) (s : PState M T) (hs : s.levels ≠ []) :
    (pLoop standard el (k + 1) s).param = .name (el.getD (s.levels.length + k) "") := by
  have hne : ∀ k, (pLoop standard el k s).levels.length = s.levels.length + k := by
    intro k
    induction k with
    | zero => rfl
    | succ k ih =>
      show (pRefine standard el _).levels.length = _
      unfold pRefine
      cases h : (pLoop standard el k s).levels.getLast? with
      | none =>
        have h0 := List.length_pos_iff.mpr hs
        rw [List.getLast?_eq_none_iff] at h
        rw [h] at ih; simp at ih; omega
      | some l => simp [ih, Nat.add_assoc]
  show (pRefine standard el _).param = _
  unfold pRefine
  cases h : (pLoop standard el k s).levels.getLast? with
  | none =>
    have h0 := List.length_pos_iff.mpr hs
    have := hne k
    rw [List.getLast?_eq_none_iff] at h
    rw [h] at this; simp at this; omega
  | some l => simp [hne k]

/-- A `pCoarsenHierarchy` has one level for each given element, all on the given mesh, numbered on from the start, and each with its element. -/
theorem p_levels (standard type : T) (mesh : M) (startNo noRef : Nat) (l : List String) (hl : l.length = noRef + 1) :
    ∃ s, pBuild standard mesh startNo noRef type (.names l) = some s ∧ s.levels.length = l.length ∧
      ∀ i (hi : i < l.length), ∃ v, s.levels[i]? = some v ∧ v.mesh = mesh ∧ v.no = startNo + i ∧ v.element = l[i] := by
  refine ⟨pLoop standard l noRef ⟨[⟨mesh, startNo, l.getD 0 "", type⟩], .name (l.getD 0 "")⟩, ?_, ?_, fun i hi => ?_⟩
  · simp [pBuild, pStart, Elem.entries, hl]
  · rw [loop_levels]; simp [hl]
  · rw [loop_levels]
    refine ⟨⟨mesh, startNo + i, l.getD i "", if i = 0 then type else standard⟩, ?_, rfl, rfl, ?_⟩
    · simp [List.getElem?_range (show i < noRef + 1 by omega)]
    · simp [hi]

/-- A wrong number of elements is rejected. -/
theorem p_number (standard type : T) (mesh : M) (startNo noRef : Nat) (l : List String) (hl : l.length ≠ noRef + 1) :
    pBuild standard mesh startNo noRef type (.names l) = none := by
  simp [pBuild, pStart, Elem.entries, Ne.symm hl]

/-- The type of the algebraic level is kept by the first level only: all others have the standard one. -/
theorem p_type (standard type : T) (mesh : M) (startNo noRef : Nat) (l : List String) (s : PState M T)
    (h : pBuild standard mesh startNo noRef type (.names l) = some s) (i : Nat) (v : PLevel M T) (hv : s.levels[i]? = some v) :
    v.type = if i = 0 then type else standard := by
  by_cases hl : noRef + 1 = l.length
  · simp only [pBuild, pStart, Elem.entries, hl, ↓reduceIte, Option.map_some, Option.some.injEq] at h
    subst h
    rw [loop_levels, List.getElem?_map] at hv
    cases hr : (List.range (noRef + 1))[i]? with
    | none => rw [hr] at hv; cases hv
    | some j =>
      rw [hr] at hv
      obtain ⟨hi, hj⟩ := List.getElem?_eq_some_iff.mp hr
      simp at hj
      simp only [Option.map_some, Option.some.injEq] at hv
      subst hv; subst hj; rfl
  · simp [pBuild, pStart, Elem.entries, hl] at h

/-- It is not true that all levels have the given type. -/
theorem p_type_fails : ¬ ∀ (standard type mesh startNo noRef : Nat) (l : List String) (s : PState Nat Nat),
    pBuild standard mesh startNo noRef type (.names l) = some s → ∀ v ∈ s.levels, v.type = type := by
  intro h
  have h1 := h 0 1 7 0 1 ["P1", "P2"] _ rfl ⟨7, 1, "P2", 0⟩ (by simp [pLoop, pRefine, Elem.entries])
  cases h1

/-- The dictionary of the caller is changed: afterwards it has the last element only. -/
theorem p_param (standard type : T) (mesh : M) (startNo noRef : Nat) (l : List String) (hl : l.length = noRef + 1) (s : PState M T)
    (h : pBuild standard mesh startNo noRef type (.names l) = some s) : ∃ e, l.getLast? = some e ∧ s.param = .name e := by
  simp only [pBuild, pStart, Elem.entries, hl, ↓reduceIte, Option.map_some, Option.some.injEq] at h
  subst h
  have hlast : l.getLast? = some (l.getD noRef "") := by
    rw [List.getLast?_eq_getElem?, hl]
    simp [show noRef < l.length by omega]
  refine ⟨_, hlast, ?_⟩
  cases noRef with
  | zero => rfl
  | succ k => rw [loop_param _ _ _ _ (by simp)]; simp [Nat.add_comm]

/-- So the same parameters cannot be used for a second hierarchy, unless the name of the last element has as many letters as there are levels. -/
theorem p_again (standard type : T) (mesh mesh' : M) (startNo noRef : Nat) (l : List String) (hl : l.length = noRef + 1) (s : PState M T)
    (h : pBuild standard mesh startNo noRef type (.names l) = some s) (hname : ∀ e ∈ l, e.toList.length ≠ l.length) :
    pBuild standard mesh' startNo noRef type s.param = none := by
  obtain ⟨e, he, hp⟩ := p_param standard type mesh startNo noRef l hl s h
  have hm := hname e (List.mem_of_getLast? he)
  rw [hp]
  simp only [pBuild, pStart, Elem.entries, List.length_map]
  rw [if_neg (by omega)]; rfl

/-- A part of a hierarchy has the coarsest `n + 1` levels. -/
theorem sub_levels (h h' : Hier L) (n : Int) (hs : subHierarchy h n = some h') :
    (h'.levels.length : Int) = n + 1 ∧ h'.levels <+: h.levels ∧ n < h.levels.length := by
  unfold subHierarchy at hs
  split at hs
  case isTrue hc =>
    injection hs with hs; subst hs
    refine ⟨?_, List.take_prefix _ _, hc.2.1⟩
    simp only [List.length_take]; omega
  case isFalse => cases hs

/-- For hierarchies without interior boundary layers there are parts for all `n` between zero and the number of the finest level. -/
theorem sub_exists_partial (h : Hier L) (n : Int) (hb : h.interiorBL = false) :
    (subHierarchy h n).isSome ↔ 0 ≤ n ∧ n < h.levels.length := by
  unfold subHierarchy; simp [hb]

/-- With interior boundary layers there is no part. -/
theorem sub_exists_fails : ¬ ∀ (h : Hier Nat) (n : Int), 0 ≤ n → n < h.levels.length → (subHierarchy h n).isSome := by
  intro h
  have := h ⟨[5], true, none, true⟩ 0 (by decide) (by decide)
  simp [subHierarchy] at this

/-- A part of a hierarchy that is set up is not set up, and its overlaps are those of all levels. -/
theorem sub_set_up_fails : (¬ ∀ (h h' : Hier Nat) (n : Int), subHierarchy h n = some h' → h'.setUp = h.setUp) ∧
    ¬ ∀ (h h' : Hier Nat) (n : Int), h.overlaps = some h.levels.length → subHierarchy h n = some h' → h'.overlaps = some h'.levels.length := by
  refine ⟨fun h => ?_, fun h => ?_⟩
  · exact absurd (h ⟨[5, 6], true, none, false⟩ ⟨[5], false, none, false⟩ 0 rfl) (by decide)
  · exact absurd (h ⟨[5, 6], true, some 2, false⟩ ⟨[5], false, some 2, false⟩ 0 rfl rfl) (by decide)

/-- `buildHierarchies` makes one entry for each definition, with its label, and it is empty exactly on ranks that do not take part. -/
theorem build_entries (size rank : Nat) (prev : Bool) (ds : List (String × List Nat × Hier L)) :
    buildAll size rank prev ds = ds.map fun d => (d.1, if takesPart size d.2.1 rank then some d.2.2 else none) := by
  induction ds generalizing prev with
  | nil => rfl
  | cons d ds ih =>
    rw [buildAll, ih]
    cases h : takesPart size d.2.1 rank <;> simp [h]

/-- A rank takes part if it is one of the ranks; for sets of ranks that are less than all, only then. -/
theorem takes_part (size : Nat) (ranks : List Nat) (rank : Nat) :
    (rank ∈ ranks → takesPart size ranks rank = true) ∧ (ranks.length < size → takesPart size ranks rank = true → rank ∈ ranks) := by
  unfold takesPart
  refine ⟨fun h => ?_, fun hl h => ?_⟩
  · split <;> simp [h]
  · rw [if_pos hl] at h; simpa using h

private theorem list_some (bs : List (Built L)) : (levelList bs).isSome ↔ ∀ b ∈ bs, b.2.isSome := by
  induction bs with
  | nil => simp [levelList]
  | cons b bs ih =>
    obtain ⟨lab, h⟩ := b
    cases h with
    | none => simp [levelList]
    | some h => simp [levelList, ih]

/-- The list of all levels exists only on ranks that take part in all hierarchies. -/
theorem level_list_iff (bs : List (Built L)) (hb : bs ≠ []) : (managerLevelList bs).isSome ↔ ∀ b ∈ bs, b.2.isSome := by
  unfold managerLevelList
  rw [if_neg (by simpa using hb), list_some]
  simp

/-- So a rank that takes part in the finest hierarchy need not get the levels. -/
theorem level_list_fails : ¬ ∀ (size rank : Nat) (ds : List (String × List Nat × Hier Nat)) (d : String × List Nat × Hier Nat),
    ds.getLast? = some d → rank ∈ d.2.1 → (managerLevelList (buildAll size rank false ds)).isSome := by
  intro h
  have := h 2 1 [("coarse", [0], ⟨[5], true, none, false⟩), ("fine", [0, 1], ⟨[6], true, none, false⟩)]
    ("fine", [0, 1], ⟨[6], true, none, false⟩) rfl (by decide)
  revert this; decide

private theorem list_append (bs : List (Built L)) (lab : String) (h : Hier L) (l : List L) (hl : levelList bs = some l) :
    levelList ((lab, some h) :: bs) = some (l.dropLast ++ h.levels) := by simp [levelList, hl]

/-- On ranks that take part in all hierarchies the levels end with those of the finest hierarchy, and the number of levels is that of all
hierarchies, less one for each connection. -/
theorem level_list_partial (hs : List (String × Hier L)) (hne : hs ≠ []) (hpos : ∀ h ∈ hs, h.2.levels ≠ []) :
    ∃ l, managerLevelList (hs.map fun h => (h.1, some h.2)) = some l ∧
      l.length + hs.length = (hs.map fun h => h.2.levels.length).sum + 1 ∧ ∀ h, hs.getLast? = some h → h.2.levels <:+ l := by
  have key : ∀ rs : List (String × Hier L), rs ≠ [] → (∀ h ∈ rs, h.2.levels ≠ []) →
      ∃ l, levelList (rs.map fun h => (h.1, some h.2)) = some l ∧ l ≠ [] ∧
        l.length + rs.length = (rs.map fun h => h.2.levels.length).sum + 1 ∧ ∀ h, rs.head? = some h → h.2.levels <:+ l := by
    intro rs
    induction rs with
    | nil => intro h; exact absurd rfl h
    | cons r rs ih =>
      intro _ hp
      have hr := List.length_pos_iff.mpr (hp r (by simp))
      by_cases hrs : rs = []
      · subst hrs
        refine ⟨r.2.levels, by simp [levelList], hp r (by simp), by simp, ?_⟩
        intro h hh; simp at hh; subst hh; exact List.suffix_refl _
      · obtain ⟨l, h1, h2, h3, -⟩ := ih hrs (fun h hh => hp h (by simp [hh]))
        have h2' := List.length_pos_iff.mpr h2
        refine ⟨l.dropLast ++ r.2.levels, ?_, ?_, ?_, ?_⟩
        · rw [List.map_cons, list_append _ _ _ _ h1]
        · intro h0; rw [List.append_eq_nil_iff] at h0; exact hp r (by simp) h0.2
        · simp only [List.length_append, List.length_dropLast, List.length_cons, List.map_cons, List.sum_cons]; omega
        · intro h hh; simp at hh; subst hh; exact List.suffix_append _ _
  obtain ⟨l, h1, -, h3, h4⟩ := key hs.reverse (by simpa using hne) (fun h hh => hpos h (by simpa using hh))
  refine ⟨l, ?_, ?_, ?_⟩
  · unfold managerLevelList
    rw [if_neg (by simpa using hne), ← List.map_reverse, h1]
  · simpa [List.map_reverse] using h3
  · intro h hh; exact h4 h (by simpa using hh)

/-- `getSubManager` with a label ends with the hierarchy that `getHierarchy` returns, keeps all before it, and raises if there is none. -/
theorem sub_manager (bs : List (Built L)) (label : String) :
    ((subManager bs label).isSome ↔ ∃ b ∈ bs, b.1 = label) ∧
      ∀ bs', subManager bs label = some bs' → bs' <+: bs ∧ bs'.getLast? = getHierarchy bs label ∧ ∀ b ∈ bs'.dropLast, b.1 ≠ label := by
  refine ⟨by unfold subManager; simp, fun bs' h => ?_⟩
  unfold subManager at h
  split at h
  case isFalse => cases h
  case isTrue hc =>
    injection h with h; subst h
    refine ⟨List.take_prefix _ _, ?_, ?_⟩
    · unfold getHierarchy
      clear * - hc
      induction bs with
      | nil => simp at hc
      | cons b bs ih =>
        by_cases hb : b.1 = label
        · simp [List.findIdx_cons, hb]
        · have hc' : bs.any (fun b => b.1 == label) = true := by simpa [hb] using hc
          have h0 : bs.take (bs.findIdx (fun b => b.1 == label) + 1) ≠ [] := by
            cases bs with
            | nil => simp at hc'
            | cons _ _ => simp
          rw [List.findIdx_cons, List.find?_cons]
          simp only [show (b.1 == label) = false by simpa using hb, cond_false, List.take_succ_cons]
          rw [List.getLast?_cons, ← ih hc']
          cases hx : (bs.take (bs.findIdx (fun b => b.1 == label) + 1)).getLast? with
          | none => rw [List.getLast?_eq_none_iff] at hx; exact absurd hx h0
          | some x => rfl
    · intro b hb
      clear hc
      induction bs with
      | nil => simp at hb
      | cons a bs ih =>
        by_cases ha : a.1 = label
        · simp [List.findIdx_cons, ha] at hb
        · rw [List.findIdx_cons] at hb
          simp only [show (a.1 == label) = false by simpa using ha, cond_false, List.take_succ_cons] at hb
          cases hx : bs.take (bs.findIdx (fun b => b.1 == label) + 1) with
          | nil => rw [hx] at hb; simp at hb
          | cons y ys =>
            rw [hx, List.dropLast_cons_of_ne_nil (by simp), ← hx] at hb
            rcases List.mem_cons.mp hb with h1 | h1
            · subst h1; exact ha
            · exact ih h1

/-- Without label only the finest hierarchy is left out; the manager of a single hierarchy gives one that has no levels to list. -/
theorem sub_manager_last (bs : List (Built L)) :
    (∀ b, subManagerLast (bs ++ [b]) = bs) ∧ ∀ b : Built L, managerLevelList (subManagerLast [b]) = none :=
  ⟨fun b => by simp [subManagerLast], fun b => rfl⟩

/-- `getSubHierarchy` of a manager changes the finest hierarchy only, and the finest level of it is level `n` of that hierarchy. -/
theorem manager_sub (bs bs' : List (Built L)) (n : Int) (h : managerSubHierarchy bs n = some bs') :
    bs'.length = bs.length ∧ bs'.dropLast = bs.dropLast ∧
      ∃ label f f', bs.getLast? = some (label, some f) ∧ bs'.getLast? = some (label, some f') ∧ f'.levels.getLast? = f.levels[n.toNat]? := by
  unfold managerSubHierarchy at h
  split at h
  case h_2 => cases h
  case h_1 label f hf =>
    rw [Option.map_eq_some_iff] at h
    obtain ⟨f', h1, h2⟩ := h
    subst h2
    have hpos : bs ≠ [] := by rintro rfl; cases hf
    have := List.length_pos_iff.mpr hpos
    refine ⟨by simp; omega, by simp, label, f, f', hf, by simp, ?_⟩
    unfold subHierarchy at h1
    split at h1
    case isFalse => cases h1
    case isTrue hc =>
      injection h1 with h1; subst h1
      have hlt : n.toNat < f.levels.length := by omega
      rw [List.getLast?_take]
      simp [hlt]

private theorem min_le (size : Nat) (last : Nat → Bool) (l : List Nat) (m : Nat) :
    let x := l.foldl (fun m r => min m (if last r then r else size)) m
    (x = m ∨ ∃ r ∈ l, x = if last r then r else size) ∧ x ≤ m ∧ ∀ r ∈ l, last r = true → x ≤ r := by
  induction l generalizing m with
  | nil => simp
  | cons a l ih =>
    obtain ⟨h1, h2, h3⟩ := ih (min m (if last a then a else size))
    refine ⟨?_, ?_, ?_⟩
    · rcases h1 with h1 | ⟨r, hr, h1⟩
      · simp only [List.foldl_cons]
        rw [h1]
        rcases Nat.le_total m (if last a then a else size) with hle | hle
        · left; exact Nat.min_eq_left hle
        · right; exact ⟨a, by simp, Nat.min_eq_right hle⟩
      · right; exact ⟨r, by simp [hr], h1⟩
    · exact Nat.le_trans h2 (Nat.min_le_left _ _)
    · intro r hr hl
      rcases List.mem_cons.mp hr with rfl | hr
      · have := Nat.le_trans h2 (Nat.min_le_right _ _)
        simpa [hl] using this
      · exact h3 r hr hl

/-- The rank that prints is the smallest one that takes part in the finest hierarchy. -/
theorem print_rank (size : Nat) (last : Nat → Bool) (r : Nat) (hr : r < size) (hl : last r = true) :
    last (printRank size last) = true ∧ printRank size last < size ∧ ∀ r' < size, last r' = true → printRank size last ≤ r' := by
  obtain ⟨h1, h2, h3⟩ := min_le size last (List.range size) size
  have hle : printRank size last ≤ r := h3 r (by simpa using hr) hl
  refine ⟨?_, by omega, fun r' hr' hl' => h3 r' (by simpa using hr') hl'⟩
  change (printRank size last = size ∨ ∃ r ∈ List.range size, printRank size last = if last r then r else size) at h1
  rcases h1 with h1 | ⟨q, hq, h1⟩
  · omega
  · by_cases hlq : last q = true
    · rw [if_pos hlq] at h1; rw [h1]; exact hlq
    · rw [if_neg hlq] at h1; omega

/-- A case: three elements on a mesh, two hierarchies on two of three ranks, parts of them. -/
theorem sample_case :
    ((pBuild 0 9 2 2 1 (.names ["P1", "P2", "P3"])).map fun s => s.levels.map fun l => (l.mesh, l.no, l.element, l.type))
        = some [(9, 2, "P1", 1), (9, 3, "P2", 0), (9, 4, "P3", 0)] ∧
      (let bs := buildAll 3 1 false [("coarse", [0, 1], (⟨[10, 11], true, none, false⟩ : Hier Nat)), ("fine", [1, 2], ⟨[12, 13], true, none, false⟩)]
       managerLevelList bs = some [10, 12, 13] ∧ (subManager bs "coarse").map List.length = some 1 ∧
         ((managerSubHierarchy bs 0).bind managerLevelList) = some [10, 12]) ∧
      printRank 4 (fun r => r = 2 ∨ r = 3) = 2 := by decide

end PyNucleus.Props.C125
