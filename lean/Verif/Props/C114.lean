import Verif.Proof.NewInterfaces

/-!
# C114: boundaries and shared vertices of the new subdomains
-/

namespace PyNucleus.Props.C114

open PyNucleus.NewInterfaces

variable {β γ : Type} [DecidableEq β] [DecidableEq γ]

/-- Boundary edges in two dimensions and boundary faces in three dimensions: each is written exactly once, with the tag of an interface
if it is in one, and else as physical. -/
theorem top (cands ifaces : List β) (hc : cands.Nodup) :
    ((topTags cands ifaces).map (·.1)).Perm cands ∧
    ∀ x t, (x, t) ∈ topTags cands ifaces ↔ x ∈ cands ∧ t = if x ∈ ifaces then INTERIOR_NONOVERLAPPING else PHYSICAL := by
  obtain ⟨h1, h2, h3, h4⟩ := mark_spec (interior ifaces) cands [] hc
  unfold topTags finish
  constructor
  · simpa [Function.comp_def] using h2
  · intro x t
    rw [List.mem_append, h4, List.mem_map]
    simp only [h3, lookup_interior, List.not_mem_nil, false_or]
    by_cases hx : x ∈ ifaces
    · simp only [hx, if_true, Option.some.injEq]
      constructor
      · rintro (⟨h, e⟩ | ⟨y, ⟨_, hy⟩, e⟩)
        · exact ⟨h, e.symm⟩
        · simp only [Prod.mk.injEq] at e
          rw [e.1] at hy; simp [hx] at hy
      · rintro ⟨h, e⟩; exact Or.inl ⟨h, e.symm⟩
    · simp only [hx, if_false, reduceCtorEq, and_false, false_or]
      constructor
      · rintro ⟨y, ⟨hy, _⟩, e⟩
        simp only [Prod.mk.injEq] at e
        exact ⟨e.1 ▸ hy, e.2.symm⟩
      · rintro ⟨h, rfl⟩
        exact ⟨x, ⟨h, by simp [hx]⟩, rfl⟩

theorem sub_of_dict (dict : List (γ × Int)) (cands ifaces : List γ) (hc : cands.Nodup) :
    ((subTags dict cands ifaces).map (·.1)).Perm cands ∧
    ∀ x t, (x, t) ∈ subTags dict cands ifaces ↔ x ∈ cands ∧
      t = if x ∈ ifaces then INTERIOR_NONOVERLAPPING else (dict.lookup x).getD PHYSICAL := by
  obtain ⟨h1, h2, h3, h4⟩ := mark_spec (interior ifaces) cands [] hc
  generalize hm : mark (interior ifaces) (cands, []) = st at h1 h2 h3 h4
  obtain ⟨c, o⟩ := st
  obtain ⟨k1, k2, k3, k4⟩ := mark_spec dict c o h1
  unfold subTags finish
  rw [hm]
  dsimp only at h2 h3 h4
  constructor
  · have := k2.trans h2
    simpa [Function.comp_def] using this
  · intro x t
    rw [List.mem_append, k4, h4, List.mem_map]
    simp only [k3, h3, lookup_interior, List.not_mem_nil, false_or]
    by_cases hx : x ∈ ifaces
    · simp only [hx, if_true, Option.some.injEq, reduceCtorEq, and_false, false_and, or_false]
      constructor
      · rintro (⟨h, e⟩ | ⟨y, ⟨⟨_, hy⟩, _⟩, e⟩)
        · exact ⟨h, e.symm⟩
        · simp only [Prod.mk.injEq] at e
          rw [e.1] at hy; simp [hx] at hy
      · rintro ⟨h, e⟩; exact Or.inl ⟨h, e.symm⟩
    · simp only [hx, if_false, reduceCtorEq, and_false, false_or, and_true]
      cases hd : dict.lookup x with
      | none =>
        simp only [reduceCtorEq, and_false, false_or, Option.getD_none]
        constructor
        · rintro ⟨y, ⟨⟨hy, _⟩, _⟩, e⟩
          simp only [Prod.mk.injEq] at e
          exact ⟨e.1 ▸ hy, e.2.symm⟩
        · rintro ⟨h, rfl⟩
          exact ⟨x, ⟨⟨h, by simp [hx]⟩, hd⟩, rfl⟩
      | some w =>
        simp only [Option.some.injEq, Option.getD_some]
        constructor
        · rintro (⟨h, e⟩ | ⟨y, ⟨⟨_, _⟩, hy⟩, e⟩)
          · exact ⟨h, e.symm⟩
          · simp only [Prod.mk.injEq] at e
            rw [e.1, hd] at hy; cases hy
        · rintro ⟨h, e⟩; exact Or.inl ⟨h, e.symm⟩

/-- Boundary vertices in two dimensions and boundary edges in three dimensions: each is written exactly once; it is in the interior if it
is in an interface, or if it lies in boundary edges (faces) and none of these is physical. `sub` gives the vertices of an edge (the
edges of a face). -/
theorem propagated (sub : β → List γ) (tops itops : List β) (cands ifaces : List γ) (ht : tops.Nodup) (hc : cands.Nodup) :
    let tags := subTags (lastDict ((topTags tops itops).map fun s => (sub s.1, s.2))) cands ifaces
    (tags.map (·.1)).Perm cands ∧ ∀ x t, (x, t) ∈ tags ↔ x ∈ cands ∧
      t = if x ∈ ifaces ∨ (∃ e ∈ tops, x ∈ sub e) ∧ ∀ e ∈ tops, x ∈ sub e → e ∈ itops then INTERIOR_NONOVERLAPPING
        else PHYSICAL := by
  intro tags
  obtain ⟨h1, h2⟩ := sub_of_dict (lastDict ((topTags tops itops).map fun s => (sub s.1, s.2))) cands ifaces hc
  refine ⟨h1, fun x t => ?_⟩
  rw [h2]
  refine and_congr_right fun hx => ?_
  have hl : (lastDict ((topTags tops itops).map fun s => (sub s.1, s.2))).lookup x =
      if ∃ e ∈ tops, x ∈ sub e ∧ e ∉ itops then some PHYSICAL
      else if ∃ e ∈ tops, x ∈ sub e then some INTERIOR_NONOVERLAPPING else none := by
    obtain ⟨m1, m2, m3, m4⟩ := mark_spec (interior itops) tops [] ht
    unfold topTags finish lastDict
    rw [List.map_append, List.foldl_append, lookup_last _ PHYSICAL, lookup_last _ INTERIOR_NONOVERLAPPING]
    · simp only [List.mem_map, exists_exists_and_eq_and]
      have e1 : (∃ a ∈ (mark (interior itops) (tops, [])).1, x ∈ sub a) ↔ ∃ e ∈ tops, x ∈ sub e ∧ e ∉ itops := by
        constructor
        · rintro ⟨e, he, hxe⟩
          have := (m3 e).1 he
          rw [lookup_interior] at this
          refine ⟨e, this.1, hxe, fun h => ?_⟩
          simp [h] at this
        · rintro ⟨e, he, hxe, hn⟩
          exact ⟨e, (m3 e).2 ⟨he, by rw [lookup_interior]; simp [hn]⟩, hxe⟩
      by_cases hA : ∃ e ∈ tops, x ∈ sub e ∧ e ∉ itops
      · rw [if_pos hA, if_pos (e1.2 hA)]
      · rw [if_neg hA, if_neg (fun h => hA (e1.1 h))]
        have e2 : (∃ a ∈ (mark (interior itops) (tops, [])).2, x ∈ sub a.1) ↔ ∃ e ∈ tops, x ∈ sub e := by
          constructor
          · rintro ⟨⟨e, w⟩, he, hxe⟩
            have := (m4 e w).1 he
            simp only [List.not_mem_nil, false_or] at this
            exact ⟨e, this.1, hxe⟩
          · rintro ⟨e, he, hxe⟩
            have hi : e ∈ itops := Classical.byContradiction fun hn => hA ⟨e, he, hxe, hn⟩
            exact ⟨(e, INTERIOR_NONOVERLAPPING), (m4 _ _).2 (Or.inr ⟨he, by rw [lookup_interior]; simp [hi]⟩), hxe⟩
        by_cases hB : ∃ e ∈ tops, x ∈ sub e
        · rw [if_pos hB, if_pos (e2.2 hB)]
        · rw [if_neg hB, if_neg (fun h => hB (e2.1 h))]; rfl
    · intro s hs
      obtain ⟨⟨e, w⟩, he, rfl⟩ := List.mem_map.1 hs
      have := (m4 e w).1 he
      simp only [List.not_mem_nil, false_or, lookup_interior] at this
      obtain ⟨_, hw⟩ := this
      split at hw
      · simp only [Option.some.injEq] at hw; exact hw.symm
      · cases hw
    · intro s hs
      obtain ⟨y, hy, rfl⟩ := List.mem_map.1 hs
      obtain ⟨z, _, rfl⟩ := List.mem_map.1 hy
      rfl
  rw [hl]
  have hiff : ((∃ e ∈ tops, x ∈ sub e) ∧ ∀ e ∈ tops, x ∈ sub e → e ∈ itops) ↔
      (¬ ∃ e ∈ tops, x ∈ sub e ∧ e ∉ itops) ∧ ∃ e ∈ tops, x ∈ sub e := by
    constructor
    · rintro ⟨a, b⟩
      exact ⟨fun ⟨e, he, h1, h2⟩ => h2 (b e he h1), a⟩
    · rintro ⟨a, b⟩
      exact ⟨b, fun e he h1 => Classical.byContradiction fun h2 => a ⟨e, he, h1, h2⟩⟩
  simp only [hiff]
  by_cases hi : x ∈ ifaces
  · simp only [hi, if_true, true_or]
  · by_cases hA : ∃ e ∈ tops, x ∈ sub e ∧ e ∉ itops
    · simp only [hi, hA, if_true, if_false, not_true_eq_false, false_and, false_or, Option.getD_some]
    · by_cases hB : ∃ e ∈ tops, x ∈ sub e
      · simp only [hi, hA, hB, if_true, if_false, not_false_eq_true, true_and, false_or, Option.getD_some]
      · simp only [hi, hA, hB, if_false, and_false, false_or, Option.getD_none]

/-- Boundary vertices in three dimensions: the tags of the boundary edges may come in any order. -/
theorem propagated3D (edges : List (List γ × Int)) (he : ∀ s ∈ edges, s.2 = PHYSICAL ∨ s.2 = INTERIOR_NONOVERLAPPING)
    (cands ifaces : List γ) (hc : cands.Nodup) :
    let tags := subTags (maxDict edges) cands ifaces
    (tags.map (·.1)).Perm cands ∧ ∀ x t, (x, t) ∈ tags ↔ x ∈ cands ∧
      t = if x ∈ ifaces ∨ (∃ e ∈ edges, x ∈ e.1) ∧ ∀ e ∈ edges, x ∈ e.1 → e.2 = INTERIOR_NONOVERLAPPING
        then INTERIOR_NONOVERLAPPING else PHYSICAL := by
  intro tags
  obtain ⟨h1, h2⟩ := sub_of_dict (maxDict edges) cands ifaces hc
  refine ⟨h1, fun x t => ?_⟩
  rw [h2]
  refine and_congr_right fun hx => ?_
  have hl := lookup_max edges he [] (fun _ _ h => by simp at h) x
  dsimp only at hl
  simp only [List.lookup_nil, reduceCtorEq, false_or] at hl
  have hne : ¬ PHYSICAL = INTERIOR_NONOVERLAPPING := by decide
  have hiff : ((∃ e ∈ edges, x ∈ e.1) ∧ ∀ e ∈ edges, x ∈ e.1 → e.2 = INTERIOR_NONOVERLAPPING) ↔
      (¬ ∃ e ∈ edges, x ∈ e.1 ∧ e.2 = PHYSICAL) ∧ ∃ e ∈ edges, x ∈ e.1 := by
    constructor
    · rintro ⟨a, b⟩
      exact ⟨fun ⟨e, hm, h1, h2⟩ => hne (h2.symm.trans (b e hm h1)), a⟩
    · rintro ⟨a, b⟩
      exact ⟨b, fun e hm h1 => (he e hm).resolve_left fun h2 => a ⟨e, hm, h1, h2⟩⟩
  unfold maxDict
  rw [hl]
  simp only [hiff]
  by_cases hi : x ∈ ifaces
  · simp only [hi, if_true, true_or]
  · by_cases hA : ∃ e ∈ edges, x ∈ e.1 ∧ e.2 = PHYSICAL
    · simp only [hi, hA, if_true, if_false, not_true_eq_false, false_and, false_or, Option.getD_some]
    · by_cases hB : ∃ e ∈ edges, x ∈ e.1
      · simp only [hi, hA, hB, if_true, if_false, not_false_eq_true, true_and, false_or, Option.getD_some]
      · simp only [hi, hA, hB, if_false, and_false, false_or, Option.getD_none]

/-- Two subdomains share an edge at the vertex if two neighbouring cells, in cyclic order, belong to them. -/
def shareEdge (around : List Nat) (a b : Nat) : Prop :=
  ∃ i, i < around.length ∧ (around[i]? = some a ∧ around[(i + 1) % around.length]? = some b ∨
    around[i]? = some b ∧ around[(i + 1) % around.length]? = some a)

instance (around : List Nat) (a b : Nat) : Decidable (shareEdge around a b) := by
  unfold shareEdge
  exact decidable_of_iff (∃ i ∈ List.range around.length, around[i]? = some a ∧ around[(i + 1) % around.length]? = some b ∨
    around[i]? = some b ∧ around[(i + 1) % around.length]? = some a) (by simp)

/-- A vertex that is dropped in two dimensions is not needed, if the cells of each subdomain at the vertex lie side by side:
any two subdomains that meet at the vertex share an edge there. -/
theorem dropped_partial (blocks : List (Nat × Nat)) (hpos : ∀ b ∈ blocks, 0 < b.2) (hnd : (blocks.map (·.1)).Nodup)
    (hdrop : kept2D (blocks.flatMap fun b => List.replicate b.2 b.1) = false) (a b : Nat) (hab : a ≠ b)
    (ha : a ∈ blocks.map (·.1)) (hb : b ∈ blocks.map (·.1)) :
    shareEdge (blocks.flatMap fun b => List.replicate b.2 b.1) a b := by
  have hlen : blocks.length ≤ 3 := by
    have hsub : blocks.map (·.1) ⊆ (blocks.flatMap fun b => List.replicate b.2 b.1).dedup := by
      intro x hx
      obtain ⟨c, hc, rfl⟩ := List.mem_map.1 hx
      rw [List.mem_dedup, List.mem_flatMap]
      exact ⟨c, hc, List.mem_replicate.2 ⟨by have := hpos c hc; omega, rfl⟩⟩
    have := (List.subperm_of_subset hnd hsub).length_le
    unfold kept2D at hdrop
    simp only [decide_eq_false_iff_not] at hdrop
    rw [List.length_map] at this
    omega
  match blocks, hlen with
  | [], _ => cases ha
  | [x], _ =>
    simp only [List.map_cons, List.map_nil, List.mem_singleton] at ha hb
    exact absurd (ha.trans hb.symm) hab
  | [(x, m), (y, n)], _ =>
    have hm : 0 < m := hpos (x, m) (by simp)
    have hn : 0 < n := hpos (y, n) (by simp)
    have key : shareEdge ([(x, m), (y, n)].flatMap fun b => List.replicate b.2 b.1) x y := by
      refine ⟨m - 1, ?_, Or.inl ?_⟩
      · simp; omega
      · simp only [List.flatMap_cons, List.flatMap_nil, List.append_nil, List.length_append, List.length_replicate]
        rw [Nat.mod_eq_of_lt (by omega), List.getElem?_append_left (by simp; omega), List.getElem?_append_right (by simp; omega)]
        simp [List.getElem?_replicate]; omega
    have hsym : ∀ u v, shareEdge ([(x, m), (y, n)].flatMap fun b => List.replicate b.2 b.1) u v →
        shareEdge ([(x, m), (y, n)].flatMap fun b => List.replicate b.2 b.1) v u := by
      rintro u v ⟨i, hi, h⟩; exact ⟨i, hi, h.symm⟩
    simp only [List.map_cons, List.map_nil, List.mem_cons, List.not_mem_nil, or_false] at ha hb
    rcases ha with rfl | rfl <;> rcases hb with rfl | rfl
    · exact absurd rfl hab
    · exact key
    · exact hsym _ _ key
    · exact absurd rfl hab
  | [(x, m), (y, n), (z, k)], _ =>
    have hm : 0 < m := hpos (x, m) (by simp)
    have hn : 0 < n := hpos (y, n) (by simp)
    have hk : 0 < k := hpos (z, k) (by simp)
    have hsym : ∀ u v, shareEdge ([(x, m), (y, n), (z, k)].flatMap fun b => List.replicate b.2 b.1) u v →
        shareEdge ([(x, m), (y, n), (z, k)].flatMap fun b => List.replicate b.2 b.1) v u := by
      rintro u v ⟨i, hi, h⟩; exact ⟨i, hi, h.symm⟩
    have k1 : shareEdge ([(x, m), (y, n), (z, k)].flatMap fun b => List.replicate b.2 b.1) x y := by
      refine ⟨m - 1, ?_, Or.inl ?_⟩
      · simp; omega
      · simp only [List.flatMap_cons, List.flatMap_nil, List.append_nil, List.length_append, List.length_replicate]
        rw [Nat.mod_eq_of_lt (by omega), List.getElem?_append_left (by simp; omega), List.getElem?_append_right (by simp; omega),
          List.getElem?_append_left (by simp; omega)]
        simp [List.getElem?_replicate]; omega
    have k2 : shareEdge ([(x, m), (y, n), (z, k)].flatMap fun b => List.replicate b.2 b.1) y z := by
      refine ⟨m + n - 1, ?_, Or.inl ?_⟩
      · simp; omega
      · simp only [List.flatMap_cons, List.flatMap_nil, List.append_nil, List.length_append, List.length_replicate]
        rw [Nat.mod_eq_of_lt (by omega), List.getElem?_append_right (by simp; omega), List.getElem?_append_left (by simp; omega),
          List.getElem?_append_right (by simp; omega), List.getElem?_append_right (by simp; omega)]
        simp [List.getElem?_replicate]; omega
    have k3 : shareEdge ([(x, m), (y, n), (z, k)].flatMap fun b => List.replicate b.2 b.1) z x := by
      refine ⟨m + n + k - 1, ?_, Or.inl ?_⟩
      · simp; omega
      · simp only [List.flatMap_cons, List.flatMap_nil, List.append_nil, List.length_append, List.length_replicate]
        have : (m + n + k - 1 + 1) % (m + (n + k)) = 0 := by
          rw [show m + n + k - 1 + 1 = m + (n + k) by omega, Nat.mod_self]
        rw [this, List.getElem?_append_right (by simp; omega), List.getElem?_append_right (by simp; omega),
          List.getElem?_append_left (by simp; omega)]
        simp [List.getElem?_replicate]; omega
    simp only [List.map_cons, List.map_nil, List.mem_cons, List.not_mem_nil, or_false] at ha hb
    rcases ha with rfl | rfl | rfl <;> rcases hb with rfl | rfl | rfl
    · exact absurd rfl hab
    · exact k1
    · exact hsym _ _ k3
    · exact hsym _ _ k1
    · exact absurd rfl hab
    · exact k2
    · exact k3
    · exact hsym _ _ k2
    · exact absurd rfl hab

/-- If the cells of a subdomain do not lie side by side, two subdomains may meet only at a vertex that is dropped: subdomains 1
and 2 between two parts of subdomain 0. -/
theorem dropped_fails : kept2D [0, 1, 0, 2] = false ∧ 1 ∈ [0, 1, 0, 2] ∧ 2 ∈ [0, 1, 0, 2] ∧ ¬ shareEdge [0, 1, 0, 2] 1 2 := by
  decide

/-- The eight octants at a vertex in three dimensions: cell `c` has the signs given by its binary digits; two cells share a face if
one sign differs, and an edge if at most two signs differ. -/
def signsDiffer (c d : Nat) : Nat :=
  (if c % 2 = d % 2 then 0 else 1) + (if c / 2 % 2 = d / 2 % 2 then 0 else 1) + if c / 4 % 2 = d / 4 % 2 then 0 else 1

/-- In three dimensions this happens for connected subdomains, too: two opposite octants and the rest, which is connected by faces.  The
vertex is dropped, and the two have no common face or edge. -/
theorem dropped3D_fails :
    let sub := fun c : Nat => if c = 0 then 1 else if c = 7 then 2 else 0
    keptVertex3D ((List.range 8).map sub) = false ∧
    (∀ c < 8, ∀ d < 8, sub c = 1 → sub d = 2 → 2 < signsDiffer c d) ∧
    (∀ c < 8, sub c = 0 → c ∈ [1, 3, 2, 6, 4, 5]) ∧
    ∀ p ∈ [1, 3, 2, 6, 4, 5].zip [3, 2, 6, 4, 5], sub p.1 = 0 ∧ sub p.2 = 0 ∧ signsDiffer p.1 p.2 = 1 := by
  decide

/-- A square: the edges `(0,1)` and `(1,2)` are in interfaces. -/
theorem sample_case :
    topTags [(0, 1), (1, 2), (2, 3), (0, 3)] [(1, 2), (0, 1), (1, 2)] = [((1, 2), -1), ((0, 1), -1), ((2, 3), 0), ((0, 3), 0)] ∧
    subTags (lastDict ((topTags [(0, 1), (1, 2), (2, 3), (0, 3)] [(1, 2), (0, 1), (1, 2)]).map
      fun s : (Nat × Nat) × Int => ([s.1.1, s.1.2], s.2))) [0, 1, 2, 3] [2] = [(2, -1), (1, -1), (0, 0), (3, 0)] ∧
    subTags (maxDict [([0, 1], 0), ([1, 2], -1), ([2, 3], -1)]) [0, 1, 2, 3, 4] [] = [(0, 0), (1, 0), (2, -1), (3, -1), (4, 0)] ∧
    kept2D [0, 0, 1, 2] = false ∧ kept2D [3, 0, 1, 2] = true ∧ shareEdge [0, 0, 1, 2] 0 2 := by
  decide

end PyNucleus.Props.C114
