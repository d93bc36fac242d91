import Verif.Model.ClusterTree
import Verif.Proof.IndexSet
import Mathlib.Data.List.Nodup
import Mathlib.Data.List.Perm.Basic
import Mathlib.Tactic.Ring
import Mathlib.Tactic.Linarith
import Mathlib.Tactic.Push

/-! # Lemmas on traversals of cluster trees -/

namespace PyNucleus.ClusterTree

open PyNucleus.ClusterRefine

/-- Induction over trees. -/
theorem tree_ind {p : ClusterRefine.Tree → Prop} (hl : ∀ id dofs, p (.leaf id dofs)) (hn : ∀ id cs, (∀ c ∈ cs, p c) → p (.node id cs)) : ∀ t, p t
  | .leaf id dofs => hl id dofs
  | .node id cs => hn id cs fun c hc =>
    have : sizeOf c < sizeOf cs := List.sizeOf_lt_of_mem hc
    tree_ind hl hn c

theorem leavesList_eq (cs : List ClusterRefine.Tree) : leavesList cs = cs.flatMap leaves := by
  induction cs with
  | nil => rfl
  | cons c cs ih => simp [leavesList, ih]

theorem nodesList_eq (cs : List ClusterRefine.Tree) : nodesList cs = cs.flatMap nodes := by
  induction cs with
  | nil => rfl
  | cons c cs ih => simp [nodesList, ih]

theorem trimList_eq (keep : Int → Bool) (cs : List ClusterRefine.Tree) : trimList keep cs = cs.map (trim keep) := by
  induction cs with
  | nil => rfl
  | cons c cs ih => simp [trimList, ih]

theorem idsList_flat (cs : List ClusterRefine.Tree) : idsList cs = cs.flatMap Tree.ids := by
  induction cs with
  | nil => rfl
  | cons c cs ih => simp [idsList, ih]

theorem numNodesOnLevelList_eq (l : Int) (cs : List ClusterRefine.Tree) : numNodesOnLevelList l cs = (cs.map (numNodesOnLevel l)).sum := by
  induction cs with
  | nil => rfl
  | cons c cs ih => simp [numNodesOnLevelList, ih]

theorem numLeavesOnLevelList_eq (l : Int) (cs : List ClusterRefine.Tree) : numLeavesOnLevelList l cs = (cs.map (numLeavesOnLevel l)).sum := by
  induction cs with
  | nil => rfl
  | cons c cs ih => simp [numLeavesOnLevelList, ih]

theorem ids_nodes (t : ClusterRefine.Tree) : t.ids = (nodes t).map rootId := by
  induction t using tree_ind with
  | hl id dofs => rfl
  | hn id cs ih =>
    simp only [Tree.ids, nodes, List.map_cons, rootId, List.cons.injEq, true_and]
    rw [nodesList_eq, idsList_flat, List.map_flatMap]
    exact List.flatMap_congr ih

theorem self_mem_nodes (t : ClusterRefine.Tree) : t ∈ nodes t := by
  cases t <;> simp [nodes]

theorem dofsList_congr (f : ClusterRefine.Tree → ClusterRefine.Tree) (cs : List ClusterRefine.Tree) (h : ∀ c ∈ cs, (f c).getDofs = c.getDofs) (acc : List Int) :
    dofsList acc (cs.map f) = dofsList acc cs := by
  induction cs generalizing acc with
  | nil => rfl
  | cons c cs ih =>
    simp only [List.map_cons, dofsList]
    rw [h c (List.mem_cons_self ..), ih fun c hc => h c (List.mem_cons_of_mem _ hc)]

theorem mem_dofsList (cs : List ClusterRefine.Tree) (acc : List Int) (x : Int) : x ∈ dofsList acc cs ↔ x ∈ acc ∨ ∃ c ∈ cs, x ∈ c.getDofs := by
  induction cs generalizing acc with
  | nil => simp [dofsList]
  | cons c cs ih =>
    unfold dofsList
    rw [ih, IndexSet.mem_unionFill]
    simp [or_assoc]

theorem getDofs_nonneg (t : ClusterRefine.Tree) : ∀ x ∈ t.getDofs, 0 ≤ x := by
  induction t using tree_ind with
  | hl id dofs => simp [Tree.getDofs]
  | hn id cs ih =>
    intro x hx
    unfold Tree.getDofs at hx
    rw [mem_dofsList] at hx
    rcases hx with hx | ⟨c, hc, hx⟩
    · simp at hx
    · exact ih c hc x hx

theorem map_toNat (l : List Int) (h : ∀ x ∈ l, 0 ≤ x) : (l.map Int.toNat).map Int.ofNat = l := by
  induction l with
  | nil => rfl
  | cons a l ih =>
    simp only [List.map_cons]
    rw [ih fun x hx => h x (List.mem_cons_of_mem _ hx)]
    have := h a (List.mem_cons_self ..)
    simp [Int.toNat_of_nonneg this]

/-! ## Trimming -/

theorem trim_eq (keep : Int → Bool) (id : Int) (cs : List ClusterRefine.Tree) : (trim keep (.node id cs)).2 =
    if cs.length ≠ 0 ∧ ((cs.map (trim keep)).filter fun x => !x.1).length = 0 then .leaf id ((Tree.getDofs (.node id ((cs.map (trim keep)).map Prod.snd))).map Int.toNat)
    else if cs.length > 0 ∧ (cs.map (trim keep)).all Prod.fst then .node id (adopt ((cs.map (trim keep)).map Prod.snd))
    else .node id ((cs.map (trim keep)).map Prod.snd) := by
  conv => lhs; unfold trim
  dsimp only
  rw [trimList_eq]
  split
  · rfl
  · split <;> rfl

theorem trim_flag (keep : Int → Bool) (t : ClusterRefine.Tree) : (trim keep t).1 = true ↔ ∀ n ∈ nodes t, keep (rootId n) = false := by
  induction t using tree_ind with
  | hl id dofs => simp [trim, nodes, rootId]
  | hn id cs ih =>
    have key : (trim keep (.node id cs)).1 = (!keep id && ((cs.map (trim keep)).filter fun x => !x.1).isEmpty) := by
      unfold trim
      dsimp only
      rw [trimList_eq]
      split
      · rfl
      · split <;> rfl
    rw [key]
    simp only [nodes, nodesList_eq, Bool.and_eq_true, Bool.not_eq_true', List.isEmpty_iff, List.filter_eq_nil_iff, List.mem_map, List.mem_cons, List.mem_flatMap]
    constructor
    · rintro ⟨h1, h2⟩ n (rfl | ⟨c, hc, hn⟩)
      · exact h1
      · refine (ih c hc).1 ?_ n hn
        have := h2 _ ⟨c, hc, rfl⟩
        simpa using this
    · intro h
      refine ⟨h _ (Or.inl rfl), ?_⟩
      rintro x ⟨c, hc, rfl⟩
      simpa using (ih c hc).2 fun n hn => h n (Or.inr ⟨c, hc, hn⟩)

/-- The two cases of `trim` for a node with children; the branch that adopts grandchildren is never taken. -/
theorem trim_node (keep : Int → Bool) (id : Int) (cs : List ClusterRefine.Tree) :
    (cs ≠ [] ∧ (∀ c ∈ cs, (trim keep c).1 = true) ∧ (trim keep (.node id cs)).2 = .leaf id ((Tree.getDofs (.node id (cs.map fun c => (trim keep c).2))).map Int.toNat)) ∨
    ((cs = [] ∨ ∃ c ∈ cs, (trim keep c).1 = false) ∧ (trim keep (.node id cs)).2 = .node id (cs.map fun c => (trim keep c).2)) := by
  have hmap : (cs.map (trim keep)).map Prod.snd = cs.map fun c => (trim keep c).2 := by
    rw [List.map_map]
    rfl
  by_cases hc : cs = []
  · subst hc
    right
    exact ⟨Or.inl rfl, by simp [trim, trimList]⟩
  · have hl : cs.length ≠ 0 := by simpa using hc
    by_cases ha : ∀ c ∈ cs, (trim keep c).1 = true
    · left
      refine ⟨hc, ha, ?_⟩
      have hf : ((cs.map (trim keep)).filter fun x => !x.1).length = 0 := by
        rw [List.length_eq_zero_iff, List.filter_eq_nil_iff]
        intro x hx
        obtain ⟨c, hc, rfl⟩ := List.mem_map.1 hx
        simp [ha c hc]
      rw [trim_eq, if_pos ⟨hl, hf⟩, hmap]
    · right
      have he : ∃ c ∈ cs, (trim keep c).1 = false := by
        simp only [not_forall] at ha
        obtain ⟨c, hc, hx⟩ := ha
        exact ⟨c, hc, by simpa using hx⟩
      refine ⟨Or.inr he, ?_⟩
      obtain ⟨c, hc', hcf⟩ := he
      have hf : ((cs.map (trim keep)).filter fun x => !x.1).length ≠ 0 := by
        rw [Ne, List.length_eq_zero_iff, List.filter_eq_nil_iff]
        intro h
        exact absurd (h (trim keep c) (List.mem_map_of_mem hc')) (by simp [hcf])
      have hall : (cs.map (trim keep)).all Prod.fst = false := by
        rw [List.all_eq_false]
        exact ⟨trim keep c, List.mem_map_of_mem hc', by simp [hcf]⟩
      rw [trim_eq, if_neg (fun h => hf h.2), if_neg (by simp [hall]), hmap]

theorem trim_getDofs (keep : Int → Bool) (t : ClusterRefine.Tree) : (trim keep t).2.getDofs = t.getDofs ∧ rootId (trim keep t).2 = rootId t := by
  induction t using tree_ind with
  | hl id dofs => exact ⟨rfl, rfl⟩
  | hn id cs ih =>
    have hd : Tree.getDofs (.node id (cs.map fun c => (trim keep c).2)) = Tree.getDofs (.node id cs) := by
      unfold Tree.getDofs
      exact dofsList_congr _ cs (fun c hc => (ih c hc).1) []
    rcases trim_node keep id cs with ⟨-, -, h⟩ | ⟨-, h⟩ <;> rw [h]
    · refine ⟨?_, rfl⟩
      rw [show ∀ ds, Tree.getDofs (.leaf id ds) = ds.map Int.ofNat from fun ds => by simp [Tree.getDofs], map_toNat _ (getDofs_nonneg _), hd]
    · exact ⟨hd, rfl⟩

theorem trim_keeps (keep : Int → Bool) (t : ClusterRefine.Tree) (n : ClusterRefine.Tree) (hn : n ∈ nodes t) (hk : keep (rootId n) = true) :
    ∃ m ∈ nodes (trim keep t).2, rootId m = rootId n ∧ m.getDofs = n.getDofs := by
  induction t using tree_ind generalizing n with
  | hl id dofs =>
    simp only [nodes, List.mem_singleton] at hn
    subst hn
    exact ⟨_, self_mem_nodes _, rfl, rfl⟩
  | hn id cs ih =>
    simp only [nodes, nodesList_eq, List.mem_cons, List.mem_flatMap] at hn
    rcases hn with rfl | ⟨c, hc, hn⟩
    · exact ⟨_, self_mem_nodes _, (trim_getDofs keep _).2, (trim_getDofs keep _).1⟩
    · rcases trim_node keep id cs with ⟨-, ha, -⟩ | ⟨-, h⟩
      · exact absurd ((trim_flag keep c).1 (ha c hc) n hn) (by simp [hk])
      · obtain ⟨m, hm, h1⟩ := ih c hc n hn hk
        refine ⟨m, ?_, h1⟩
        rw [h]
        simp only [nodes, nodesList_eq, List.mem_cons, List.mem_flatMap, List.mem_map]
        exact Or.inr ⟨_, ⟨c, hc, rfl⟩, hm⟩

theorem trim_from (keep : Int → Bool) (t : ClusterRefine.Tree) : ((nodes (trim keep t).2).map fun n => (rootId n, n.getDofs)).Sublist ((nodes t).map fun n => (rootId n, n.getDofs)) := by
  induction t using tree_ind with
  | hl id dofs => exact List.Sublist.refl _
  | hn id cs ih =>
    have hg := trim_getDofs keep (.node id cs)
    rcases trim_node keep id cs with ⟨-, -, h⟩ | ⟨-, h⟩
    · rw [h] at hg ⊢
      simp only [nodes, List.map_cons, List.map_nil]
      rw [hg.1]
      exact List.Sublist.cons_cons _ (List.nil_sublist _)
    · rw [h] at hg ⊢
      simp only [nodes, List.map_cons]
      rw [hg.1]
      refine List.Sublist.cons_cons _ ?_
      rw [nodesList_eq, nodesList_eq, List.map_flatMap, List.map_flatMap]
      clear h hg
      induction cs with
      | nil => exact List.Sublist.refl _
      | cons c cs ih2 =>
        simp only [List.map_cons, List.flatMap_cons]
        exact (ih c (List.mem_cons_self ..)).append (ih2 fun c hc => ih c (List.mem_cons_of_mem _ hc))

theorem trim_minimal (keep : Int → Bool) (t n : ClusterRefine.Tree) (hn : n ∈ nodes (trim keep t).2) (hc : children n ≠ []) : ∃ c ∈ children n, ∃ m ∈ nodes c, keep (rootId m) = true := by
  induction t using tree_ind generalizing n with
  | hl id dofs =>
    simp only [trim, nodes, List.mem_singleton] at hn
    subst hn
    simp [children] at hc
  | hn id cs ih =>
    rcases trim_node keep id cs with ⟨-, -, h⟩ | ⟨he, h⟩
    · rw [h] at hn
      simp only [nodes, List.mem_singleton] at hn
      subst hn
      simp [children] at hc
    · rw [h] at hn
      simp only [nodes, nodesList_eq, List.mem_cons, List.mem_flatMap, List.mem_map] at hn
      rcases hn with rfl | ⟨-, ⟨c, hc', rfl⟩, hn⟩
      · simp only [children, ne_eq, List.map_eq_nil_iff] at hc
        obtain ⟨c, hc', hf⟩ := he.resolve_left hc
        have hex : ∃ m ∈ nodes c, keep (rootId m) = true := by
          by_contra hno
          have : (trim keep c).1 = true := (trim_flag keep c).2 fun m hm => by
            by_contra hk
            exact hno ⟨m, hm, by simpa using hk⟩
          simp [this] at hf
        obtain ⟨m, hm, hk⟩ := hex
        obtain ⟨m', hm', h1, -⟩ := trim_keeps keep c m hm hk
        refine ⟨(trim keep c).2, ?_, m', hm', by rw [h1]; exact hk⟩
        simp only [children]
        exact List.mem_map_of_mem (f := fun c => (trim keep c).2) hc'
      · exact ih c hc' n hn hc

/-! ## Identifiers -/

theorem setId_spec (t : ClusterRefine.Tree) (m : Int) :
    (setId m t).1.ids = (List.range (nodes t).length).map (fun k : Nat => m + (k : Int)) ∧ (setId m t).2 = m + ((nodes t).length : Int) ∧ (setId m t).1.getDofs = t.getDofs ∧
      (nodes (setId m t).1).map Tree.getDofs = (nodes t).map Tree.getDofs := by
  induction t using tree_ind generalizing m with
  | hl id dofs => simp [setId, nodes, Tree.ids, Tree.getDofs]
  | hn id cs ih =>
    have key : ∀ m, idsList (setIdList m cs).1 = (List.range (cs.flatMap nodes).length).map (fun k : Nat => m + (k : Int)) ∧ (setIdList m cs).2 = m + ((cs.flatMap nodes).length : Int) ∧
        (∀ acc, dofsList acc (setIdList m cs).1 = dofsList acc cs) ∧ ((setIdList m cs).1.flatMap nodes).map Tree.getDofs = (cs.flatMap nodes).map Tree.getDofs := by
      induction cs with
      | nil => simp [setIdList, idsList, dofsList]
      | cons c cs ih2 =>
        intro m
        obtain ⟨a1, a2, a3, a4⟩ := ih c (List.mem_cons_self ..) m
        obtain ⟨b1, b2, b3, b4⟩ := ih2 (fun c hc => ih c (List.mem_cons_of_mem _ hc)) (setId m c).2
        refine ⟨?_, ?_, ?_, ?_⟩
        · simp only [setIdList, idsList, List.flatMap_cons, List.length_append]
          rw [a1, b1, a2, List.range_add, List.map_append, List.map_map]
          congr 1
          refine List.map_congr_left fun k _ => ?_
          simp only [Function.comp_apply]
          push_cast
          ring
        · simp only [setIdList, List.flatMap_cons, List.length_append]
          rw [b2, a2]
          push_cast
          ring
        · intro acc
          simp only [setIdList, dofsList]
          rw [a3, b3]
        · simp only [setIdList, List.flatMap_cons, List.map_append, a4, b4]
    obtain ⟨k1, k2, k3, k4⟩ := key (m + 1)
    have hg : Tree.getDofs (.node m (setIdList (m + 1) cs).1) = Tree.getDofs (.node id cs) := by
      unfold Tree.getDofs
      exact k3 []
    simp only [setId, Tree.ids, nodes, nodesList_eq, List.length_cons, List.map_cons]
    refine ⟨?_, ?_, hg, by rw [hg, k4]⟩
    · rw [k1, List.range_succ_eq_map, List.map_cons, List.map_map]
      simp only [Nat.cast_zero, add_zero, List.cons.injEq, true_and]
      refine List.map_congr_left fun k _ => ?_
      simp only [Function.comp_apply, Nat.succ_eq_add_one]
      push_cast
      ring
    · rw [k2]
      push_cast
      ring

theorem maxId_spec (t : ClusterRefine.Tree) : maxId t ∈ t.ids ∧ ∀ i ∈ t.ids, i ≤ maxId t := by
  induction t using tree_ind with
  | hl id dofs => simp [maxId, Tree.ids]
  | hn id cs ih =>
    have key : ∀ m, (maxIdList m cs = m ∨ maxIdList m cs ∈ idsList cs) ∧ m ≤ maxIdList m cs ∧ ∀ i ∈ idsList cs, i ≤ maxIdList m cs := by
      induction cs with
      | nil => simp [maxIdList, idsList]
      | cons c cs ih2 =>
        intro m
        obtain ⟨b1, b2, b3⟩ := ih2 (fun c hc => ih c (List.mem_cons_of_mem _ hc)) (max m (maxId c))
        obtain ⟨a1, a2⟩ := ih c (List.mem_cons_self ..)
        simp only [maxIdList, idsList, List.mem_append]
        refine ⟨?_, le_trans (le_max_left _ _) b2, ?_⟩
        · rcases b1 with b1 | b1
          · rcases max_choice m (maxId c) with h | h
            · exact Or.inl (by rw [b1, h])
            · exact Or.inr (Or.inl (by rw [b1, h]; exact a1))
          · exact Or.inr (Or.inr b1)
        · rintro i (hi | hi)
          · exact le_trans (a2 i hi) (le_trans (le_max_right _ _) b2)
          · exact b3 i hi
    obtain ⟨k1, k2, k3⟩ := key id
    simp only [maxId, Tree.ids, List.mem_cons]
    refine ⟨k1, ?_⟩
    rintro i (rfl | hi)
    · exact k2
    · exact k3 i hi

theorem idsUnique_spec (t : ClusterRefine.Tree) (used : List Int) :
    (∀ i, i ∈ (idsUnique used t).2 ↔ i ∈ used ∨ i ∈ t.ids) ∧ ((idsUnique used t).1 = true ↔ t.ids.Nodup ∧ ∀ i ∈ t.ids, i ∉ used) := by
  induction t using tree_ind generalizing used with
  | hl id dofs =>
    unfold idsUnique
    split
    · rename_i h
      simp only [Tree.ids, List.mem_singleton, forall_eq, h, not_true_eq_false, and_false, iff_false]
      refine ⟨fun i => ⟨Or.inl, ?_⟩, by simp⟩
      rintro (hi | rfl)
      · exact hi
      · exact h
    · rename_i h
      simp [Tree.ids, h, or_comm]
  | hn id cs ih =>
    have key : ∀ used, (∀ i, i ∈ (idsUniqueList used cs).2 ↔ i ∈ used ∨ i ∈ idsList cs) ∧ ((idsUniqueList used cs).1 = true ↔ (idsList cs).Nodup ∧ ∀ i ∈ idsList cs, i ∉ used) := by
      induction cs with
      | nil => simp [idsUniqueList, idsList]
      | cons c cs ih2 =>
        intro used
        obtain ⟨a1, a2⟩ := ih c (List.mem_cons_self ..) used
        obtain ⟨b1, b2⟩ := ih2 (fun c hc => ih c (List.mem_cons_of_mem _ hc)) (idsUnique used c).2
        simp only [idsUniqueList, idsList, List.mem_append, Bool.and_eq_true]
        refine ⟨?_, ?_⟩
        · intro i
          rw [b1, a1, or_assoc]
        · rw [a2, b2, List.nodup_append]
          constructor
          · rintro ⟨⟨h1, h2⟩, h3, h4⟩
            refine ⟨⟨h1, h3, ?_⟩, ?_⟩
            · rintro x hx y hy rfl
              exact h4 x hy ((a1 x).2 (Or.inr hx))
            · rintro i (hi | hi)
              · exact h2 i hi
              · exact fun hu => h4 i hi ((a1 i).2 (Or.inl hu))
          · rintro ⟨⟨h1, h3, h5⟩, h6⟩
            refine ⟨⟨h1, fun i hi => h6 i (Or.inl hi)⟩, h3, ?_⟩
            intro i hi hu
            rcases (a1 i).1 hu with hu | hu
            · exact h6 i (Or.inr hi) hu
            · exact h5 i hu i hi rfl
    obtain ⟨k1, k2⟩ := key used
    unfold idsUnique
    simp only [Tree.ids, List.mem_cons, List.nodup_cons]
    split
    · rename_i h
      dsimp only
      refine ⟨?_, ?_⟩
      · intro i
        rw [k1]
        constructor
        · rintro (h | h)
          · exact Or.inl h
          · exact Or.inr (Or.inr h)
        · rintro (h' | rfl | h')
          · exact Or.inl h'
          · exact (k1 _).1 h
          · exact Or.inr h'
      · simp only [Bool.false_eq_true, false_iff]
        rintro ⟨⟨h1, -⟩, h2⟩
        rcases (k1 id).1 h with h | h
        · exact h2 id (Or.inl rfl) h
        · exact h1 h
    · rename_i h
      dsimp only
      rw [k1, not_or] at h
      refine ⟨?_, ?_⟩
      · intro i
        rw [List.mem_cons, k1]
        tauto
      · rw [k2]
        constructor
        · rintro ⟨h1, h2⟩
          refine ⟨⟨h.2, h1⟩, ?_⟩
          rintro i (rfl | hi)
          · exact h.1
          · exact h2 i hi
        · rintro ⟨⟨-, h1⟩, h2⟩
          exact ⟨h1, fun i hi => h2 i (Or.inr hi)⟩

/-! ## Symmetrisation -/

theorem symLoop_spec (pop : List (Int × Int) → Nat) (fuel : Nat) (cl out : List (Int × Int)) (hf : cl.length ≤ fuel) (hn : cl.Nodup) :
    ∃ extra, symLoop pop fuel cl out = out ++ extra ∧ extra.Nodup ∧ ∀ q, q ∈ extra ↔ q.swap ∈ cl ∧ q ∉ cl := by
  induction fuel generalizing cl out with
  | zero =>
    have : cl = [] := List.length_eq_zero_iff.1 (by omega)
    subst this
    exact ⟨[], by simp [symLoop], .nil, by simp⟩
  | succ fuel ih =>
    unfold symLoop
    split
    · rename_i hpos
      have hlt : pop cl % cl.length < cl.length := Nat.mod_lt _ hpos
      generalize pop cl % cl.length = k at hlt
      dsimp only
      have hp := (List.getElem_cons_eraseIdx_perm hlt)
      have hd : cl.getD k (0, 0) = cl[k] := by simp [List.getD_eq_getElem?_getD, List.getElem?_eq_getElem hlt]
      rw [hd]
      have hlen := hp.length_eq
      have hnd := hp.nodup_iff.2 hn
      have hmem := fun q => (hp.mem_iff (a := q))
      revert hlen hnd hmem
      generalize cl.eraseIdx k = rest
      generalize cl[k] = p
      intro hlen hnd hmem
      simp only [List.length_cons] at hlen
      rw [List.nodup_cons] at hnd
      obtain ⟨hpr, hnr⟩ := hnd
      have hsw : ∀ q : Int × Int, q.swap = p ↔ q = p.swap := fun q => ⟨fun h => by rw [← h, Prod.swap_swap], fun h => by rw [h, Prod.swap_swap]⟩
      have hpp : (p.2, p.1) = p.swap := rfl
      rw [hpp]
      split
      · rename_i hne
        have hne' : p.swap ≠ p := by
          intro h
          exact hne (congrArg Prod.snd h)
        split
        · rename_i hnot
          obtain ⟨ex, e1, e2, e3⟩ := ih rest (out ++ [p.swap]) (by omega) hnr
          refine ⟨p.swap :: ex, by rw [e1]; simp, ?_, ?_⟩
          · rw [List.nodup_cons]
            refine ⟨?_, e2⟩
            rw [e3, Prod.swap_swap]
            exact fun h => hpr h.1
          · intro q
            rw [List.mem_cons, e3, ← hmem, ← hmem, List.mem_cons, List.mem_cons, not_or, hsw]
            constructor
            · rintro (rfl | ⟨h1, h2⟩)
              · exact ⟨Or.inl rfl, hne', hnot⟩
              · refine ⟨Or.inr h1, ?_, h2⟩
                rintro rfl
                exact hnot h1
            · rintro ⟨h1 | h1, h2, h3⟩
              · exact Or.inl h1
              · exact Or.inr ⟨h1, h3⟩
        · rename_i hin
          have hin : p.swap ∈ rest := not_not.1 hin
          obtain ⟨ex, e1, e2, e3⟩ := ih (rest.erase p.swap) out (by have := List.length_erase_of_mem hin; omega) (hnr.erase _)
          refine ⟨ex, e1, e2, ?_⟩
          intro q
          rw [e3, ← hmem, ← hmem, List.mem_cons, List.mem_cons, not_or, hsw, hnr.mem_erase_iff, hnr.mem_erase_iff]
          constructor
          · rintro ⟨⟨h1, h2⟩, h3⟩
            have hqp : q ≠ p := by
              rintro rfl
              exact h1 rfl
            refine ⟨Or.inr h2, hqp, fun h4 => h3 ⟨?_, h4⟩⟩
            rintro rfl
            rw [Prod.swap_swap] at h2
            exact hpr h2
          · rintro ⟨h1 | h1, h2, h3⟩
            · exact absurd (h1 ▸ hin) h3
            · refine ⟨⟨?_, h1⟩, fun h => h3 h.2⟩
              intro h
              exact h2 (by rw [← Prod.swap_swap q, h, Prod.swap_swap])
      · rename_i heq
        have heq : p.swap = p := by
          obtain ⟨a, b⟩ := p
          simp only [ne_eq, not_not] at heq
          subst heq
          rfl
        obtain ⟨ex, e1, e2, e3⟩ := ih rest out (by omega) hnr
        refine ⟨ex, e1, e2, ?_⟩
        intro q
        rw [e3, ← hmem, ← hmem, List.mem_cons, List.mem_cons, not_or, hsw, heq]
        constructor
        · rintro ⟨h1, h2⟩
          refine ⟨Or.inr h1, ?_, h2⟩
          rintro rfl
          rw [heq] at h1
          exact hpr h1
        · rintro ⟨h1 | h1, h2, h3⟩
          · exact absurd h1 h2
          · exact ⟨h1, h3⟩
    · rename_i hz
      have : cl = [] := List.length_eq_zero_iff.1 (by omega)
      subst this
      exact ⟨[], by simp, .nil, by simp⟩

end PyNucleus.ClusterTree
