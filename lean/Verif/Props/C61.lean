import Verif.Proof.ClusterTree
import Verif.Props.C60

/-!
# C61: traversals, numbering and trimming of cluster trees

Full statement: `leaves`, `get_tree_nodes`, `get_tree_nodes_up_to_level`, `get_tree_nodes_on_level`, `getNumNodesOnLevel`, `getNumLeavesOnLevel`, `numLevels` return the nodes of the
tree at the depths they name, once each; the leaves divide the dofs; `findNodeForDoF` returns the leaf with the dof; `getParent(l)` returns the ancestor on level `l`; `set_id` numbers
the nodes without gaps; `idsAreUnique` tells whether identifiers are distinct; `trim` keeps every node of the given set with its dofs and removes exactly the children of nodes below
which nothing is kept; `symmetrizeNearFieldClusters` adds exactly the missing transposed pairs.

Violated: `get_tree_nodes_on_level(l)` yields the nodes of all levels 1 to `l` (`onLevel_fails`).
-/

namespace PyNucleus.Props.C61

open PyNucleus.ClusterRefine PyNucleus.ClusterTree
open PyNucleus.Props.C60 (Divided)

/-! ## Depth -/

/-- Nodes at depth `d` below a node. -/
def atDepth : Nat → ClusterRefine.Tree → List ClusterRefine.Tree
  | 0, t => [t]
  | d + 1, t => (children t).flatMap (atDepth d)

private theorem flatMap_swap {α β γ : Type} (l : List α) (m : List β) (f : α → β → List γ) : (l.flatMap fun a => m.flatMap fun b => f a b).Perm (m.flatMap fun b => l.flatMap fun a => f a b) := by
  induction l with
  | nil => simp
  | cons a l ih =>
    simp only [List.flatMap_cons]
    refine (List.Perm.append_left _ ih).trans ?_
    clear ih
    induction m with
    | nil => simp
    | cons b m ih =>
      simp only [List.flatMap_cons]
      rw [List.append_assoc, List.append_assoc]
      refine List.Perm.append_left _ ?_
      refine List.Perm.trans ?_ (List.Perm.append_left _ ih)
      rw [← List.append_assoc, ← List.append_assoc]
      exact List.Perm.append_right _ List.perm_append_comm

private theorem range_succ_flatMap {β : Type} (n : Nat) (f : Nat → List β) : (List.range (n + 1)).flatMap f = f 0 ++ (List.range n).flatMap fun d => f (d + 1) := by
  rw [List.range_succ_eq_map, List.flatMap_cons, List.flatMap_map]

/-- `get_tree_nodes_up_to_level`: the nodes at depths 0 to `l`. -/
theorem upTo_levels (l : Nat) (t : ClusterRefine.Tree) : (upTo l t).Perm ((List.range (l + 1)).flatMap fun d => atDepth d t) := by
  induction l generalizing t with
  | zero => simp [upTo, atDepth]
  | succ l ih =>
    rw [range_succ_flatMap]
    simp only [upTo, atDepth, List.cons_append, List.nil_append]
    refine List.Perm.cons _ ?_
    exact (List.Perm.flatMap_left _ fun c _ => ih c).trans (flatMap_swap _ _ fun c d => atDepth d c)

/-- What `get_tree_nodes_on_level` yields: the nodes of all levels from 1 to `l`. -/
theorem onLevel_exact (l : Nat) (t : ClusterRefine.Tree) : (onLevel (l + 1) t).Perm ((List.range (l + 1)).flatMap fun d => atDepth (d + 1) t) :=
  (List.Perm.flatMap_left _ fun c _ => upTo_levels l c).trans (flatMap_swap _ _ fun c d => atDepth d c)

/-- It is right for levels 0 and 1. -/
theorem onLevel_partial (l : Nat) (hl : l ≤ 1) (t : ClusterRefine.Tree) : onLevel l t = atDepth l t := by
  rcases l with _ | _ | l
  · rfl
  · simp only [onLevel, atDepth]
    rfl
  · omega

private theorem atDepth_levels (t : ClusterRefine.Tree) : ∀ d, levels t ≤ d → atDepth d t = [] := by
  induction t using tree_ind with
  | hl id dofs =>
    intro d hd
    obtain ⟨d, rfl⟩ : ∃ e, d = e + 1 := ⟨d - 1, by simp [levels] at hd; omega⟩
    rfl
  | hn id cs ih =>
    intro d hd
    simp only [levels] at hd
    obtain ⟨d, rfl⟩ : ∃ e, d = e + 1 := ⟨d - 1, by omega⟩
    simp only [atDepth, children]
    rw [List.flatMap_eq_nil_iff]
    intro c hc
    refine ih c hc d ?_
    have : levels c ≤ levelsList cs := by
      clear ih hd
      induction cs with
      | nil => simp at hc
      | cons a cs ih =>
        simp only [levelsList]
        rcases List.mem_cons.1 hc with rfl | hc
        · exact le_max_left _ _
        · exact le_trans (ih hc) (le_max_right _ _)
    omega

private theorem levels_pos (t : ClusterRefine.Tree) : 0 < levels t := by
  cases t <;> simp [levels] <;> omega

/-- `numLevels` is the number of depths with nodes. -/
theorem numLevels_exact (t : ClusterRefine.Tree) (d : Nat) : atDepth d t ≠ [] ↔ d < levels t := by
  constructor
  · intro h
    by_contra hd
    exact h (atDepth_levels t d (by omega))
  · induction t using tree_ind generalizing d with
    | hl id dofs =>
      intro hd
      simp only [levels, Nat.lt_one_iff] at hd
      subst hd
      simp [atDepth]
    | hn id cs ih =>
      intro hd
      rcases d with _ | d
      · simp [atDepth]
      · simp only [atDepth, children, ne_eq, List.flatMap_eq_nil_iff, not_forall]
        have hex : ∀ cs : List ClusterRefine.Tree, d < levelsList cs → ∃ c ∈ cs, d < levels c := by
          intro cs
          induction cs with
          | nil => simp [levelsList]
          | cons a cs ih =>
            intro h
            simp only [levelsList, lt_max_iff] at h
            rcases h with h | h
            · exact ⟨a, List.mem_cons_self .., h⟩
            · obtain ⟨c, hc, h⟩ := ih h
              exact ⟨c, List.mem_cons_of_mem _ hc, h⟩
        obtain ⟨c, hc, h⟩ := hex cs (by simp only [levels] at hd; omega)
        exact ⟨c, hc, ih c hc d h⟩

/-- `get_tree_nodes` yields the nodes of all depths. -/
theorem nodes_levels (t : ClusterRefine.Tree) : (nodes t).Perm ((List.range (levels t)).flatMap fun d => atDepth d t) := by
  have key : ∀ (t : ClusterRefine.Tree) (N : Nat), levels t ≤ N → (nodes t).Perm ((List.range N).flatMap fun d => atDepth d t) := by
    intro t
    induction t using tree_ind with
    | hl id dofs =>
      intro N hN
      obtain ⟨N, rfl⟩ : ∃ e, N = e + 1 := ⟨N - 1, by simp [levels] at hN; omega⟩
      rw [range_succ_flatMap]
      simp only [atDepth, children, List.flatMap_nil, nodes]
      have : ((List.range N).flatMap fun _ => ([] : List ClusterRefine.Tree)) = [] := by
        rw [List.flatMap_eq_nil_iff]
        simp
      rw [this, List.append_nil]
    | hn id cs ih =>
      intro N hN
      simp only [levels] at hN
      obtain ⟨N, rfl⟩ : ∃ e, N = e + 1 := ⟨N - 1, by omega⟩
      rw [range_succ_flatMap]
      simp only [atDepth, children, nodes, nodesList_eq, List.cons_append, List.nil_append]
      refine List.Perm.cons _ ?_
      refine List.Perm.trans ?_ (flatMap_swap cs (List.range N) fun c d => atDepth d c)
      refine List.Perm.flatMap_left _ fun c hc => ih c hc N ?_
      have : levels c ≤ levelsList cs := by
        clear ih hN
        induction cs with
        | nil => simp at hc
        | cons a cs ih =>
          simp only [levelsList]
          rcases List.mem_cons.1 hc with rfl | hc
          · exact le_max_left _ _
          · exact le_trans (ih hc) (le_max_right _ _)
      omega
  exact key t _ le_rfl

private theorem negative_nodes (t : ClusterRefine.Tree) : ∀ l : Int, l < 0 → numNodesOnLevel l t = 0 := by
  induction t using tree_ind with
  | hl id dofs => intro l h; simp [numNodesOnLevel]; omega
  | hn id cs ih =>
    intro l h
    simp only [numNodesOnLevel, numNodesOnLevelList_eq]
    rw [if_neg (by omega), Nat.zero_add]
    refine List.sum_eq_zero ?_
    intro x hx
    obtain ⟨c, hc, rfl⟩ := List.mem_map.1 hx
    exact ih c hc _ (by omega)

private theorem negative_leaves (t : ClusterRefine.Tree) : ∀ l : Int, l < 0 → numLeavesOnLevel l t = 0 := by
  induction t using tree_ind with
  | hl id dofs => intro l h; simp [numLeavesOnLevel]; omega
  | hn id cs ih =>
    intro l h
    simp only [numLeavesOnLevel, numLeavesOnLevelList_eq]
    rw [if_neg (by omega), Nat.zero_add]
    refine List.sum_eq_zero ?_
    intro x hx
    obtain ⟨c, hc, rfl⟩ := List.mem_map.1 hx
    exact ih c hc _ (by omega)

/-- `getNumNodesOnLevel` counts the nodes at a depth. -/
theorem numNodesOnLevel_exact (l : Nat) (t : ClusterRefine.Tree) : numNodesOnLevel l t = (atDepth l t).length := by
  induction l generalizing t with
  | zero =>
    cases t with
    | leaf id dofs => simp [numNodesOnLevel, atDepth]
    | node id cs =>
      simp only [numNodesOnLevel, numNodesOnLevelList_eq, atDepth]
      rw [List.sum_eq_zero]
      · simp
      · intro x hx
        obtain ⟨c, -, rfl⟩ := List.mem_map.1 hx
        exact negative_nodes c _ (by simp)
  | succ l ih =>
    cases t with
    | leaf id dofs => simp [numNodesOnLevel, atDepth, children]; omega
    | node id cs =>
      simp only [numNodesOnLevel, numNodesOnLevelList_eq, atDepth, children, List.length_flatMap]
      rw [if_neg (by push_cast; omega), Nat.zero_add]
      congr 1
      refine List.map_congr_left fun c _ => ?_
      rw [← ih]
      congr 1
      push_cast
      omega

/-- `getNumLeavesOnLevel` counts the nodes without children at a depth. -/
theorem numLeavesOnLevel_exact (l : Nat) (t : ClusterRefine.Tree) : numLeavesOnLevel l t = (atDepth l t).countP fun n => (children n).isEmpty := by
  induction l generalizing t with
  | zero =>
    cases t with
    | leaf id dofs => simp [numLeavesOnLevel, atDepth, children]
    | node id cs =>
      simp only [numLeavesOnLevel, numLeavesOnLevelList_eq, atDepth]
      rw [show ((cs.map (numLeavesOnLevel (((0 : Nat) : Int) - 1))).sum) = 0 from List.sum_eq_zero (by
        intro x hx
        obtain ⟨c, -, rfl⟩ := List.mem_map.1 hx
        exact negative_leaves c _ (by simp))]
      cases cs <;> simp [children]
  | succ l ih =>
    cases t with
    | leaf id dofs => simp [numLeavesOnLevel, atDepth, children]; omega
    | node id cs =>
      simp only [numLeavesOnLevel, numLeavesOnLevelList_eq, atDepth]
      rw [show children (.node id cs) = cs from rfl, List.countP_flatMap, if_neg (by push_cast; omega), Nat.zero_add]
      congr 1
      refine List.map_congr_left fun c _ => ?_
      simp only [Function.comp_apply]
      rw [← ih]
      congr 1
      push_cast
      omega

/-! ## Leaves -/

/-- The leaves of a refined tree divide its dofs. -/
theorem leaves_divide (t : ClusterRefine.Tree) (h : Divided t) : t.getDofs.Perm ((leaves t).flatMap Tree.getDofs) ∧ ∀ n ∈ leaves t, children n = [] ∧ n ∈ nodes t := by
  induction h with
  | leaf id dofs => simp [leaves, children, nodes]
  | node id cs _ _ hp ih =>
    constructor
    · refine hp.trans ?_
      simp only [leaves, leavesList_eq, List.flatMap_assoc]
      exact List.Perm.flatMap_left _ fun c hc => (ih c hc).1
    · intro n hn
      simp only [leaves, leavesList_eq, List.mem_flatMap] at hn
      obtain ⟨c, hc, hn⟩ := hn
      refine ⟨((ih c hc).2 n hn).1, ?_⟩
      simp only [nodes, nodesList_eq, List.mem_cons, List.mem_flatMap]
      exact Or.inr ⟨c, hc, ((ih c hc).2 n hn).2⟩

private theorem findNodeList_none (dof : Nat) (cs : List ClusterRefine.Tree) : findNodeList dof cs = none ↔ ∀ c ∈ cs, findNode dof c = none := by
  induction cs with
  | nil => simp [findNodeList]
  | cons c cs ih =>
    simp only [findNodeList, List.mem_cons, forall_eq_or_imp]
    cases h : findNode dof c with
    | some n => simp
    | none => simpa using ih

private theorem findNodeList_some (dof : Nat) (cs : List ClusterRefine.Tree) (n : ClusterRefine.Tree) (h : findNodeList dof cs = some n) : ∃ c ∈ cs, findNode dof c = some n := by
  induction cs with
  | nil => simp [findNodeList] at h
  | cons c cs ih =>
    simp only [findNodeList] at h
    cases hc : findNode dof c with
    | some m =>
      rw [hc] at h
      exact ⟨c, List.mem_cons_self .., by rw [hc]; exact h⟩
    | none =>
      rw [hc] at h
      obtain ⟨d, hd, he⟩ := ih h
      exact ⟨d, List.mem_cons_of_mem _ hd, he⟩

/-- `findNodeForDoF` returns a leaf with the dof, or nothing if no leaf has it. -/
theorem find_exact (dof : Nat) (t : ClusterRefine.Tree) : (∀ n, findNode dof t = some n → n ∈ leaves t ∧ (dof : Int) ∈ n.getDofs) ∧ (findNode dof t = none ↔ (dof : Int) ∉ t.getDofs) := by
  induction t using tree_ind with
  | hl id dofs => by_cases h : dof ∈ dofs <;> simp [findNode, leaves, Tree.getDofs, h]
  | hn id cs ih =>
    constructor
    · intro n hn
      simp only [findNode] at hn
      obtain ⟨c, hc, h⟩ := findNodeList_some dof cs n hn
      refine ⟨?_, ((ih c hc).1 n h).2⟩
      simp only [leaves, leavesList_eq, List.mem_flatMap]
      exact ⟨c, hc, ((ih c hc).1 n h).1⟩
    · simp only [findNode, findNodeList_none, Tree.getDofs, mem_dofsList]
      constructor
      · rintro h (h' | ⟨c, hc, h'⟩)
        · simp at h'
        · exact (ih c hc).2.1 (h c hc) h'
      · intro h c hc
        exact (ih c hc).2.2 fun h' => h (Or.inr ⟨c, hc, h'⟩)

/-! ## Ancestors -/

private theorem climb_eq (k : Nat) (chain : List ClusterRefine.Tree) : climb k chain = chain[k]? := by
  induction chain generalizing k with
  | nil => cases k <;> rfl
  | cons n r ih =>
    cases k with
    | zero => rfl
    | succ k => simp only [climb, List.getElem?_cons_succ, ih]

/-- `getParent(l)` is the ancestor on level `l`, counted from the root (last of the list). -/
theorem parent_exact (chain : List ClusterRefine.Tree) (l : Nat) (hl : l < chain.length) : getParent chain l = chain.reverse[l]? := by
  unfold getParent
  simp only [show ((l : Int) ≥ 0) from Int.natCast_nonneg l, if_true]
  rw [if_pos (by omega), climb_eq, List.getElem?_reverse hl]
  congr 1
  omega

/-- `getParent(-1 - k)` goes up `k` levels. -/
theorem parent_up (chain : List ClusterRefine.Tree) (k : Nat) : getParent chain (-1 - (k : Int)) = chain[k]? := by
  unfold getParent
  rw [show (if (-1 - (k : Int)) ≥ 0 then (-1 - (k : Int)) - ((chain.length : Int) - 1) - 1 else -1 - (k : Int)) = -1 - (k : Int) from if_neg (by omega)]
  dsimp only
  rw [if_pos (by omega), climb_eq]
  congr 1
  omega

/-! ## Identifiers -/

/-- `set_id` numbers the nodes consecutively in the order of `get_tree_nodes` and changes no dofs. -/
theorem setId_exact (t : ClusterRefine.Tree) (m : Int) :
    (setId m t).1.ids = (List.range (numNodes t)).map (fun k : Nat => m + (k : Int)) ∧ (setId m t).2 = m + numNodes t ∧ (nodes (setId m t).1).map Tree.getDofs = (nodes t).map Tree.getDofs := by
  obtain ⟨h1, h2, -, h4⟩ := setId_spec t m
  exact ⟨h1, h2, h4⟩

/-- After `set_id` identifiers are distinct. -/
theorem setId_distinct (t : ClusterRefine.Tree) (m : Int) : (setId m t).1.ids.Nodup := by
  rw [(setId_exact t m).1]
  exact List.nodup_range.map (fun a b h => by simpa using h)

/-- `get_max_id` is the greatest identifier. -/
theorem maxId_exact (t : ClusterRefine.Tree) : maxId t ∈ (nodes t).map rootId ∧ ∀ n ∈ nodes t, rootId n ≤ maxId t := by
  obtain ⟨h1, h2⟩ := maxId_spec t
  rw [ids_nodes] at h1 h2
  exact ⟨h1, fun n hn => h2 _ (List.mem_map_of_mem hn)⟩

/-- `idsAreUnique` tells whether identifiers are distinct. -/
theorem unique_iff (t : ClusterRefine.Tree) : (idsUnique [] t).1 = true ↔ ((nodes t).map rootId).Nodup := by
  rw [(idsUnique_spec t []).2, ids_nodes]
  simp

/-! ## Trimming -/

/-- Cached numbers of dofs agree with `get_dofs` for refined trees, the assertion in `trim`. -/
theorem numDofs_exact (t : ClusterRefine.Tree) (h : Divided t) : t.numDofs = t.getDofs.length := by
  induction h with
  | leaf id dofs => simp [Tree.numDofs, Tree.getDofs]
  | node id cs _ _ hp ih =>
    rw [hp.length_eq, List.length_flatMap]
    unfold Tree.numDofs
    clear hp
    rename_i hlen hd
    clear hlen hd
    induction cs with
    | nil => rfl
    | cons c cs ih2 =>
      simp only [numDofsList, List.map_cons, List.sum_cons]
      rw [ih c (List.mem_cons_self ..), ih2 fun c hc => ih c (List.mem_cons_of_mem _ hc)]

/-- What `trim` leaves: the dofs of the tree, all nodes of the set with their dofs, only nodes of the tree, children only where something below is in the set, and a divided tree. -/
theorem trim_exact (keep : Int → Bool) (t : ClusterRefine.Tree) :
    (trim keep t).2.getDofs = t.getDofs ∧
    (∀ n ∈ nodes t, keep (rootId n) = true → ∃ m ∈ nodes (trim keep t).2, rootId m = rootId n ∧ m.getDofs = n.getDofs) ∧
    ((nodes (trim keep t).2).map fun n => (rootId n, n.getDofs)).Sublist ((nodes t).map fun n => (rootId n, n.getDofs)) ∧
    (∀ n ∈ nodes (trim keep t).2, children n ≠ [] → ∃ c ∈ children n, ∃ m ∈ nodes c, keep (rootId m) = true) ∧
    ((trim keep t).1 = true ↔ ∀ n ∈ nodes t, keep (rootId n) = false) :=
  ⟨(trim_getDofs keep t).1, fun n hn hk => trim_keeps keep t n hn hk, trim_from keep t, fun n hn hc => trim_minimal keep t n hn hc, trim_flag keep t⟩

/-- A trimmed refined tree is again divided. -/
theorem trim_divided (keep : Int → Bool) (t : ClusterRefine.Tree) (h : Divided t) : Divided (trim keep t).2 := by
  induction h with
  | leaf id dofs => exact .leaf _ _
  | node id cs h2 hd hp ih =>
    have hg := (trim_getDofs keep (.node id cs)).1
    rcases trim_node keep id cs with ⟨-, -, h⟩ | ⟨-, h⟩
    · rw [h]
      exact .leaf _ _
    · rw [h] at hg ⊢
      refine .node _ _ (by simpa using h2) ?_ ?_
      · intro c hc
        obtain ⟨d, hd', rfl⟩ := List.mem_map.1 hc
        exact ih d hd'
      · rw [hg, List.flatMap_map]
        exact hp.trans (List.Perm.flatMap_left _ fun c _ => by rw [(trim_getDofs keep c).1])

/-- `trimTree` keeps the nodes of all cluster pairs with their dofs, and the levels up to the offset. -/
theorem trimTree_keeps (t : ClusterRefine.Tree) (near far : List (Int × Int)) (keep : List Int) (offset : Nat) (n : ClusterRefine.Tree) (hn : n ∈ nodes t)
    (h : (∃ p ∈ near ++ far, rootId n = p.1 ∨ rootId n = p.2) ∨ rootId n ∈ keep ∨ ∃ d ≤ offset, n ∈ atDepth d t) :
    ∃ m ∈ nodes (trimTree t near far keep offset), rootId m = rootId n ∧ m.getDofs = n.getDofs := by
  unfold trimTree
  refine trim_keeps _ t n hn ?_
  simp only [List.mem_append, List.mem_flatMap, List.mem_cons, List.not_mem_nil, or_false, List.mem_map, decide_eq_true_eq]
  rcases h with ⟨p, hp, h⟩ | h | ⟨d, hd, h⟩
  · rcases List.mem_append.1 hp with hp | hp
    · exact Or.inl (Or.inl (Or.inr ⟨p, hp, h⟩))
    · exact Or.inl (Or.inr ⟨p, hp, h⟩)
  · exact Or.inl (Or.inl (Or.inl h))
  · refine Or.inr ⟨n, ?_, rfl⟩
    rw [(upTo_levels offset t).mem_iff, List.mem_flatMap]
    exact ⟨d, List.mem_range.2 (by omega), h⟩

/-! ## Symmetric near field -/

/-- `symmetrizeNearFieldClusters` appends exactly the missing transposed pairs, once each, whatever the order in which the set is emptied. -/
theorem symmetrize_exact (pop : List (Int × Int) → Nat) (near : List (Int × Int)) :
    ∃ extra, symmetrize pop near = near ++ extra ∧ extra.Nodup ∧ ∀ a b, (a, b) ∈ extra ↔ (b, a) ∈ near ∧ (a, b) ∉ near := by
  obtain ⟨ex, e1, e2, e3⟩ := symLoop_spec pop near.dedup.length near.dedup near le_rfl (List.nodup_dedup _)
  refine ⟨ex, e1, e2, fun a b => ?_⟩
  rw [e3, List.mem_dedup, List.mem_dedup]
  rfl

/-- The result is symmetric, and has each pair once if that was so before. -/
theorem symmetrize_symmetric (pop : List (Int × Int) → Nat) (near : List (Int × Int)) :
    (∀ a b, (a, b) ∈ symmetrize pop near → (b, a) ∈ symmetrize pop near) ∧ (near.Nodup → (symmetrize pop near).Nodup) := by
  obtain ⟨ex, e1, e2, e3⟩ := symmetrize_exact pop near
  rw [e1]
  constructor
  · intro a b h
    rw [List.mem_append] at h ⊢
    rcases h with h | h
    · by_cases hb : (b, a) ∈ near
      · exact Or.inl hb
      · exact Or.inr ((e3 b a).2 ⟨h, hb⟩)
    · exact Or.inl ((e3 a b).1 h).1
  · intro hn
    rw [List.nodup_append]
    refine ⟨hn, e2, ?_⟩
    rintro ⟨a, b⟩ ha y hy rfl
    exact ((e3 a b).1 hy).2 ha

/-! ## Concrete cases and witness -/

/-- Seven nodes on three levels. -/
def sample : ClusterRefine.Tree := .node 0 [.node 1 [.leaf 3 [0, 1], .leaf 4 [3]], .node 2 [.leaf 5 [2], .leaf 6 [4, 5]]]

/-- Level 2 has four nodes; `get_tree_nodes_on_level(2)` yields six. -/
theorem onLevel_fails : (atDepth 2 sample).map rootId = [3, 4, 5, 6] ∧ (onLevel 2 sample).map rootId = [1, 3, 4, 2, 5, 6] := by decide +kernel

example : Divided sample := by
  refine .node _ _ (by decide) ?_ (by decide +kernel)
  intro c hc
  simp only [List.mem_cons, List.not_mem_nil, or_false] at hc
  rcases hc with rfl | rfl
  · refine .node _ _ (by decide) ?_ (by decide +kernel)
    intro c hc
    simp only [List.mem_cons, List.not_mem_nil, or_false] at hc
    rcases hc with rfl | rfl <;> exact .leaf _ _
  · refine .node _ _ (by decide) ?_ (by decide +kernel)
    intro c hc
    simp only [List.mem_cons, List.not_mem_nil, or_false] at hc
    rcases hc with rfl | rfl <;> exact .leaf _ _

example : (leaves sample).map rootId = [3, 4, 5, 6] ∧ levels sample = 3 ∧ numNodesOnLevel 2 sample = 4 ∧ numLeavesOnLevel 1 sample = 0 := by decide +kernel

example : (findNode 4 sample).map rootId = some 6 ∧ (findNode 9 sample).map rootId = none := by decide +kernel

example : (getParent [.leaf 6 [4, 5], .node 2 [], sample] 1).map rootId = some 2 := by decide +kernel

example : (trimTree sample [(1, 5)] [(2, 2)] [] 1).ids = [0, 1, 2, 5, 6] ∧ (trimTree sample [(1, 5)] [(2, 2)] [] 1).getDofs = [0, 1, 2, 3, 4, 5] := by decide +kernel

example : symmetrize (fun _ => 1) [(1, 2), (3, 3), (2, 1), (4, 1)] = [(1, 2), (3, 3), (2, 1), (4, 1), (1, 4)] := by decide +kernel

end PyNucleus.Props.C61
