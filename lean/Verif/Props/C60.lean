import Verif.Proof.ClusterRefine
import Verif.Proof.ClusterPairs
import Mathlib.Algebra.Order.Field.Rat
import Mathlib.Data.List.GetD

/-!
# C60: refinement of a cluster tree

Full statement: `refine` either leaves a cluster as it is or gives it at least two children that divide its dofs, each with at least `minSize` and fewer than all dofs; the boxes of
clusters are the smallest boxes of their dofs; the recursive refinement gives a tree in which the dofs of every node are the union of those of its children and all identifiers are
distinct; no invalid access occurs; a cluster whose dof coordinates differ is split at the barycenter.

Violated: with `splitEveryDim` an empty quadrant before a nonempty one leads to an access `children[k]` beyond the end (`quadrant_fails`); mixed and other clusters number their children
with different arity, so identifiers collide (`ids_mixed_fails`); without `splitEveryDim` the type BARYCENTER never splits in two dimensions (`barycenter_fails`).
-/

namespace PyNucleus.Props.C60

open PyNucleus.ClusterRefine PyNucleus.ClusterPairs

variable {K : Type} [Field K] [LinearOrder K]

/-- Children divide the dofs of the parent. -/
theorem divides (P : Params K) (mixed : Bool) (root lvl : Nat) (id : Int) (dofs : List Nat) (cs : List (List Nat × Int)) (h : refine P mixed root lvl id dofs = .split cs) :
    2 ≤ cs.length ∧ (cs.map Prod.fst).flatten.Perm dofs ∧ ∀ c ∈ cs, P.minSize ≤ c.1.length ∧ c.1.length < dofs.length ∧ c.1.Sublist dofs := by
  obtain ⟨h1, h2, h3, -⟩ := refine_split P mixed root lvl id dofs cs h
  exact ⟨h1, h2, h3⟩

/-- The dofs of a node are those of its children, for all nodes of a tree. -/
inductive Divided : Tree → Prop
  | leaf (id : Int) (dofs : List Nat) : Divided (.leaf id dofs)
  | node (id : Int) (cs : List Tree) : 2 ≤ cs.length → (∀ c ∈ cs, Divided c) → (Tree.getDofs (.node id cs)).Perm (cs.flatMap Tree.getDofs) → Divided (.node id cs)

private theorem dofsList_sorted (cs : List Tree) (hs : ∀ c ∈ cs, c.getDofs.Pairwise (· < ·)) (acc : List Int) (hacc : acc.Pairwise (· < ·)) :
    (dofsList acc cs).Pairwise (· < ·) ∧ ∀ x, x ∈ dofsList acc cs ↔ x ∈ acc ∨ ∃ c ∈ cs, x ∈ c.getDofs := by
  induction cs generalizing acc with
  | nil => simp [dofsList, hacc]
  | cons c cs ih =>
    unfold dofsList
    obtain ⟨i1, i2⟩ := ih (fun c hc => hs c (List.mem_cons_of_mem _ hc)) _ (IndexSet.sorted_unionFill _ _ hacc (hs c (List.mem_cons_self ..)))
    refine ⟨i1, fun x => ?_⟩
    rw [i2, IndexSet.mem_unionFill]
    simp [or_assoc]

private theorem numDofsList_eq (ts : List Tree) : numDofsList ts = (ts.map Tree.numDofs).sum := by
  induction ts with
  | nil => rfl
  | cons t ts ih => simp [numDofsList, ih]

private theorem eq_of_sorted {a b : List Int} (ha : a.Pairwise (· < ·)) (hb : b.Pairwise (· < ·)) (h : ∀ x, x ∈ a ↔ x ∈ b) : a = b := by
  have hp : a.Perm b := by
    rw [List.perm_ext_iff_of_nodup (ha.imp (fun h => ne_of_lt h)) (hb.imp (fun h => ne_of_lt h))]
    exact h
  exact hp.eq_of_pairwise (fun a b _ _ h1 h2 => absurd h1 (not_lt.2 h2.le)) ha hb

private theorem node_ok (dofs : List Nat) (hs : dofs.Pairwise (· < ·)) (cs : List (List Nat × Int)) (h2 : 2 ≤ cs.length) (hp : (cs.map Prod.fst).flatten.Perm dofs) (hsub : ∀ c ∈ cs, c.1.Sublist dofs)
    (ts : List Tree) (id : Int) (hF : List.Forall₂ (fun c t => Tree.getDofs t = c.1.map Int.ofNat ∧ t.numDofs = c.1.length ∧ Divided t) cs ts) :
    (ClusterRefine.Tree.node id ts).getDofs = dofs.map Int.ofNat ∧ (ClusterRefine.Tree.node id ts).numDofs = dofs.length ∧ Divided (.node id ts) := by
  have hlen := hF.length_eq
  have hflat : ts.flatMap Tree.getDofs = (cs.map Prod.fst).flatten.map Int.ofNat := by
    clear h2 hp hlen
    induction hF with
    | nil => rfl
    | @cons c t cs ts h _ ih => simp only [List.flatMap_cons, h.1, ih fun c hc => hsub c (List.mem_cons_of_mem _ hc), List.map_cons, List.flatten_cons, List.map_append]
  have hsorted : ∀ t ∈ ts, t.getDofs.Pairwise (· < ·) ∧ Divided t := by
    clear h2 hp hlen hflat
    induction hF with
    | nil => simp
    | @cons c t cs ts h _ ih =>
      intro u hu
      rcases List.mem_cons.1 hu with rfl | hu
      · rw [h.1, List.pairwise_map]
        exact ⟨(hs.sublist (hsub c (List.mem_cons_self ..))).imp (by intro a b; simp), h.2.2⟩
      · exact ih (fun c hc => hsub c (List.mem_cons_of_mem _ hc)) u hu
  have hds : (dofs.map Int.ofNat).Pairwise (· < ·) := by
    rw [List.pairwise_map]
    exact hs.imp (by intro a b; simp)
  obtain ⟨d1, d2⟩ := dofsList_sorted ts (fun t ht => (hsorted t ht).1) [] .nil
  have hperm := hp.map Int.ofNat
  rw [← hflat] at hperm
  have hget : (ClusterRefine.Tree.node id ts).getDofs = dofs.map Int.ofNat := by
    unfold Tree.getDofs
    refine eq_of_sorted d1 hds fun x => ?_
    rw [d2, ← hperm.mem_iff, List.mem_flatMap]
    simp
  refine ⟨hget, ?_, .node id ts (by omega) (fun t ht => (hsorted t ht).2) ?_⟩
  · unfold Tree.numDofs
    rw [numDofsList_eq, ← hp.length_eq]
    clear h2 hp hlen hflat hsorted hds d1 d2 hperm hget
    induction hF with
    | nil => rfl
    | @cons c t cs ts h _ ih => simp only [List.map_cons, List.sum_cons, h.2.1, ih fun c hc => hsub c (List.mem_cons_of_mem _ hc), List.flatten_cons, List.length_append]
  · rw [hget]
    exact hperm.symm

private theorem build_ok (P : Params K) (mixed : Bool) (root rem lvl : Nat) (id : Int) (dofs : List Nat) (hs : dofs.Pairwise (· < ·)) (t : Tree) (h : build P mixed root rem lvl id dofs = some t) :
    t.getDofs = dofs.map Int.ofNat ∧ t.numDofs = dofs.length ∧ Divided t := by
  induction rem generalizing lvl id dofs t with
  | zero =>
    simp only [build, Option.some.injEq] at h
    subst h
    exact ⟨by simp [Tree.getDofs], by simp [Tree.numDofs], .leaf _ _⟩
  | succ rem ih =>
    unfold build at h
    split at h
    · cases h
      exact ⟨by simp [Tree.getDofs], by simp [Tree.numDofs], .leaf _ _⟩
    · cases h
    · rename_i cs hcs
      cases hm : cs.mapM fun c => build P mixed root rem (lvl + 1) c.2 c.1 with
      | none => rw [hm] at h; cases h
      | some ts =>
        rw [hm] at h
        cases h
        obtain ⟨h2, hp, hc⟩ := divides _ _ _ _ _ _ _ hcs
        refine node_ok dofs hs cs h2 hp (fun c hc' => (hc c hc').2.2) ts id ?_
        have hF := mapM_forall₂ _ _ _ hm
        clear hm hp h2 hcs
        induction hF with
        | nil => exact .nil
        | @cons c t cs ts h _ ih2 =>
          exact .cons (ih _ _ _ (hs.sublist (hc c (List.mem_cons_self ..)).2.2) _ h) (ih2 fun c h => hc c (List.mem_cons_of_mem _ h))

/-- The tree of the recursive refinement has the dofs of the root, and every node the dofs of its children. -/
theorem tree_dofs (P : Params K) (mixed : Bool) (dofs : List Nat) (hs : dofs.Pairwise (· < ·)) (t : Tree) (h : buildRoot P mixed dofs = some t) :
    t.getDofs = dofs.map Int.ofNat ∧ t.numDofs = dofs.length ∧ Divided t := by
  unfold buildRoot at h
  split at h
  · cases h
    exact ⟨by simp [Tree.getDofs], by simp [Tree.numDofs], .leaf _ _⟩
  · cases h
  · rename_i cs hcs
    cases hm : cs.mapM fun c => build P mixed cs.length (if mixed then P.maxLevelsMixed else P.maxLevels) 1 c.2 c.1 with
    | none => rw [hm] at h; cases h
    | some ts =>
      rw [hm] at h
      cases h
      obtain ⟨h2, hp, hc⟩ := divides _ _ _ _ _ _ _ hcs
      refine node_ok dofs hs cs h2 hp (fun c hc' => (hc c hc').2.2) ts 0 ?_
      have hF := mapM_forall₂ _ _ _ hm
      clear hm hp h2
      revert hF hc
      generalize cs.length = n
      clear hcs
      intro hc hF
      induction hF with
      | nil => exact .nil
      | @cons c t cs ts h _ ih2 =>
        exact .cons (build_ok _ _ _ _ _ _ _ (hs.sublist (hc c (List.mem_cons_self ..)).2.2) _ h) (ih2 fun c h => hc c (List.mem_cons_of_mem _ h))

/-- All identifiers of the tree are distinct if all clusters are mixed or none is. -/
theorem ids_distinct_partial (P : Params K) (mixed : Bool) (dim : Nat) (dofs : List Nat) (hd : ∀ i ∈ dofs, (P.boxes i).length = dim) (t : Tree) (h : buildRoot P mixed dofs = some t) : t.ids.Nodup := by
  unfold buildRoot at h
  split at h
  · cases h
    simp [Tree.ids]
  · cases h
  · rename_i cs hcs
    cases hm : cs.mapM fun c => build P mixed cs.length (if mixed then P.maxLevelsMixed else P.maxLevels) 1 c.2 c.1 with
    | none => rw [hm] at h; cases h
    | some ts =>
      rw [hm] at h
      cases h
      obtain ⟨h2, hp, hc, hids, -, -, -⟩ := refine_split _ _ _ _ _ _ _ hcs
      have hM : 2 ≤ arity P mixed dim := by unfold arity; split <;> [skip; split] <;> omega
      have hids' : cs.map Prod.snd = (List.range' 0 cs.length).map fun k => nid cs.length (arity P mixed dim) 1 k := by
        rw [hids, List.range_eq_range']
        refine List.map_congr_left fun k _ => ?_
        have hg : geom (arity P mixed dim) (1 - 1) = 0 := by simp [geom]
        unfold childId nid
        rw [hg]
        simp
        omega
      have hF := forall₂_ids (P := P) (mixed := mixed) (dofs := dofs) cs ts (fun k => k) 0 hids' (fun c hc' => (hc c hc').2.2)
        (fun u ds t hds hk hb => by
          obtain ⟨k, -, hk2, rfl⟩ := hk
          exact build_ids P mixed cs.length dim dofs hd _ 1 u le_rfl ds hds (by simpa using hk2) t hb)
        (mapM_forall₂ _ _ _ hm)
      obtain ⟨i1, i2⟩ := idsList_ok cs.length (arity P mixed dim) 1 hM le_rfl ts _ (by simpa using List.nodup_range') (by
        intro u hu
        simp only [List.map_id'] at hu
        rw [List.mem_range'_1] at hu
        simpa using hu) hF
      simp only [Tree.ids, List.nodup_cons]
      refine ⟨?_, i2⟩
      intro hx
      obtain ⟨v, -, d, w, -, -, hx⟩ := i1 0 hx
      have hg : 0 ≤ geom (arity P mixed dim) (1 + d - 1) := geom_mono _ hM 0 _ (Nat.zero_le _)
      have : 0 ≤ (cs.length : Int) * geom (arity P mixed dim) (1 + d - 1) := by positivity
      unfold nid at hx
      omega

/-- Unless quadrants are used no invalid access occurs and no assertion fails. -/
theorem no_error_partial (P : Params K) (mixed : Bool) (root lvl : Nat) (id : Int) (dofs : List Nat) (hq : mixed = true ∨ P.splitEveryDim = false ∨ (hull P dofs).length ≠ 2) :
    refine P mixed root lvl id dofs ≠ .error := by
  intro h
  refine collect_no_error (acc := []) _ ?_ (refine_error P mixed root lvl id dofs h)
  intro s hs _
  unfold candidates at hs
  have hh : ∀ sb : Box K, s ∈ halves P dofs sb → s.2 = false := by
    intro sb hs
    simp only [halves, List.mem_cons, List.not_mem_nil, or_false] at hs
    rcases hs with rfl | rfl <;> rfl
  split at hs
  · exact hh _ hs
  · split at hs
    · rename_i hc
      exfalso
      rcases hq with h | h | h
      · simp [h] at hc
      · simp [h] at hc
      · exact h hc.1
    · exact hh _ hs

/-- With quadrants no invalid access occurs if no quadrant is empty. -/
theorem quadrants_partial (P : Params K) (mixed : Bool) (root lvl : Nat) (id : Int) (dofs : List Nat) (hq : ∀ s ∈ (candidates P mixed dofs (hull P dofs)).2, s.1 ≠ []) :
    refine P mixed root lvl id dofs ≠ .error := by
  intro h
  exact collect_no_error (acc := []) _ (fun s hs he => absurd he (hq s hs)) (refine_error P mixed root lvl id dofs h)

/-! ## Boxes -/

/-- `b` lies in `c`. -/
def Within (b c : Box K) : Prop := List.Forall₂ (fun i j => j.1 ≤ i.1 ∧ i.2 ≤ j.2) b c

private theorem within_refl (b : Box K) : Within b b := by
  induction b with
  | nil => exact .nil
  | cons a b ih => exact .cons ⟨le_rfl, le_rfl⟩ ih

private theorem within_trans {a b c : Box K} (h1 : Within a b) (h2 : Within b c) : Within a c := by
  induction h1 generalizing c with
  | nil => exact h2
  | cons h _ ih =>
    cases h2 with
    | cons g hs => exact .cons ⟨g.1.trans h.1, h.2.trans g.2⟩ (ih hs)

private theorem within_merge (b c : Box K) (h : b.length = c.length) : Within b (mergeBoxes b c) ∧ Within c (mergeBoxes b c) := by
  induction b generalizing c with
  | nil =>
    cases c with
    | nil => exact ⟨.nil, .nil⟩
    | cons _ _ => simp at h
  | cons x b ih =>
    cases c with
    | nil => simp at h
    | cons y c =>
      obtain ⟨i1, i2⟩ := ih c (by simpa using h)
      exact ⟨.cons ⟨min_le_left _ _, le_max_left _ _⟩ i1, .cons ⟨min_le_right _ _, le_max_right _ _⟩ i2⟩

private theorem merge_within {b c d : Box K} (h1 : Within b d) (h2 : Within c d) : Within (mergeBoxes b c) d := by
  induction h1 generalizing c with
  | nil => cases h2; exact .nil
  | cons h _ ih =>
    cases h2 with
    | cons g hs => exact .cons ⟨le_min h.1 g.1, max_le h.2 g.2⟩ (ih hs)

/-- The box of a cluster contains the boxes of its dofs and is the smallest such box. -/
theorem hull_exact (P : Params K) (dim : Nat) (dofs : List Nat) (hne : dofs ≠ []) (hd : ∀ i ∈ dofs, (P.boxes i).length = dim) :
    (∀ i ∈ dofs, Within (P.boxes i) (hull P dofs)) ∧ ∀ b, (∀ i ∈ dofs, Within (P.boxes i) b) → Within (hull P dofs) b := by
  cases dofs with
  | nil => simp at hne
  | cons i r =>
    unfold hull
    have key : ∀ (l : List Nat) (b : Box K), b.length = dim → (∀ j ∈ l, (P.boxes j).length = dim) →
        (Within b (l.foldl (fun b j => mergeBoxes b (P.boxes j)) b) ∧ ∀ j ∈ l, Within (P.boxes j) (l.foldl (fun b j => mergeBoxes b (P.boxes j)) b)) ∧
          ∀ c, Within b c → (∀ j ∈ l, Within (P.boxes j) c) → Within (l.foldl (fun b j => mergeBoxes b (P.boxes j)) b) c := by
      intro l
      induction l with
      | nil => exact fun b _ _ => ⟨⟨within_refl b, by simp⟩, fun c h _ => h⟩
      | cons j l ih =>
        intro b hb hl
        have hj := hl j (List.mem_cons_self ..)
        obtain ⟨⟨i1, i2⟩, i3⟩ := ih (mergeBoxes b (P.boxes j)) (by rw [mergeBoxes_length _ _ (by rw [hb, hj]), hb]) fun k hk => hl k (List.mem_cons_of_mem _ hk)
        have hw := within_merge b (P.boxes j) (by rw [hb, hj])
        refine ⟨⟨within_trans hw.1 i1, ?_⟩, ?_⟩
        · intro k hk
          rcases List.mem_cons.1 hk with rfl | hk
          · exact within_trans hw.2 i1
          · exact i2 k hk
        · intro c hc hcl
          exact i3 c (merge_within hc (hcl j (List.mem_cons_self ..))) fun k hk => hcl k (List.mem_cons_of_mem _ hk)
    obtain ⟨⟨k1, k2⟩, k3⟩ := key r (P.boxes i) (hd i (List.mem_cons_self ..)) fun j hj => hd j (List.mem_cons_of_mem _ hj)
    refine ⟨?_, fun b hb => k3 b (hb i (List.mem_cons_self ..)) fun j hj => hb j (List.mem_cons_of_mem _ hj)⟩
    intro j hj
    rcases List.mem_cons.1 hj with rfl | hj
    · exact k1
    · exact k2 j hj

/-- The boxes of children lie in the box of the parent. -/
theorem child_box (P : Params K) (mixed : Bool) (root lvl : Nat) (id : Int) (dim : Nat) (dofs : List Nat) (hd : ∀ i ∈ dofs, (P.boxes i).length = dim) (cs : List (List Nat × Int))
    (h : refine P mixed root lvl id dofs = .split cs) (c : List Nat × Int) (hc : c ∈ cs) (hne : c.1 ≠ []) : Within (hull P c.1) (hull P dofs) := by
  obtain ⟨-, -, h3⟩ := divides P mixed root lvl id dofs cs h
  have hsub := (h3 c hc).2.2.subset
  have hne' : dofs ≠ [] := by
    rintro rfl
    exact hne (List.eq_nil_of_subset_nil hsub)
  exact (hull_exact P dim c.1 hne fun i hi => hd i (hsub hi)).2 _ fun i hi => (hull_exact P dim dofs hne' hd).1 i (hsub hi)

/-! ## Barycenter -/

section barycenter

variable [IsStrictOrderedRing K]

private theorem sum_ge (l : List K) (m : K) (h : ∀ x ∈ l, m ≤ x) : (l.length : K) * m ≤ l.sum ∧ (l.sum = l.length * m → ∀ x ∈ l, x = m) := by
  induction l with
  | nil => simp
  | cons a l ih =>
    obtain ⟨i1, i2⟩ := ih fun x hx => h x (List.mem_cons_of_mem _ hx)
    have ha := h a (List.mem_cons_self ..)
    have hl : ((a :: l).length : K) * m = m + l.length * m := by push_cast [List.length_cons]; ring
    rw [hl, List.sum_cons]
    refine ⟨by linarith, fun he x hx => ?_⟩
    have h1 : a = m := by linarith
    rcases List.mem_cons.1 hx with rfl | hx
    · exact h1
    · exact i2 (by linarith) x hx

private theorem sum_le (l : List K) (m : K) (h : ∀ x ∈ l, x < m) (hne : l ≠ []) : l.sum < l.length * m := by
  have h1 := sum_ge (l.map fun x => -x) (-m) (by
    intro y hy
    obtain ⟨x, hx, rfl⟩ := List.mem_map.1 hy
    exact neg_le_neg (h x hx).le)
  have h2 : (l.map fun x => -x).sum = -l.sum := by
    clear h h1 hne
    induction l with
    | nil => simp
    | cons a l ih => simp only [List.map_cons, List.sum_cons, ih]; ring
  rw [h2, List.length_map] at h1
  rcases lt_or_eq_of_le h1.1 with h3 | h3
  · linarith
  · exfalso
    obtain ⟨a, l', rfl⟩ := List.exists_cons_of_ne_nil hne
    have := h1.2 h3.symm (-a) (by simp)
    have := h a (List.mem_cons_self ..)
    linarith

/-- One dimension, type BARYCENTER: a cluster on a level that may be refined is split if two coordinates differ. -/
theorem barycenter_splits (P : Params K) (root lvl : Nat) (id : Int) (dofs : List Nat) (ht : P.refType = .barycenter) (hsize : P.minSize = 1) (hl : lvl + 1 < P.maxLevels)
    (hd : ∀ i ∈ dofs, (P.boxes i).length = 1) (hc : ∀ i ∈ dofs, ∃ x, P.coords i = [x] ∧ ∀ b ∈ hull P dofs, b.1 ≤ x) (i j : Nat) (hi : i ∈ dofs) (hj : j ∈ dofs) (hij : P.coords i ≠ P.coords j) :
    ∃ cs, refine P false root lvl id dofs = .split cs := by
  have hne : dofs ≠ [] := List.ne_nil_of_mem hi
  have hlen := hull_length P 1 dofs hne hd
  have hn : 1 < dofs.length := by
    by_contra hn
    have : dofs.length = 1 := by
      have := List.length_pos_of_ne_nil hne
      omega
    obtain ⟨a, ha⟩ := List.length_eq_one_iff.1 this
    rw [ha] at hi hj
    simp only [List.mem_singleton] at hi hj
    exact hij (by rw [hi, hj])
  obtain ⟨b, hb⟩ := List.length_eq_one_iff.1 hlen
  have hpos : (0 : K) < dofs.length := by exact_mod_cast (by omega : 0 < dofs.length)
  have hmean : (dofs.map fun i => P.coord i 0).sum = (dofs.map fun i => P.coord i 0).length * mean P dofs 0 := by
    unfold mean
    rw [List.length_map]
    rw [mul_div_cancel₀ _ hpos.ne']
  have hcoord : ∀ a ∈ dofs, P.coords a = [P.coord a 0] ∧ b.1 ≤ P.coord a 0 := by
    intro a ha
    obtain ⟨x, hx, hx2⟩ := hc a ha
    unfold Params.coord
    rw [hx]
    exact ⟨rfl, hx2 b (by rw [hb]; simp)⟩
  have hin : ∀ a ∈ dofs, inBox [(b.1, mean P dofs 0)] (P.coords a) = decide (P.coord a 0 < mean P dofs 0) := by
    intro a ha
    rw [(hcoord a ha).1]
    simp [inBox, (hcoord a ha).2]
  have hlow : ∃ a ∈ dofs, P.coord a 0 < mean P dofs 0 := by
    by_contra hno
    have hall := (sum_ge (dofs.map fun i => P.coord i 0) (mean P dofs 0) (by
      intro x hx
      obtain ⟨a, ha, rfl⟩ := List.mem_map.1 hx
      by_contra hlt
      exact hno ⟨a, ha, not_le.1 hlt⟩)).2 hmean
    refine hij ?_
    rw [(hcoord i hi).1, (hcoord j hj).1, hall (P.coord i 0) (List.mem_map_of_mem hi), hall (P.coord j 0) (List.mem_map_of_mem hj)]
  have hhigh : ∃ a ∈ dofs, ¬ P.coord a 0 < mean P dofs 0 := by
    by_contra hno
    have := sum_le (dofs.map fun i => P.coord i 0) (mean P dofs 0) (by
      intro x hx
      obtain ⟨a, ha, rfl⟩ := List.mem_map.1 hx
      by_contra hlt
      exact hno ⟨a, ha, hlt⟩) (by simpa using hne)
    rw [hmean] at this
    exact lt_irrefl _ this
  obtain ⟨a, ha, hal⟩ := hlow
  obtain ⟨c, hc', hch⟩ := hhigh
  have ha1 : a ∈ dofs.filter fun i => inBox [(b.1, mean P dofs 0)] (P.coords i) := List.mem_filter.2 ⟨ha, by rw [hin a ha]; simpa using hal⟩
  have hc1 : c ∈ dofs.filter fun i => !inBox [(b.1, mean P dofs 0)] (P.coords i) := List.mem_filter.2 ⟨hc', by rw [hin c hc']; simpa using hch⟩
  have hsum := (filter_not_perm dofs fun i => inBox [(b.1, mean P dofs 0)] (P.coords i)).length_eq
  rw [List.length_append] at hsum
  have hp1 := List.length_pos_of_mem ha1
  have hp2 := List.length_pos_of_mem hc1
  have hcand : candidates P false dofs (hull P dofs) = (2, halves P dofs [(b.1, mean P dofs 0)]) := by
    unfold candidates
    rw [if_pos hlen, ht, hb]
    rfl
  refine ⟨[(dofs.filter fun i => inBox [(b.1, mean P dofs 0)] (P.coords i), childId lvl id root 2 0), (dofs.filter fun i => !inBox [(b.1, mean P dofs 0)] (P.coords i), childId lvl id root 2 1)], ?_⟩
  unfold refine
  rw [if_neg (by simp; omega), hcand]
  simp only [halves, hsize]
  rw [collect, if_pos ⟨by omega, by omega⟩, if_pos (by simp), collect, if_pos ⟨by omega, by omega⟩, if_pos (by simp), collect]
  simp only [finish, List.nil_append, List.cons_append, List.length_cons, List.length_nil, List.map_cons, List.map_nil, List.sum_cons, List.sum_nil]
  rw [if_neg (by omega), if_pos (by right; omega)]

private theorem inBox_wide (eps : K) (heps : 0 < eps) {b : Box K} {x : List K} (h : InBox b x) : inBox (b.map fun iv => (iv.1 - eps, iv.2 + eps)) x = true := by
  induction h with
  | nil => rfl
  | cons h1 _ ih =>
    simp only [List.map_cons, inBox, ih, Bool.and_true, Bool.and_eq_true, decide_eq_true_eq]
    exact ⟨by linarith [h1.1], by linarith [h1.2]⟩

/-- Type BARYCENTER without `splitEveryDim` in two dimensions: no cluster is ever split. -/
theorem barycenter_fails (P : Params K) (mixed : Bool) (root lvl : Nat) (id : Int) (dofs : List Nat) (ht : P.refType = .barycenter) (hs : P.splitEveryDim = false) (heps : 0 < P.eps)
    (hd : (hull P dofs).length = 2) (hc : ∀ i ∈ dofs, InBox (hull P dofs) (P.coords i)) : refine P mixed root lvl id dofs = .leaf := by
  unfold refine
  split
  · rfl
  · have hcand : candidates P mixed dofs (hull P dofs) = (2, halves P dofs ((hull P dofs).map fun iv => (iv.1 - P.eps, iv.2 + P.eps))) := by
      unfold candidates
      rw [if_neg (by omega), if_neg (by simp [hs]), ht]
    rw [hcand]
    have hall : (dofs.filter fun i => inBox ((hull P dofs).map fun iv => (iv.1 - P.eps, iv.2 + P.eps)) (P.coords i)) = dofs := by
      rw [List.filter_eq_self]
      exact fun i hi => inBox_wide P.eps heps (hc i hi)
    simp only [halves, hall]
    rw [collect, if_neg (by omega), if_neg (by simp)]
    rfl

end barycenter

/-! ## Concrete cases and witnesses -/

/-- Points `0, 1, 2, …` of a line with their intervals. -/
def line (t : RefType) : Params Rat where
  refType := t
  maxLevels := 4
  maxLevelsMixed := 4
  minSize := 1
  minMixedSize := 1
  splitEveryDim := false
  med l := l.getD (l.length / 2) 0
  eps := 1 / 1000
  coords i := [(i : Rat)]
  boxes i := [((i : Rat) - 1, (i : Rat) + 1)]

example : refine (line .barycenter) false 0 0 0 [0, 1, 2, 7] = .split [([0, 1, 2], 1), ([7], 2)] := by decide +kernel

example : refine (line .median) false 2 1 2 [3, 4, 5, 6] = .split [([3, 4], 5), ([5, 6], 6)] := by decide +kernel

example : (buildRoot (line .geometric) false [0, 1, 2, 3]).map Tree.ids = some [0, 1, 3, 4, 2, 5, 6] := by decide +kernel

example : (buildRoot (line .geometric) false [0, 1, 2, 3]).map Tree.getDofs = some [0, 1, 2, 3] := by decide +kernel

/-- Points of the plane with quadrants. -/
def plane (t : RefType) (pts : List (Rat × Rat)) (every : Bool) : Params Rat where
  refType := t
  maxLevels := 4
  maxLevelsMixed := 4
  minSize := 1
  minMixedSize := 1
  splitEveryDim := every
  med l := l.getD (l.length / 2) 0
  eps := 1 / 1000
  coords i := [(pts.getD i (0, 0)).1, (pts.getD i (0, 0)).2]
  boxes i := [((pts.getD i (0, 0)).1 - 1, (pts.getD i (0, 0)).1 + 1), ((pts.getD i (0, 0)).2 - 1, (pts.getD i (0, 0)).2 + 1)]

example : refine (plane .geometric [(0, 0), (4, 0), (0, 4), (4, 4)] true) false 0 0 0 [0, 1, 2, 3] = .split [([0], 1), ([1], 2), ([2], 3), ([3], 4)] := by decide +kernel

/-- Three points with an empty first quadrant: `children[1]` is accessed when there is one child. -/
theorem quadrant_fails : refine (plane .geometric [(4, 0), (0, 4), (4, 4)] true) false 0 0 0 [0, 1, 2] = .error := by decide +kernel

/-- Level 1, two root children, the first not mixed and the second mixed: both have a child with the identifier 5. -/
theorem ids_mixed_fails :
    let P := plane .geometric [(0, 0), (4, 0), (0, 4), (4, 4), (10, 0), (14, 0)] true
    refine P false 2 1 1 [0, 1, 2, 3] = .split [([0], 3), ([1], 4), ([2], 5), ([3], 6)] ∧ refine P true 2 1 2 [4, 5] = .split [([4], 5), ([5], 6)] := by decide +kernel

/-- The hypotheses of `barycenter_splits` in a concrete case. -/
example : ∀ i ∈ [0, 1, 2, 7], ∃ x, (line .barycenter).coords i = [x] ∧ ∀ b ∈ hull (line .barycenter) [0, 1, 2, 7], b.1 ≤ x := by
  intro i _
  refine ⟨(i : Rat), rfl, ?_⟩
  have h : hull (line .barycenter) [0, 1, 2, 7] = [(-1, 8)] := by decide +kernel
  rw [h]
  intro b hb
  simp only [List.mem_singleton] at hb
  subst hb
  have : (0 : Rat) ≤ i := by positivity
  dsimp only
  linarith

/-- The hypotheses of `barycenter_fails` in a concrete case, four corners of a square. -/
example : refine (plane .barycenter [(0, 0), (4, 0), (0, 4), (4, 4)] false) false 0 0 0 [0, 1, 2, 3] = .leaf ∧ refine (plane .geometric [(0, 0), (4, 0), (0, 4), (4, 4)] false) false 0 0 0 [0, 1, 2, 3] ≠ .leaf := by
  decide +kernel

example : ∀ i ∈ [0, 1, 2, 3], InBox (hull (plane .barycenter [(0, 0), (4, 0), (0, 4), (4, 4)] false) [0, 1, 2, 3]) ((plane .barycenter [(0, 0), (4, 0), (0, 4), (4, 4)] false).coords i) := by
  have h : hull (plane .barycenter [(0, 0), (4, 0), (0, 4), (4, 4)] false) [0, 1, 2, 3] = [(-1, 5), (-1, 5)] := by decide +kernel
  rw [h]
  intro i hi
  simp only [List.mem_cons, List.not_mem_nil, or_false] at hi
  rcases hi with rfl | rfl | rfl | rfl <;> norm_num [InBox, plane]

end PyNucleus.Props.C60
