import Verif.Proof.Stitch

/-!
# C93: subdomains are stitched together to the mesh they came from

`stitchNonoverlappingMeshes`, `stitchOverlappingMeshes`, `stitchSolutions` and `getMappingToGlobalDoFMap` of /repo/fem/PyNucleus_fem/mesh.py.
-/

namespace PyNucleus.Props.C93

open PyNucleus.Stitch PyNucleus.SharedMesh PyNucleus.ExtendOverlap

variable {α : Type}

theorem pairs_nodup (m : Nat → Nat) (n : Nat) : ((List.range n).flatMap fun j => (List.range (m j)).map fun k => (j, k)).Nodup := by
  rw [List.nodup_flatMap]
  refine ⟨fun j _ => List.nodup_range.map fun a b h => (Prod.ext_iff.1 h).2, ?_⟩
  refine List.Pairwise.imp_of_mem (R := fun a b => a ≠ b) ?_ List.nodup_range
  intro a b _ _ hab x h1 h2
  obtain ⟨_, _, rfl⟩ := List.mem_map.1 h1
  obtain ⟨_, _, e⟩ := List.mem_map.1 h2
  exact hab (Prod.ext_iff.1 e).1.symm

theorem stitched_of_inv {meshes : List (SubMesh α)} {keep : Nat → Nat → Bool} {n : Nat} {s : State α} (h : Stitch.Inv meshes keep n s) : Stitched meshes n s := by
  refine ⟨h.nodup, h.mem, h.lookup_len, fun c p hp => ?_, fun j hj k hk => ⟨_, (h.nos j hj k hk).2⟩, h.all.nodup_iff.2 (pairs_nodup _ n)⟩
  have hc : c < s.lookup.length := by
    by_contra hc
    rw [List.getD_eq_default _ _ (by omega)] at hp
    simp at hp
  have hm : p ∈ s.lookup.flatten := List.mem_flatten.2 ⟨_, by rw [List.getD_eq_getElem _ _ hc]; exact List.getElem_mem hc, hp⟩
  obtain ⟨j, hj, hm⟩ := List.mem_flatMap.1 (h.all.mem_iff.1 hm)
  obtain ⟨k, hk, rfl⟩ := List.mem_map.1 hm
  exact ⟨by rw [← h.lookup_len]; exact hc, List.mem_range.1 hj, List.mem_range.1 hk, h.lookup c _ hp⟩

/-- Subdomains that share an interface: every point once; the cells are the cells of the subdomains, one after the other; the lookup is exact. -/
theorem nonoverlapping {dim n : Nat} {meshes : List (SubMesh α)} {interfaces : Nat → Nat → Option Shared} (hg : ∀ i < n, Good (mesh meshes i)) (hI : Interfaces dim meshes n interfaces) :
    let s := stitchFaces dim interfaces meshes n
    Stitched meshes n s ∧ s.cells.map (points s.vertices) = (List.range n).flatMap (fun i => (mesh meshes i).cells.map (points (mesh meshes i).vertices)) ∧
    s.lookup = (List.range n).flatMap fun i => (List.range (mesh meshes i).cells.length).map fun k => [(i, k)] := by
  intro s
  obtain ⟨h1, _, h3⟩ := faces_inv hg hI n le_rfl
  refine ⟨stitched_of_inv h1, ?_, h3⟩
  rw [h1.cells]
  apply List.flatMap_congr
  intro i _
  apply List.ext_getElem?
  intro k
  rw [List.filter_eq_self.2 (by simp), List.getElem?_map, List.getElem?_map]
  by_cases hk : k < (mesh meshes i).cells.length
  · rw [List.getElem?_range hk, List.getElem?_eq_getElem hk]
    simp only [Option.map_some, pts, row, List.getD_eq_getElem _ _ hk]
  · rw [List.getElem?_eq_none (by simpa using hk), List.getElem?_eq_none (by omega)]; rfl

/-- Subdomains that share cells, if a vertex that a subdomain shares with an earlier one is always in a cell that it shares with an earlier one: every point once, every
cell once, the lookup lists exactly the cells with the same points.

Missing: the case in which two subdomains have a vertex but no cell in common, see `overlapping_fails`. -/
theorem overlapping_partial {n : Nat} {meshes : List (SubMesh α)} {overlaps : Nat → Nat → Option (List Nat)} (hg : ∀ i < n, Good (mesh meshes i)) (hO : Overlaps meshes n overlaps)
    (hV : VerticesInOverlaps meshes n overlaps) :
    let s := stitchOverlaps overlaps meshes n
    Stitched meshes n s ∧ (s.cells.map (points s.vertices)).Nodup ∧
    (∀ x, x ∈ s.cells.map (points s.vertices) ↔ ∃ i < n, ∃ k < (mesh meshes i).cells.length, x = pts meshes i k) ∧
    (∀ c < s.cells.length, ∀ i < n, ∀ k < (mesh meshes i).cells.length, (i, k) ∈ s.lookup.getD c [] ↔ points s.vertices (row s.cells c) = pts meshes i k) := by
  intro s
  obtain ⟨h1, _⟩ := overlaps_inv hg hO hV n le_rfl
  have hst := stitched_of_inv h1
  have hkeep : ∀ i < n, ∀ k, (!((shared overlaps i).any fun p => decide (p.1 = k))) = true → ∀ j' < i, ∀ c, overlaps i j' = some c → k ∉ c := by
    intro i hi k hk j' hj' c hc hkc
    obtain ⟨c', h2, he, _⟩ := hO.same i hi j' hj' c hc
    have hl : c.length = c'.length := by simpa using congrArg List.length he
    have : k ∈ (c.zip c').map Prod.fst := by rw [zip_fst hl]; exact hkc
    obtain ⟨q, hq, e⟩ := List.mem_map.1 this
    have : ((shared overlaps i).any fun p => decide (p.1 = k)) = true := by
      rw [List.any_eq_true]
      refine ⟨(q.1, j', q.2), List.mem_flatMap.2 ⟨j', List.mem_range.2 hj', ?_⟩, by simpa using e⟩
      rw [hc, h2]
      exact List.mem_map.2 ⟨q, hq, rfl⟩
    rw [this] at hk
    simp at hk
  have hnd : (s.cells.map (points s.vertices)).Nodup := by
    rw [h1.cells, List.nodup_flatMap]
    refine ⟨fun i hi => ?_, ?_⟩
    · refine List.Nodup.map_on ?_ (List.nodup_range.filter _)
      intro k hk k' hk' e
      exact hO.distinct i (List.mem_range.1 hi) k (List.mem_range.1 (List.mem_filter.1 hk).1) k' (List.mem_range.1 (List.mem_filter.1 hk').1) e
    · refine List.Pairwise.imp_of_mem (R := fun a b => a < b) ?_ List.pairwise_lt_range
      intro j i hj hi hji x hx hx'
      obtain ⟨k', hk', e'⟩ := List.mem_map.1 hx
      obtain ⟨k, hk, e⟩ := List.mem_map.1 hx'
      obtain ⟨j', hj', c, hc, hkc⟩ := hO.complete i (List.mem_range.1 hi) j hji k (List.mem_range.1 (List.mem_filter.1 hk).1) k' (List.mem_range.1 (List.mem_filter.1 hk').1) (e.trans e'.symm)
      exact hkeep i (List.mem_range.1 hi) k (List.mem_filter.1 hk).2 j' hj' c hc hkc
  have hrow : ∀ c < s.cells.length, (s.cells.map (points s.vertices))[c]? = some (points s.vertices (row s.cells c)) := fun c hc => by
    rw [List.getElem?_map, List.getElem?_eq_getElem hc, Option.map_some]
    unfold row
    rw [List.getD_eq_getElem _ _ hc]
  refine ⟨hst, hnd, fun x => ?_, fun c hc i hi k hk => ⟨fun h => (hst.sound c _ h).2.2.2, fun h => ?_⟩⟩
  · constructor
    · intro hx
      rw [h1.cells] at hx
      obtain ⟨i, hi, hx⟩ := List.mem_flatMap.1 hx
      obtain ⟨k, hk, rfl⟩ := List.mem_map.1 hx
      exact ⟨i, List.mem_range.1 hi, k, List.mem_range.1 (List.mem_filter.1 hk).1, rfl⟩
    · rintro ⟨i, hi, k, hk, rfl⟩
      obtain ⟨c, hc⟩ := hst.all i hi k hk
      obtain ⟨hcl, _, _, e⟩ := hst.sound c _ hc
      exact List.mem_of_getElem? (by rw [hrow c hcl, e])
  · obtain ⟨c', hc'⟩ := hst.all i hi k hk
    obtain ⟨hcl, _, _, e⟩ := hst.sound c' _ hc'
    have : c = c' := by
      refine (List.getElem?_inj (by simpa using hc) hnd).1 ?_
      rw [hrow c hc, hrow c' hcl, h, e]
    rw [this]; exact hc'

/-- The interval with points 0, …, 6 and the subdomains {0,…,3}, {3,…,6}, {1,…,5}: three thirds with one layer of overlap, the middle one last. -/
def thirds : List (SubMesh Nat) :=
  [⟨[0, 1, 2, 3], [[0, 1], [1, 2], [2, 3]], [], [], []⟩, ⟨[3, 4, 5, 6], [[0, 1], [1, 2], [2, 3]], [], [], []⟩, ⟨[1, 2, 3, 4, 5], [[0, 1], [1, 2], [2, 3], [3, 4]], [], [], []⟩]

def thirdsOverlaps : Nat → Nat → Option (List Nat)
  | 0, 2 => some [1, 2]
  | 1, 2 => some [0, 1]
  | 2, 0 => some [0, 1]
  | 2, 1 => some [2, 3]
  | _, _ => none

theorem from_getD {i k : Nat} {ov : Nat → Nat → Option (List Nat)} (h : ((List.range i).any fun j' => ((ov i j').getD []).contains k) = true) : ∃ j' < i, ∃ c ∈ ov i j', k ∈ c := by
  obtain ⟨j', hj, h⟩ := List.any_eq_true.1 h
  rw [List.contains_iff_mem] at h
  rcases e : ov i j' with _ | c
  · rw [e] at h; cases h
  · rw [e] at h; exact ⟨j', List.mem_range.1 hj, c, e, h⟩

theorem thirds_overlaps : Overlaps thirds 3 thirdsOverlaps := by
  have key2 : ∀ i < 3, ∀ j < i, ∀ k < (mesh thirds i).cells.length, ∀ k' < (mesh thirds j).cells.length, pts thirds i k = pts thirds j k' → ((List.range i).any fun j' => ((thirdsOverlaps i j').getD []).contains k) = true := by
    set_option synthInstance.maxSize 2000 in set_option synthInstance.maxHeartbeats 400000 in decide +kernel
  refine ⟨?_, fun i hi j hj k hk k' hk' e => from_getD (key2 i hi j hj k hk k' hk' e), by decide +kernel⟩
  have key : ∀ i < 3, ∀ j < i, ∀ c ∈ thirdsOverlaps i j, ∃ c' ∈ thirdsOverlaps j i, c.map (pts thirds i) = c'.map (pts thirds j) ∧
      (∀ k ∈ c, k < (mesh thirds i).cells.length) ∧ ∀ k ∈ c', k < (mesh thirds j).cells.length := by decide +kernel
  exact key

/-- Point 3 is a vertex of the first two subdomains, which have no cell in common: it becomes two vertices, and the stitched mesh is cut there. -/
theorem overlapping_fails : ∃ (meshes : List (SubMesh Nat)) (overlaps : Nat → Nat → Option (List Nat)), (∀ i < 3, Good (mesh meshes i)) ∧ Overlaps meshes 3 overlaps ∧
    (stitchOverlaps overlaps meshes 3).vertices = [0, 1, 2, 3, 3, 4, 5, 6] ∧ (stitchOverlaps overlaps meshes 3).cells = [[0, 1], [1, 2], [2, 3], [4, 5], [5, 6], [6, 7]] := by
  refine ⟨thirds, thirdsOverlaps, fun i hi => ?_, thirds_overlaps, by decide +kernel, by decide +kernel⟩
  have h : i = 0 ∨ i = 1 ∨ i = 2 := by omega
  rcases h with rfl | rfl | rfl <;> exact ⟨by decide, by decide, by decide, by decide, by decide⟩

/-! ### Boundary -/

theorem max_iff {κ P : Type} {kk : Keys α κ P} {G : List α} {d : List (κ × List Int)} {T : P → List Int} (h : DInv kk G d T) (x : P) (τ : Int) :
    (∃ k, (k, τ) ∈ maxTags d ∧ kk.pos G k = x) ↔ IsGreatest {σ | σ ∈ T x} τ := by
  constructor
  · rintro ⟨k, hk, hx⟩
    obtain ⟨p, hp, e⟩ := List.mem_map.1 hk
    obtain ⟨_, b, c⟩ := h.val p hp
    have e1 : p.1 = k := congrArg Prod.fst e
    have e2 : largest p.2 = τ := congrArg Prod.snd e
    rw [← e2, ← hx, ← e1, ← b]
    exact largest_spec c
  · intro hg
    obtain ⟨p, hp, e⟩ := h.cover x (List.ne_nil_of_mem hg.1)
    obtain ⟨_, b, c⟩ := h.val p hp
    refine ⟨p.1, List.mem_map.2 ⟨p, hp, ?_⟩, e⟩
    rw [e] at b
    rw [b] at c ⊢
    rw [(largest_spec c).unique hg]

theorem unique_iff {κ P : Type} {kk : Keys α κ P} {G : List α} {d : List (κ × List Int)} {T : P → List Int} (h : DInv kk G d T) :
    ((uniqueTags d).isSome ↔ ∀ x, ∀ σ ∈ T x, ∀ σ' ∈ T x, σ = σ') ∧ ∀ R, uniqueTags d = some R → (R.map Prod.fst).Nodup ∧ ∀ x τ, (∃ k, (k, τ) ∈ R ∧ kk.pos G k = x) ↔ τ ∈ T x := by
  have hone : ∀ l : List Int, l ≠ [] → (l.dedup.length = 1 ↔ ∀ σ ∈ l, ∀ σ' ∈ l, σ = σ') := by
    intro l hl
    constructor
    · intro h1
      obtain ⟨a, ha⟩ := List.length_eq_one_iff.1 h1
      intro σ hσ σ' hσ'
      rw [← List.mem_dedup, ha, List.mem_singleton] at hσ hσ'
      rw [hσ, hσ']
    · intro h1
      obtain ⟨a, l', rfl⟩ := List.exists_cons_of_ne_nil hl
      have : (a :: l').dedup = [a] := by
        apply List.Perm.eq_singleton
        rw [List.perm_ext_iff_of_nodup (List.nodup_dedup _) (by simp)]
        intro b
        rw [List.mem_dedup, List.mem_singleton]
        exact ⟨fun hb => h1 b hb a List.mem_cons_self, fun hb => hb ▸ List.mem_cons_self⟩
      rw [this]; rfl
  have hall : (d.all fun p => decide ((p.2.dedup).length = 1)) = true ↔ ∀ x, ∀ σ ∈ T x, ∀ σ' ∈ T x, σ = σ' := by
    rw [List.all_eq_true]
    constructor
    · intro ha x σ hσ σ' hσ'
      obtain ⟨p, hp, e⟩ := h.cover x (List.ne_nil_of_mem hσ)
      obtain ⟨_, b, c⟩ := h.val p hp
      rw [e] at b
      rw [← b] at hσ hσ'
      exact (hone p.2 c).1 (by simpa using ha p hp) σ hσ σ' hσ'
    · intro ha p hp
      obtain ⟨_, b, c⟩ := h.val p hp
      simp only [decide_eq_true_eq]
      rw [hone p.2 c, b]
      exact ha _
  unfold uniqueTags
  by_cases hd : (d.all fun p => decide ((p.2.dedup).length = 1)) = true
  · rw [if_pos hd]
    refine ⟨⟨fun _ => hall.1 hd, fun _ => rfl⟩, fun R hR => ?_⟩
    rw [Option.some.injEq] at hR
    subst hR
    refine ⟨by rw [List.map_map]; exact h.nodup, fun x τ => ?_⟩
    constructor
    · rintro ⟨k, hk, rfl⟩
      obtain ⟨p, hp, e⟩ := List.mem_map.1 hk
      obtain ⟨_, b, c⟩ := h.val p hp
      have e1 : p.1 = k := congrArg Prod.fst e
      have e2 : p.2.headD 0 = τ := congrArg Prod.snd e
      rw [← e1, ← b, ← e2]
      cases hl : p.2 with
      | nil => exact absurd hl c
      | cons a l => simp
    · intro hτ
      obtain ⟨p, hp, e⟩ := h.cover x (List.ne_nil_of_mem hτ)
      obtain ⟨_, b, c⟩ := h.val p hp
      refine ⟨p.1, List.mem_map.2 ⟨p, hp, Prod.ext rfl ?_⟩, e⟩
      rw [e] at b
      refine hall.1 hd x _ ?_ τ hτ
      rw [← b]
      cases hl : p.2 with
      | nil => exact absurd hl c
      | cons a l => simp
  · rw [if_neg hd]
    exact ⟨⟨fun h => by simp at h, fun h => absurd (hall.2 h) hd⟩, fun R h => by simp at h⟩

/-- Greatest of the tags that the subdomains give to a point. -/
def VertexTag (meshes : List (SubMesh α)) (n : Nat) (x : α) (τ : Int) : Prop :=
  IsGreatest {σ | ∃ i < n, ∃ b ∈ (mesh meshes i).bverts, (mesh meshes i).vertices[b.1]? = some x ∧ b.2 = σ} τ

/-- Tags that the subdomains give to an edge, read in one direction. -/
def edgeTags (meshes : List (SubMesh α)) (n : Nat) (x y : α) : Set Int :=
  {σ | ∃ i < n, ∃ b ∈ (mesh meshes i).bedges, (mesh meshes i).vertices[b.1.1]? = some x ∧ (mesh meshes i).vertices[b.1.2]? = some y ∧ b.2 = σ}

def faceTags (meshes : List (SubMesh α)) (n : Nat) (x y z : α) : Set Int :=
  {σ | ∃ i < n, ∃ b ∈ (mesh meshes i).bfaces, (mesh meshes i).vertices[b.1.1]? = some x ∧ (mesh meshes i).vertices[b.1.2.1]? = some y ∧ (mesh meshes i).vertices[b.1.2.2]? = some z ∧ b.2 = σ}

theorem vertex_tags_of {meshes : List (SubMesh α)} {n : Nat} {s : State α} (h : BInv meshes n s) :
    ((maxTags s.bverts).map Prod.fst).Nodup ∧ ∀ x τ, (∃ g, (g, τ) ∈ maxTags s.bverts ∧ s.vertices[g]? = some x) ↔ VertexTag meshes n x τ := by
  refine ⟨by unfold maxTags; rw [List.map_map]; exact h.v.nodup, fun x τ => ?_⟩
  refine (max_iff h.v (some x) τ).trans ?_
  unfold VertexTag
  have : {σ | σ ∈ (List.range n).flatMap fun j => tagsAt (mesh meshes j).bverts ((vertexKeys α).pos (mesh meshes j).vertices) (some x)} =
      {σ | ∃ i < n, ∃ b ∈ (mesh meshes i).bverts, (mesh meshes i).vertices[b.1]? = some x ∧ b.2 = σ} := by
    ext σ
    simp only [Set.mem_setOf_eq, List.mem_flatMap, List.mem_range, mem_tagsAt, vertexKeys]
  rw [this]

theorem edge_mem {meshes : List (SubMesh α)} {n : Nat} (x y : α) (σ : Int) :
    σ ∈ ((List.range n).flatMap fun j => tagsAt (mesh meshes j).bedges ((edgeKeys α).pos (mesh meshes j).vertices) (some x, some y)) ↔ σ ∈ edgeTags meshes n x y := by
  simp only [edgeTags, Set.mem_setOf_eq, List.mem_flatMap, List.mem_range, mem_tagsAt, edgeKeys, Prod.mk.injEq, and_assoc]

theorem face_mem {meshes : List (SubMesh α)} {n : Nat} (x y z : α) (σ : Int) :
    σ ∈ ((List.range n).flatMap fun j => tagsAt (mesh meshes j).bfaces ((faceKeys α).pos (mesh meshes j).vertices) (some x, some y, some z)) ↔ σ ∈ faceTags meshes n x y z := by
  simp only [faceTags, Set.mem_setOf_eq, List.mem_flatMap, List.mem_range, mem_tagsAt, faceKeys, Prod.mk.injEq, and_assoc]

/-- The boundary vertices of the stitched mesh are those of the subdomains, each once, with the greatest of their tags: a vertex on the physical boundary (tag 0 or more)
stays one although some subdomain may call it interior (negative tag). -/
theorem boundary_vertices {dim n : Nat} {meshes : List (SubMesh α)} (hg : ∀ i < n, Good (mesh meshes i)) :
    (∀ {interfaces : Nat → Nat → Option Shared}, Interfaces dim meshes n interfaces → let s := stitchFaces dim interfaces meshes n
      ((maxTags s.bverts).map Prod.fst).Nodup ∧ ∀ x τ, (∃ g, (g, τ) ∈ maxTags s.bverts ∧ s.vertices[g]? = some x) ↔ VertexTag meshes n x τ) ∧
    (∀ {overlaps : Nat → Nat → Option (List Nat)}, Overlaps meshes n overlaps → VerticesInOverlaps meshes n overlaps → let s := stitchOverlaps overlaps meshes n
      ((maxTags s.bverts).map Prod.fst).Nodup ∧ ∀ x τ, (∃ g, (g, τ) ∈ maxTags s.bverts ∧ s.vertices[g]? = some x) ↔ VertexTag meshes n x τ) :=
  ⟨fun hI => vertex_tags_of (faces_inv hg hI n le_rfl).2.1, fun hO hV => vertex_tags_of (overlaps_inv hg hO hV n le_rfl).2⟩

/-- Boundary edges of overlapping subdomains: each direction of an edge once, with the greatest tag. -/
theorem boundary_edges_overlapping {n : Nat} {meshes : List (SubMesh α)} {overlaps : Nat → Nat → Option (List Nat)} (hg : ∀ i < n, Good (mesh meshes i)) (hO : Overlaps meshes n overlaps)
    (hV : VerticesInOverlaps meshes n overlaps) : let s := stitchOverlaps overlaps meshes n
    ((maxTags s.bedges).map Prod.fst).Nodup ∧
    ∀ x y τ, (∃ e, (e, τ) ∈ maxTags s.bedges ∧ s.vertices[e.1]? = some x ∧ s.vertices[e.2]? = some y) ↔ IsGreatest (edgeTags meshes n x y) τ := by
  intro s
  have h := (overlaps_inv hg hO hV n le_rfl).2
  refine ⟨by unfold maxTags; rw [List.map_map]; exact h.e.nodup, fun x y τ => ?_⟩
  have := max_iff h.e (some x, some y) τ
  simp only [edge_mem, Set.setOf_mem_eq] at this
  rw [← this]
  simp only [edgeKeys, Prod.mk.injEq]
  rfl

/-- Boundary edges and faces of subdomains with interfaces: the assertions hold exactly if the subdomains agree about the tags, and then the arrays list each direction
once with its tag. -/
theorem boundary_edges_faces {dim n : Nat} {meshes : List (SubMesh α)} {interfaces : Nat → Nat → Option Shared} (hg : ∀ i < n, Good (mesh meshes i)) (hI : Interfaces dim meshes n interfaces) :
    let s := stitchFaces dim interfaces meshes n
    ((uniqueTags s.bedges).isSome ↔ ∀ x y, (edgeTags meshes n x y).Subsingleton) ∧ ((uniqueTags s.bfaces).isSome ↔ ∀ x y z, (faceTags meshes n x y z).Subsingleton) ∧
    (∀ R, uniqueTags s.bedges = some R → (R.map Prod.fst).Nodup ∧ ∀ x y τ, (∃ e, (e, τ) ∈ R ∧ s.vertices[e.1]? = some x ∧ s.vertices[e.2]? = some y) ↔ τ ∈ edgeTags meshes n x y) ∧
    (∀ R, uniqueTags s.bfaces = some R → (R.map Prod.fst).Nodup ∧ ∀ x y z τ, (∃ f, (f, τ) ∈ R ∧ s.vertices[f.1]? = some x ∧ s.vertices[f.2.1]? = some y ∧ s.vertices[f.2.2]? = some z) ↔
      τ ∈ faceTags meshes n x y z) := by
  intro s
  obtain ⟨_, h, _⟩ := faces_inv hg hI n le_rfl
  have he := unique_iff h.e
  have hf := unique_iff h.f
  have vlt : ∀ i < n, ∀ v < (mesh meshes i).vertices.length, ∃ x, (mesh meshes i).vertices[v]? = some x := fun i _ v hv => ⟨_, List.getElem?_eq_getElem hv⟩
  refine ⟨he.1.trans ⟨fun H x y σ h1 σ' h2 => H (some x, some y) σ ((edge_mem x y σ).2 h1) σ' ((edge_mem x y σ').2 h2), fun H x σ h1 σ' h2 => ?_⟩,
    hf.1.trans ⟨fun H x y z σ h1 σ' h2 => H (some x, some y, some z) σ ((face_mem x y z σ).2 h1) σ' ((face_mem x y z σ').2 h2), fun H x σ h1 σ' h2 => ?_⟩, fun R hR => ?_, fun R hR => ?_⟩
  · obtain ⟨j, hj, hm⟩ := List.mem_flatMap.1 h1
    obtain ⟨b, hb, e, _⟩ := (mem_tagsAt _ _ _ _).1 hm
    rw [List.mem_range] at hj
    obtain ⟨x1, e1⟩ := vlt j hj _ ((hg j hj).bedges b hb).1
    obtain ⟨x2, e2⟩ := vlt j hj _ ((hg j hj).bedges b hb).2
    have : x = (some x1, some x2) := e.symm.trans (Prod.ext e1 e2)
    subst this
    exact H x1 x2 ((edge_mem x1 x2 σ).1 h1) ((edge_mem x1 x2 σ').1 h2)
  · obtain ⟨j, hj, hm⟩ := List.mem_flatMap.1 h1
    obtain ⟨b, hb, e, _⟩ := (mem_tagsAt _ _ _ _).1 hm
    rw [List.mem_range] at hj
    obtain ⟨x1, e1⟩ := vlt j hj _ ((hg j hj).bfaces b hb).1
    obtain ⟨x2, e2⟩ := vlt j hj _ ((hg j hj).bfaces b hb).2.1
    obtain ⟨x3, e3⟩ := vlt j hj _ ((hg j hj).bfaces b hb).2.2
    have : x = (some x1, some x2, some x3) := e.symm.trans (Prod.ext e1 (Prod.ext e2 e3))
    subst this
    exact H x1 x2 x3 ((face_mem x1 x2 x3 σ).1 h1) ((face_mem x1 x2 x3 σ').1 h2)
  · obtain ⟨r1, r2⟩ := he.2 R hR
    refine ⟨r1, fun x y τ => ?_⟩
    rw [← edge_mem, ← r2 (some x, some y) τ]
    simp only [edgeKeys, Prod.mk.injEq]
    rfl
  · obtain ⟨r1, r2⟩ := hf.2 R hR
    refine ⟨r1, fun x y z τ => ?_⟩
    rw [← face_mem, ← r2 (some x, some y, some z) τ]
    simp only [faceKeys, Prod.mk.injEq]
    rfl

/-- The same edge in both directions is listed twice: two triangles of the unit square, the diagonal is a boundary edge (with an interior tag) of both, and each triangle
gives it in its own direction. -/
def halves : List (SubMesh Nat) :=
  [⟨[0, 1, 2], [[0, 1, 2]], [(0, 0), (1, 0), (2, 0)], [((0, 1), 0), ((1, 2), 0), ((2, 0), -1)], []⟩,
   ⟨[0, 2, 3], [[0, 1, 2]], [(0, 0), (1, 0), (2, 0)], [((0, 1), -1), ((1, 2), 0), ((2, 0), 0)], []⟩]

def halvesInterfaces : Nat → Nat → Option Shared
  | 0, 1 => some ⟨[], [(0, 2, 0)], [], []⟩
  | 1, 0 => some ⟨[], [(0, 0, 1)], [], []⟩
  | _, _ => none

theorem halves_good : ∀ i < 2, Good (mesh halves i) := fun i hi => by
  have h : i = 0 ∨ i = 1 := by omega
  rcases h with rfl | rfl <;> exact ⟨by decide, by decide, by decide, by decide, by decide⟩

theorem halves_interfaces : Interfaces 2 halves 2 halvesInterfaces := by
  have key : ∀ i < 2, ∀ j < i, ∀ v < (mesh halves i).vertices.length, ∀ x ∈ (mesh halves i).vertices[v]?, x ∈ (mesh halves j).vertices →
      ∃ j' < i, ∃ S ∈ halvesInterfaces i j', v ∈ interfaceVertices 2 (mesh halves i).cells S := by
    intro i hi j hj
    have h : i = 1 ∧ j = 0 := by omega
    obtain ⟨rfl, rfl⟩ := h
    intro v hv x hx hm
    refine ⟨0, by omega, _, rfl, ?_⟩
    revert v x
    set_option synthInstance.maxSize 2000 in set_option synthInstance.maxHeartbeats 400000 in decide +kernel
  refine ⟨fun i hi j hj S hS => ?_, fun i hi j hj v x hv hx => key i hi j hj v (List.getElem?_eq_some_iff.1 hv).1 x hv hx⟩
  have h : i = 1 ∧ j = 0 := by omega
  obtain ⟨rfl, rfl⟩ := h
  have e : S = ⟨[], [(0, 0, 1)], [], []⟩ := (Option.some.inj hS).symm
  subst e
  exact ⟨⟨[], [(0, 2, 0)], [], []⟩, rfl, ⟨by decide, by decide, by decide⟩, ⟨by decide, by decide, by decide⟩, by decide +kernel⟩

theorem edge_twice_fails : ∃ (meshes : List (SubMesh Nat)) (interfaces : Nat → Nat → Option Shared), (∀ i < 2, Good (mesh meshes i)) ∧ Interfaces 2 meshes 2 interfaces ∧
    (uniqueTags (stitchFaces 2 interfaces meshes 2).bedges).map (fun R => R.map Prod.fst) = some [(0, 1), (1, 2), (2, 0), (0, 2), (2, 3), (3, 0)] ∧
    (stitchFaces 2 interfaces meshes 2).cells = [[0, 1, 2], [0, 2, 3]] :=
  ⟨halves, halvesInterfaces, halves_good, halves_interfaces, by decide +kernel, by decide +kernel⟩

/-! ### Solutions -/

theorem row_lt {n : Nat} {meshes : List (SubMesh α)} {s : State α} (hg : ∀ i < n, Good (mesh meshes i)) (hs : Stitched meshes n s) {c : Nat} {p : Nat × Nat} (hp : p ∈ s.lookup.getD c [])
    {k : Nat} (hk : k < (row (mesh meshes p.1).cells p.2).length) :
    ∃ x, (mesh meshes p.1).vertices[at' (row (mesh meshes p.1).cells p.2) k]? = some x ∧ s.vertices[at' (row s.cells c) k]? = some x ∧ at' (row s.cells c) k < s.vertices.length := by
  obtain ⟨_, h1, _, h3⟩ := hs.sound c p hp
  have hv : at' (row (mesh meshes p.1).cells p.2) k < (mesh meshes p.1).vertices.length := by
    unfold at'
    rw [List.getD_eq_getElem _ _ hk]
    exact (hg p.1 h1).row p.2 _ (List.getElem_mem hk)
  have h := at_points h3 hk
  rw [List.getElem?_eq_getElem hv] at h
  exact ⟨_, List.getElem?_eq_getElem hv, h, (List.getElem?_eq_some_iff.1 h).1⟩

theorem row_length {n dpe : Nat} {meshes : List (SubMesh α)} (hlen : ∀ i < n, ∀ c ∈ (mesh meshes i).cells, c.length = dpe) {i k : Nat} (hi : i < n) (hk : k < (mesh meshes i).cells.length) :
    (row (mesh meshes i).cells k).length = dpe := by
  unfold row
  rw [List.getD_eq_getElem _ _ hk]
  exact hlen i hi _ (List.getElem_mem hk)

/-- Every vertex of a cell of a subdomain is met by the loops. -/
theorem met {n dpe : Nat} {meshes : List (SubMesh α)} {s : State α} (hs : Stitched meshes n s) (hlen : ∀ i < n, ∀ c ∈ (mesh meshes i).cells, c.length = dpe)
    {i v : Nat} (hi : i < n) {cell : List Nat} (hc : cell ∈ (mesh meshes i).cells) (hv : v ∈ cell) :
    ∃ c < s.cells.length, ∃ k < dpe, ∃ l, (i, l) ∈ s.lookup.getD c [] ∧ at' (row (mesh meshes i).cells l) k = v := by
  obtain ⟨l, hl⟩ := List.getElem?_of_mem hc
  obtain ⟨k, hk⟩ := List.getElem?_of_mem hv
  obtain ⟨hll, el⟩ := List.getElem?_eq_some_iff.1 hl
  obtain ⟨hkk, ek⟩ := List.getElem?_eq_some_iff.1 hk
  obtain ⟨c, hc'⟩ := hs.all i hi l hll
  refine ⟨c, (hs.sound c _ hc').1, k, by rw [← hlen i hi cell hc]; exact hkk, l, hc', ?_⟩
  unfold at' row
  rw [List.getD_eq_getElem _ _ hll, el, List.getD_eq_getElem _ _ hkk, ek]

/-- Nodal values of a function on the subdomains become its nodal values on the stitched mesh (elements with one dof per vertex; `gd`, `ld i` are the dofs of vertices,
negative on the boundary); dofs that no subdomain has stay uninitialised. -/
theorem solution {K : Type} [Zero K] {n dpe : Nat} {meshes : List (SubMesh α)} {s : State α} (hg : ∀ i < n, Good (mesh meshes i)) (hs : Stitched meshes n s)
    (hlen : ∀ i < n, ∀ c ∈ (mesh meshes i).cells, c.length = dpe) {gd : Nat → Int} (hinj : ∀ a < s.vertices.length, ∀ b < s.vertices.length, 0 ≤ gd a → gd a = gd b → a = b)
    {ld : Nat → Nat → Int} (f : α → K) (sol : Nat → List K) (hsol : ∀ i < n, ∀ (v : Nat) (x : α), (mesh meshes i).vertices[v]? = some x → 0 ≤ ld i v → (sol i).getD (ld i v).toNat 0 = f x)
    (u : List K) {g : Nat} {x : α} (hx : s.vertices[g]? = some x) (h0 : 0 ≤ gd g) (hu : (gd g).toNat < u.length) :
    let r := stitchSolutions s.cells.length dpe (fun c k => gd (at' (row s.cells c) k)) s.lookup (fun i l k => ld i (at' (row (mesh meshes i).cells l) k)) sol u
    ((∃ i < n, ∃ cell ∈ (mesh meshes i).cells, ∃ v ∈ cell, (mesh meshes i).vertices[v]? = some x ∧ 0 ≤ ld i v) → r.getD (gd g).toNat 0 = f x) ∧
    ((¬∃ i < n, ∃ cell ∈ (mesh meshes i).cells, ∃ v ∈ cell, (mesh meshes i).vertices[v]? = some x ∧ 0 ≤ ld i v) → r.getD (gd g).toNat 0 = u.getD (gd g).toNat 0) := by
  intro r
  let W : List (Nat × K) := (List.range s.cells.length).flatMap fun c => (List.range dpe).flatMap fun k => if 0 ≤ gd (at' (row s.cells c) k) then
    (s.lookup.getD c []).flatMap fun p => if 0 ≤ ld p.1 (at' (row (mesh meshes p.1).cells p.2) k) then
      [((gd (at' (row s.cells c) k)).toNat, (sol p.1).getD (ld p.1 (at' (row (mesh meshes p.1).cells p.2) k)).toNat 0)] else [] else []
  have hr : r = W.foldl (fun x w => x.set w.1 w.2) u := by
    show stitchSolutions _ _ _ _ _ _ _ = _
    unfold stitchSolutions
    rw [List.foldl_flatMap]
    congr 1
    funext y c
    rw [List.foldl_flatMap]
    congr 1
    funext y k
    split
    · rw [List.foldl_flatMap]
      congr 1
      funext y p
      split <;> rfl
    · rfl
  have hW : ∀ w, w ∈ W ↔ ∃ c < s.cells.length, ∃ k < dpe, 0 ≤ gd (at' (row s.cells c) k) ∧ ∃ p ∈ s.lookup.getD c [], 0 ≤ ld p.1 (at' (row (mesh meshes p.1).cells p.2) k) ∧
      w = ((gd (at' (row s.cells c) k)).toNat, (sol p.1).getD (ld p.1 (at' (row (mesh meshes p.1).cells p.2) k)).toNat 0) := by
    intro w
    simp only [W, List.mem_flatMap, List.mem_range]
    constructor
    · rintro ⟨c, hc, k, hk, hw⟩
      split at hw
      · rename_i h
        obtain ⟨p, hp, hw⟩ := List.mem_flatMap.1 hw
        split at hw
        · rename_i h'
          exact ⟨c, hc, k, hk, h, p, hp, h', List.mem_singleton.1 hw⟩
        · simp at hw
      · simp at hw
    · rintro ⟨c, hc, k, hk, h, p, hp, h', hw⟩
      refine ⟨c, hc, k, hk, ?_⟩
      rw [if_pos h]
      refine List.mem_flatMap.2 ⟨p, hp, ?_⟩
      rw [if_pos h', List.mem_singleton]
      exact hw
  have hat : ∀ c k, ∀ p ∈ s.lookup.getD c [], k < dpe → 0 ≤ gd (at' (row s.cells c) k) → (gd (at' (row s.cells c) k)).toNat = (gd g).toNat →
      (mesh meshes p.1).vertices[at' (row (mesh meshes p.1).cells p.2) k]? = some x := by
    intro c k p hp hk h e
    obtain ⟨_, h1, h2, _⟩ := hs.sound c p hp
    obtain ⟨y, hy1, hy2, hlt⟩ := row_lt hg hs hp (k := k) (by rw [row_length hlen h1 h2]; exact hk)
    have hgg := hinj _ hlt g (List.getElem?_eq_some_iff.1 hx).1 h (by omega)
    rw [hgg, hx] at hy2
    rw [hy1, hy2]
  obtain ⟨_, w1, w2⟩ := writes W u (gd g).toNat (f x) hu fun w hw e => by
    obtain ⟨c, hc, k, hk, h, p, hp, h', rfl⟩ := (hW w).1 hw
    exact hsol p.1 (hs.sound c p hp).2.1 _ x (hat c k p hp hk h e) h'
  rw [hr]
  constructor
  · rintro ⟨i, hi, cell, hcell, v, hv, hvx, h'⟩
    apply w1
    obtain ⟨c, hc, k, hk, l, hl, e⟩ := met hs hlen hi hcell hv
    obtain ⟨_, h1, h2, _⟩ := hs.sound c _ hl
    obtain ⟨y, hy1, hy2, hlt⟩ := row_lt hg hs hl (k := k) (by rw [row_length hlen h1 h2]; exact hk)
    dsimp only at hy1
    rw [e, hvx] at hy1
    have hgg : at' (row s.cells c) k = g := idx_inj hs.nodup hlt (List.getElem?_eq_some_iff.1 hx).1 (by rw [hy2, hx, hy1])
    refine List.mem_map.2 ⟨_, (hW _).2 ⟨c, hc, k, hk, by rw [hgg]; exact h0, (i, l), hl, by dsimp only; rw [e]; exact h', rfl⟩, ?_⟩
    dsimp only
    rw [hgg]
  · intro hno
    apply w2
    intro hm
    obtain ⟨w, hw, e⟩ := List.mem_map.1 hm
    obtain ⟨c, hc, k, hk, h, p, hp, h', rfl⟩ := (hW w).1 hw
    obtain ⟨_, h1, h2, _⟩ := hs.sound c p hp
    refine hno ⟨p.1, h1, row (mesh meshes p.1).cells p.2, ?_, _, ?_, hat c k p hp hk h e, h'⟩
    · unfold row; rw [List.getD_eq_getElem _ _ h2]; exact List.getElem_mem h2
    · have hkk : k < (row (mesh meshes p.1).cells p.2).length := by rw [row_length hlen h1 h2]; exact hk
      show (row (mesh meshes p.1).cells p.2).getD k 0 ∈ _
      rw [List.getD_eq_getElem _ _ hkk]; exact List.getElem_mem hkk

/-- The mapping of a subdomain sends the dof of a vertex to the global dof of the same point. -/
theorem mapping {n dpe : Nat} {meshes : List (SubMesh α)} {s : State α} (hg : ∀ i < n, Good (mesh meshes i)) (hs : Stitched meshes n s)
    (hlen : ∀ i < n, ∀ c ∈ (mesh meshes i).cells, c.length = dpe) {gd : Nat → Int} {ld : Nat → Nat → Int}
    (hinj : ∀ i < n, ∀ a < (mesh meshes i).vertices.length, ∀ b < (mesh meshes i).vertices.length, 0 ≤ ld i a → ld i a = ld i b → a = b) (u : Nat → List Nat)
    {i : Nat} (hi : i < n) {cell : List Nat} (hc : cell ∈ (mesh meshes i).cells) {v g : Nat} (hv : v ∈ cell) {x : α} (hvx : (mesh meshes i).vertices[v]? = some x) (hgx : s.vertices[g]? = some x)
    (h0 : 0 ≤ ld i v) (h0' : 0 ≤ gd g) (hu : (ld i v).toNat < (u i).length) :
    (mappings s.cells.length dpe (fun c k => gd (at' (row s.cells c) k)) s.lookup (fun i l k => ld i (at' (row (mesh meshes i).cells l) k)) u i).getD (ld i v).toNat 0 = (gd g).toNat := by
  let W : List (Nat × Nat × Nat) := (List.range s.cells.length).flatMap fun c => (List.range dpe).flatMap fun k => if 0 ≤ gd (at' (row s.cells c) k) then
    (s.lookup.getD c []).flatMap fun p => if 0 ≤ ld p.1 (at' (row (mesh meshes p.1).cells p.2) k) then
      [(p.1, (ld p.1 (at' (row (mesh meshes p.1).cells p.2) k)).toNat, (gd (at' (row s.cells c) k)).toNat)] else [] else []
  have hr : mappings s.cells.length dpe (fun c k => gd (at' (row s.cells c) k)) s.lookup (fun i l k => ld i (at' (row (mesh meshes i).cells l) k)) u =
      W.foldl (fun m w => Function.update m w.1 ((m w.1).set w.2.1 w.2.2)) u := by
    unfold mappings
    rw [List.foldl_flatMap]
    congr 1
    funext y c
    rw [List.foldl_flatMap]
    congr 1
    funext y k
    split
    · rw [List.foldl_flatMap]
      congr 1
      funext y p
      split <;> rfl
    · rfl
  have hW : ∀ w, w ∈ W ↔ ∃ c < s.cells.length, ∃ k < dpe, 0 ≤ gd (at' (row s.cells c) k) ∧ ∃ p ∈ s.lookup.getD c [], 0 ≤ ld p.1 (at' (row (mesh meshes p.1).cells p.2) k) ∧
      w = (p.1, (ld p.1 (at' (row (mesh meshes p.1).cells p.2) k)).toNat, (gd (at' (row s.cells c) k)).toNat) := by
    intro w
    simp only [W, List.mem_flatMap, List.mem_range]
    constructor
    · rintro ⟨c, hc, k, hk, hw⟩
      split at hw
      · rename_i h
        obtain ⟨p, hp, hw⟩ := List.mem_flatMap.1 hw
        split at hw
        · rename_i h'
          exact ⟨c, hc, k, hk, h, p, hp, h', List.mem_singleton.1 hw⟩
        · simp at hw
      · simp at hw
    · rintro ⟨c, hc, k, hk, h, p, hp, h', hw⟩
      refine ⟨c, hc, k, hk, ?_⟩
      rw [if_pos h]
      refine List.mem_flatMap.2 ⟨p, hp, ?_⟩
      rw [if_pos h', List.mem_singleton]
      exact hw
  rw [hr]
  refine (writes2 W u i _ _ hu fun w hw e1 e2 => ?_).2 ?_
  · obtain ⟨c, hc', k, hk, h, p, hp, h', rfl⟩ := (hW w).1 hw
    dsimp only at e1 e2 ⊢
    obtain ⟨_, h1, h2, _⟩ := hs.sound c p hp
    obtain ⟨y, hy1, hy2, hlt⟩ := row_lt hg hs hp (k := k) (by rw [row_length hlen h1 h2]; exact hk)
    rw [e1] at hy1 h' e2
    have hvv := hinj i hi _ (List.getElem?_eq_some_iff.1 hy1).1 v (List.getElem?_eq_some_iff.1 hvx).1 h' (by omega)
    rw [hvv, hvx] at hy1
    have hgg : at' (row s.cells c) k = g := idx_inj hs.nodup hlt (List.getElem?_eq_some_iff.1 hgx).1 (by rw [hy2, hgx, hy1])
    rw [hgg]
  · obtain ⟨c, hc', k, hk, l, hl, e⟩ := met hs hlen hi hc hv
    obtain ⟨_, h1, h2, _⟩ := hs.sound c _ hl
    obtain ⟨y, hy1, hy2, hlt⟩ := row_lt hg hs hl (k := k) (by rw [row_length hlen h1 h2]; exact hk)
    dsimp only at hy1
    rw [e, hvx] at hy1
    have hgg : at' (row s.cells c) k = g := idx_inj hs.nodup hlt (List.getElem?_eq_some_iff.1 hgx).1 (by rw [hy2, hgx, hy1])
    exact (hW _).2 ⟨c, hc', k, hk, by rw [hgg]; exact h0', (i, l), hl, by dsimp only; rw [e]; exact h0, by dsimp only; rw [e, hgg]⟩

/-- The thirds in the order of the interval: the hypotheses of `overlapping_partial` hold, the whole interval comes out, and a solution with two interior dofs missing at
the ends is put together; the two halves of a square satisfy the hypotheses of `nonoverlapping`. -/
def ordered : List (SubMesh Nat) :=
  [⟨[0, 1, 2, 3], [[0, 1], [1, 2], [2, 3]], [(0, 0), (3, -2)], [], []⟩, ⟨[1, 2, 3, 4, 5], [[0, 1], [1, 2], [2, 3], [3, 4]], [(0, -2), (4, -2)], [], []⟩,
   ⟨[3, 4, 5, 6], [[0, 1], [1, 2], [2, 3]], [(0, -2), (3, 0)], [], []⟩]

def orderedOverlaps : Nat → Nat → Option (List Nat)
  | 0, 1 => some [1, 2]
  | 1, 0 => some [0, 1]
  | 1, 2 => some [2, 3]
  | 2, 1 => some [0, 1]
  | _, _ => none

theorem sample_case : (∀ i < 3, Good (mesh ordered i)) ∧ Overlaps ordered 3 orderedOverlaps ∧ VerticesInOverlaps ordered 3 orderedOverlaps ∧
    (stitchOverlaps orderedOverlaps ordered 3).vertices = [0, 1, 2, 3, 4, 5, 6] ∧ (stitchOverlaps orderedOverlaps ordered 3).cells = [[0, 1], [1, 2], [2, 3], [3, 4], [4, 5], [5, 6]] ∧
    (stitchOverlaps orderedOverlaps ordered 3).lookup = [[(0, 0)], [(0, 1), (1, 0)], [(0, 2), (1, 1)], [(1, 2), (2, 0)], [(1, 3), (2, 1)], [(2, 2)]] ∧
    maxTags (stitchOverlaps orderedOverlaps ordered 3).bverts = [(0, 0), (3, -2), (1, -2), (5, -2), (6, 0)] ∧
    stitchSolutions 6 2 (fun c k => (c : Int) + k - 1) (stitchOverlaps orderedOverlaps ordered 3).lookup (fun i l k => if i = 0 then (l : Int) + k - 1 else if i = 1 then (l : Int) + k else if l = 2 ∧ k = 1 then -1 else (l : Int) + k)
      (fun i => if i = 0 then [(10 : Int), 20, 30] else if i = 1 then [10, 20, 30, 40, 50] else [30, 40, 50]) [7, 7, 7, 7, 7, 7] = [10, 20, 30, 40, 50, 7] ∧
    (∀ i < 2, Good (mesh halves i)) ∧ Interfaces 2 halves 2 halvesInterfaces ∧ (stitchFaces 2 halvesInterfaces halves 2).vertices = [0, 1, 2, 3] := by
  have k1 : ∀ i < 3, ∀ j < i, ∀ c ∈ orderedOverlaps i j, ∃ c' ∈ orderedOverlaps j i, c.map (pts ordered i) = c'.map (pts ordered j) ∧
      (∀ k ∈ c, k < (mesh ordered i).cells.length) ∧ ∀ k ∈ c', k < (mesh ordered j).cells.length := by decide +kernel
  have k2 : ∀ i < 3, ∀ j < i, ∀ k < (mesh ordered i).cells.length, ∀ k' < (mesh ordered j).cells.length, pts ordered i k = pts ordered j k' → ((List.range i).any fun j' => ((orderedOverlaps i j').getD []).contains k) = true := by
    set_option synthInstance.maxSize 2000 in set_option synthInstance.maxHeartbeats 400000 in decide +kernel
  have k3 : ∀ i < 3, ∀ j < i, ∀ v < (mesh ordered i).vertices.length, (mesh ordered i).vertices.getD v 0 ∈ (mesh ordered j).vertices →
      ((List.range (mesh ordered i).cells.length).any fun k => ((List.range i).any fun j' => ((orderedOverlaps i j').getD []).contains k) && (row (mesh ordered i).cells k).contains v) = true := by decide +kernel
  refine ⟨fun i hi => ?_, ⟨k1, fun i hi j hj k hk k' hk' e => from_getD (k2 i hi j hj k hk k' hk' e), by decide +kernel⟩, fun i hi j hj v x hv hx => ?_, by decide +kernel, by decide +kernel,
    by decide +kernel, by decide +kernel, by decide +kernel, halves_good, halves_interfaces, by decide +kernel⟩
  · have h : i = 0 ∨ i = 1 ∨ i = 2 := by omega
    rcases h with rfl | rfl | rfl <;> exact ⟨by decide, by decide, by decide, by decide, by decide⟩
  · obtain ⟨k, _, h⟩ := List.any_eq_true.1 (k3 i hi j hj v (List.getElem?_eq_some_iff.1 hv).1 (by rw [List.getD_eq_getElem?_getD, hv]; exact hx))
    rw [Bool.and_eq_true, List.contains_iff_mem] at h
    obtain ⟨h, hk⟩ := h
    obtain ⟨j', hj', c, hc, hkc⟩ := from_getD h
    exact ⟨j', hj', c, hc, k, hkc, hk⟩

end PyNucleus.Props.C93
