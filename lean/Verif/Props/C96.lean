import Verif.Proof.MeshObject
import Mathlib.Data.List.Dedup

/-!
# C96: the boundary of a mesh object, its tags, copies and files
-/

namespace PyNucleus.Props.C96

open PyNucleus.MeshObject

variable {P T : Type}

/-- Whatever has been asked before, in whatever order, a mesh gives the same answers: the boundary
that has been set, or else the one computed from the cells, with tag 0 where no tags have been set.
Each question returns its part of the answers, and there is one tag per entity. -/
theorem questions_partial (F : Compute P) (m : Obj P T) (hc : Consistent m) (qs : List Question) :
    let m' := qs.foldl (ask F) m
    answers F m' = answers F m ∧ (getInterior F m').1 = interiorOf F m ∧
    (getBV F m').1 = (answers F m).bv ∧ (getBVTags F m').1 = (answers F m).bvTags ∧
    (getBE F m').1 = (answers F m).be ∧ (getBETags F m').1 = (answers F m).beTags ∧
    (getBF F m').1 = (answers F m).bf ∧ (getBFTags F m').1 = (answers F m).bfTags ∧
    (answers F m).bv.length = (answers F m).bvTags.length ∧
    (answers F m).be.length = (answers F m).beTags.length ∧
    (answers F m).bf.length = (answers F m).bfTags.length := by
  intro m'
  have h : answers F m' = answers F m ∧ interiorOf F m' = interiorOf F m := by
    show answers F (qs.foldl (ask F) m) = _ ∧ interiorOf F (qs.foldl (ask F) m) = _
    clear_value m'
    clear m' hc
    induction qs generalizing m with
    | nil => exact ⟨rfl, rfl⟩
    | cons q qs ih =>
      obtain ⟨a, b⟩ := ih (ask F m q)
      obtain ⟨c, d, -⟩ := ask_spec F m q
      exact ⟨a.trans c, b.trans d⟩
  obtain ⟨h1, h2⟩ := h
  refine ⟨h1, (getInterior_spec F m').1.trans h2, ?_, ?_, ?_, ?_, ?_, ?_, answers_lengths F m hc⟩
  · rw [(getBV_spec F m').1, ← h1]; rfl
  · rw [(getBVTags_spec F m').1, h1]
  · rw [(getBE_spec F m').1, ← h1]; rfl
  · rw [(getBETags_spec F m').1, h1]
  · rw [getBF_fst F m', ← h1]; rfl
  · rw [(getBFTags_spec F m').1, h1]

/-- A computation of the boundary for the samples. -/
def sampleF : Compute (List ℚ) where
  vertices := fun _ => [0, 2]
  verticesOfEdges := fun l => (l.flatMap fun e => [e.1, e.2]).dedup
  edges := fun _ => [(0, 1), (1, 2), (2, 0)]
  edgesOfFaces := fun l => (l.flatMap fun f => [(f.1, f.2.1), (f.2.1, f.2.2), (f.2.2, f.1)])
  faces := fun _ _ => [(0, 1, 2)]
  cells := fun _ => [0]

/-- Asking for the cells at the boundary replaces boundary edges that have been set, but not their
tags: a segment that was not part of the tagged boundary gets a tag. -/
theorem boundary_cells_fails :
    ∃ m : Obj (List ℚ) Unit, Consistent m ∧
      ∃ r, getBC sampleF m = some r ∧
        (answers sampleF r.2).be ≠ (answers sampleF m).be ∧
        (answers sampleF r.2).be.length ≠ (answers sampleF r.2).beTags.length := by
  refine ⟨{ mdim := 2, vertices := [], cells := [[0, 1, 2]], be := some [(1, 2)],
            beTags := some [7] }, ⟨?_, ?_, ?_⟩, _, rfl, ?_, ?_⟩
  · intro t h; cases h
  · intro t h; cases h; exact ⟨_, rfl, rfl⟩
  · intro t h; cases h
  · decide
  · decide

/-- Asking for the cells at the boundary changes nothing if the edges are those of the cells. -/
theorem boundary_cells_partial (F : Compute P) (m : Obj P T) (h2 : m.mdim = 2)
    (he : m.be = none ∨ m.be = some (F.edges m.cells)) :
    ∃ r, getBC F m = some r ∧ answers F r.2 = answers F m := by
  unfold getBC
  cases h : m.bc with
  | some c => exact ⟨_, rfl, rfl⟩
  | none =>
    dsimp only
    rw [if_pos h2]
    refine ⟨_, rfl, ?_⟩
    have : F.edges m.cells = edgesOf F m := by
      rcases he with he | he <;> simp [edgesOf, he, h2]
    have h3 := (same_be F m _ this).answers
    exact h3

/-- Vertices by tag: exactly the boundary vertices with one of the tags, in their order, and asking
changes no answers. -/
theorem vertices_by_tag (F : Compute P) (m : Obj P T) (hc : Consistent m) (a : TagArg)
    (ha : a ≠ .many []) :
    ∃ r, byTagV F m a = some r ∧ answers F r.2 = answers F m ∧
      r.1.Sublist (answers F m).bv ∧
      (∀ v, v ∈ r.1 ↔ ∃ i : Nat, ∃ t, (answers F m).bv[i]? = some v ∧
        (answers F m).bvTags[i]? = some t ∧ a.Asks t) ∧
      r.1 = selected (answers F m).bv (answers F m).bvTags a := by
  obtain ⟨m', h, hs⟩ := byTagV_spec F m hc a ha
  exact ⟨_, h, hs.answers, selected_sublist _ _ _, fun v => mem_selected _ _ _ v, rfl⟩

/-- Edges and faces by tag, unless the first tag of the list is `None`. -/
theorem others_by_tag_partial (F : Compute P) (m : Obj P T) (hc : Consistent m) (a : TagArg)
    (ha : a ≠ .many []) (ha' : ∀ l, a ≠ .many (none :: l)) :
    (∃ r, byTagE F m a = some r ∧ answers F r.2 = answers F m ∧
      r.1 = selected (answers F m).be (answers F m).beTags a) ∧
    (∃ r, byTagF F m a = some r ∧ answers F r.2 = answers F m ∧
      r.1 = selected (answers F m).bf (answers F m).bfTags a) := by
  obtain ⟨m1, h1, hs1⟩ := byTagE_spec F m hc a ha ha'
  obtain ⟨m2, h2, hs2⟩ := byTagF_spec F m hc a ha ha'
  exact ⟨⟨_, h1, hs1.answers, rfl⟩, ⟨_, h2, hs2.answers, rfl⟩⟩

/-- `[None]` stands for all vertices, but for no edges and no faces. -/
theorem none_in_list_fails :
    ∃ m : Obj (List ℚ) Unit, Consistent m ∧
      (byTagV sampleF m (.many [none])).map Prod.fst = some [2, 0] ∧
      (byTagE sampleF m (.many [none])).map Prod.fst = some [] ∧
      (byTagE sampleF m .all).map Prod.fst = some [(0, 1), (1, 2), (2, 0)] := by
  refine ⟨{ mdim := 2, vertices := [], cells := [[0, 1, 2]], bv := some [2, 0] }, ⟨?_, ?_, ?_⟩,
    by decide, by decide, by decide⟩
  · intro t h; cases h
  · intro t h; cases h
  · intro t h; cases h

/-- Interior vertices by tag: in ascending order, exactly the vertices that are not among the
boundary vertices with that tag; with `NO_BOUNDARY`, all vertices. -/
theorem interior_by_tag (F : Compute P) (m : Obj P T) (hc : Consistent m) (a : TagArg)
    (ha : a ≠ .many []) :
    ∃ l r, interiorByTag F m a = some l ∧ byTagV F m a = some r ∧ l.Pairwise (· < ·) ∧
      ∀ v, v ∈ l ↔ v < m.vertices.length ∧ (a = .one NO_BOUNDARY ∨ v ∉ r.1) := by
  obtain ⟨m', h, -⟩ := byTagV_spec F m hc a ha
  have comp : ∀ b : List Nat, (complement m.vertices.length b).Pairwise (· < ·) ∧
      ∀ v, v ∈ complement m.vertices.length b ↔ v < m.vertices.length ∧ v ∉ b := fun b =>
    ⟨List.Pairwise.filter _ List.pairwise_lt_range, fun v => by simp [complement]⟩
  by_cases hn : a = .one NO_BOUNDARY
  · subst hn
    refine ⟨List.range m.vertices.length, _, by simp [interiorByTag], h, List.pairwise_lt_range, ?_⟩
    intro v; simp
  · refine ⟨complement m.vertices.length (selected (answers F m).bv (answers F m).bvTags a), _, ?_, h,
      (comp _).1, ?_⟩
    · cases a with
      | one t =>
        have : t ≠ NO_BOUNDARY := fun h => hn (by rw [h])
        simp [interiorByTag, this, h]
      | all => simp [interiorByTag, h]
      | many l => simp [interiorByTag, h]
    · intro v
      rw [(comp _).2 v]
      simp [hn]

/-- With one tag, or with a list of tags, the sorted vertices are those by tag, in ascending order,
and the mesh gives the same answers afterwards. -/
theorem sorted_partial (F : Compute P) (m : Obj P T) (hc : Consistent m) (a : TagArg)
    (ha : a ≠ .many []) (ha' : ∀ l, a ≠ .many (none :: l)) (ha'' : a ≠ .all) :
    ∃ r, byTagSorted F m a = some r ∧ r.1.Pairwise (· ≤ ·) ∧
      r.1.Perm (selected (answers F m).bv (answers F m).bvTags a) ∧
      answers F r.2 = answers F m := by
  obtain ⟨m', h, hs⟩ := byTagV_spec F m hc a ha
  have e : byTagSorted F m a = some
      ((selected (answers F m).bv (answers F m).bvTags a).insertionSort (· ≤ ·), m') := by
    unfold byTagSorted
    rw [h]
    cases a with
    | all => exact absurd rfl ha''
    | one t => rfl
    | many l =>
      cases l with
      | nil => exact absurd rfl ha
      | cons x l =>
        cases x with
        | none => exact absurd rfl (ha' l)
        | some t => rfl
  exact ⟨_, e, List.pairwise_insertionSort _ _, List.perm_insertionSort _ _, hs.answers⟩

/-- Asking for all boundary vertices sorted sorts the array of the mesh but not the tags: vertex 5
had tag 1, afterwards vertex 3 has it. -/
theorem sorted_fails :
    ∃ m : Obj (List ℚ) Unit, Consistent m ∧
      (byTagV sampleF m (.one 1)).map Prod.fst = some [5] ∧
      ∃ r, byTagSorted sampleF m .all = some r ∧
        (byTagV sampleF r.2 (.one 1)).map Prod.fst = some [3] := by
  refine ⟨{ mdim := 1, vertices := [], cells := [], bv := some [5, 3], bvTags := some [1, 2] },
    ⟨?_, ?_, ?_⟩, by decide, _, rfl, by decide⟩
  · intro t h; cases h; exact ⟨_, rfl, rfl⟩
  · intro t h; cases h
  · intro t h; cases h

/-- After tagging by a function of the places, the entities with a tag are exactly those whose
places the function maps to it, and nothing else changes. -/
theorem tagging [Inhabited P] (F : Compute P) (m : Obj P T) (hc : Consistent m) :
    (∀ f : P → Int, ∃ m', tagBV F m f = some m' ∧ Consistent m' ∧
      answers F m' = { answers F m with
        bvTags := (answers F m).bv.map fun v => f (m.vertices.getD v default) } ∧
      ∀ t, (byTagV F m' (.one t)).map Prod.fst = some ((answers F m).bv.filter fun v =>
        decide (f (m.vertices.getD v default) = t))) ∧
    (∀ f : P → P → Int, ∃ m', tagBE F m f = some m' ∧ Consistent m' ∧
      answers F m' = { answers F m with
        beTags := (answers F m).be.map fun e =>
          f (m.vertices.getD e.1 default) (m.vertices.getD e.2 default) } ∧
      ∀ t, (byTagE F m' (.one t)).map Prod.fst = some ((answers F m).be.filter fun e =>
        decide (f (m.vertices.getD e.1 default) (m.vertices.getD e.2 default) = t))) ∧
    (∀ f : P → P → P → Int, ∃ m', tagBF F m f = some m' ∧ Consistent m' ∧
      answers F m' = { answers F m with
        bfTags := (answers F m).bf.map fun e =>
          f (m.vertices.getD e.1 default) (m.vertices.getD e.2.1 default)
            (m.vertices.getD e.2.2 default) } ∧
      ∀ t, (byTagF F m' (.one t)).map Prod.fst = some ((answers F m).bf.filter fun e =>
        decide (f (m.vertices.getD e.1 default) (m.vertices.getD e.2.1 default)
          (m.vertices.getD e.2.2 default) = t))) := by
  refine ⟨fun f => ?_, fun f => ?_, fun f => ?_⟩
  · obtain ⟨a, b, -⟩ := getBV_spec F m
    obtain ⟨m', h1, h2, -, h4⟩ := setBVTags_spec F (getBV F m).2
      ((getBV F m).1.map fun v => f (m.vertices.getD v default))
      (by rw [List.length_map, a, vertices_of_same F m b])
    rw [b.answers, a] at h2
    have hc' := h4 (b.consistent hc)
    refine ⟨m', h1, hc', h2, fun t => ?_⟩
    obtain ⟨m'', h5, -⟩ := byTagV_spec F m' hc' (.one t) (by simp)
    rw [h5, h2]
    simp only [Option.map_some]
    exact congrArg some (selected_map _ _ t)
  · obtain ⟨a, b, -⟩ := getBE_spec F m
    obtain ⟨m', h1, h2, -, h4⟩ := setBETags_spec F (getBE F m).2
      ((getBE F m).1.map fun e => f (m.vertices.getD e.1 default) (m.vertices.getD e.2 default))
      (by rw [List.length_map, a, edges_of_same F m b])
    rw [b.answers, a] at h2
    have hc' := h4 (b.consistent hc)
    refine ⟨m', h1, hc', h2, fun t => ?_⟩
    obtain ⟨m'', h5, -⟩ := byTagE_spec F m' hc' (.one t) (by simp) (by simp)
    rw [h5, h2]
    simp only [Option.map_some]
    exact congrArg some (selected_map _ _ t)
  · have a := getBF_fst F m
    have b := same_getBF F m
    obtain ⟨m', h1, h2, -, h4⟩ := setBFTags_spec F (getBF F m).2
      ((getBF F m).1.map fun e => f (m.vertices.getD e.1 default) (m.vertices.getD e.2.1 default)
        (m.vertices.getD e.2.2 default))
      (by rw [List.length_map, a, faces_of_same F m b])
    rw [b.answers, a] at h2
    have hc' := h4 (b.consistent hc)
    refine ⟨m', h1, hc', h2, fun t => ?_⟩
    obtain ⟨m'', h5, -⟩ := byTagF_spec F m' hc' (.one t) (by simp) (by simp)
    rw [h5, h2]
    simp only [Option.map_some]
    exact congrArg some (selected_map _ _ t)

/-- Replacing tags changes exactly the tags in the given set. -/
theorem replacing [Inhabited P] (F : Compute P) (m : Obj P T) (hc : Consistent m) (s : List Int) :
    (∀ f : P → Int, ∃ m', replaceBV F m f s = some m' ∧ Consistent m' ∧
      (answers F m').bv = (answers F m).bv ∧
      ∀ (i v : Nat) (t : Int), (answers F m).bv[i]? = some v → (answers F m).bvTags[i]? = some t →
        (answers F m').bvTags[i]? =
          some (if t ∈ s then f (m.vertices.getD v default) else t)) ∧
    (∀ f : P → P → Int, ∃ m', replaceBE F m f s = some m' ∧ Consistent m' ∧
      (answers F m').be = (answers F m).be ∧
      ∀ (i : Nat) (e : Edge) (t : Int), (answers F m).be[i]? = some e →
        (answers F m).beTags[i]? = some t →
        (answers F m').beTags[i]? = some (if t ∈ s then
          f (m.vertices.getD e.1 default) (m.vertices.getD e.2 default) else t)) := by
  refine ⟨fun f => ?_, fun f => ?_⟩
  · obtain ⟨a, b, -⟩ := getBV_spec F m
    obtain ⟨c, d⟩ := getBVTags_spec F (getBV F m).2
    have hl := (answers_lengths F m hc).1
    rw [b.answers] at c
    obtain ⟨m', h1, h2, -, h4⟩ := setBVTags_spec F (getBVTags F (getBV F m).2).2
      (((getBV F m).1.zip (getBVTags F (getBV F m).2).1).map fun p =>
        if p.2 ∈ s then f (m.vertices.getD p.1 default) else p.2)
      (by
        rw [vertices_of_same F m (b.trans d), List.length_map, List.length_zip, a, c, ← hl]
        exact Nat.min_self _)
    rw [(b.trans d).answers, a, c] at h2
    refine ⟨m', h1, h4 ((b.trans d).consistent hc), by rw [h2], fun i v t hv ht => ?_⟩
    rw [h2]
    show (List.map _ ((answers F m).bv.zip (answers F m).bvTags))[i]? = _
    rw [List.getElem?_map, (List.getElem?_zip_eq_some (z := (v, t))).mpr ⟨hv, ht⟩]
    rfl
  · obtain ⟨a, b, -⟩ := getBE_spec F m
    obtain ⟨c, d⟩ := getBETags_spec F (getBE F m).2
    have hl := (answers_lengths F m hc).2.1
    rw [b.answers] at c
    obtain ⟨m', h1, h2, -, h4⟩ := setBETags_spec F (getBETags F (getBE F m).2).2
      (((getBE F m).1.zip (getBETags F (getBE F m).2).1).map fun p =>
        if p.2 ∈ s then f (m.vertices.getD p.1.1 default) (m.vertices.getD p.1.2 default) else p.2)
      (by
        rw [edges_of_same F m (b.trans d), List.length_map, List.length_zip, a, c, ← hl]
        exact Nat.min_self _)
    rw [(b.trans d).answers, a, c] at h2
    refine ⟨m', h1, h4 ((b.trans d).consistent hc), by rw [h2], fun i v t hv ht => ?_⟩
    rw [h2]
    show (List.map _ ((answers F m).be.zip (answers F m).beTags))[i]? = _
    rw [List.getElem?_map, (List.getElem?_zip_eq_some (z := (v, t))).mpr ⟨hv, ht⟩]
    rfl

/-- A pickled mesh and a copy give the same answers as the mesh and have its transformer. -/
theorem copies (F : Compute P) (m : Obj P T) (hc : Consistent m) :
    (answers F (setState (getState F m)) = answers F m ∧
      (setState (getState F m)).transformer = m.transformer ∧
      Consistent (setState (getState F m))) ∧
    (answers F (copy m) = answers F m ∧ (copy m).transformer = m.transformer ∧
      Consistent (copy m)) :=
  ⟨setState_getState F m hc, rfl, rfl, ⟨hc.vertices, hc.edges, hc.faces⟩⟩

/-- A mesh that is written to a file and read again gives the same answers (the transformer is
missing, see `file_fails`). -/
theorem file_partial (F : Compute P) (m : Obj P T) (hc : Consistent m) :
    ∃ m' : Obj P T, hdf5read F (hdf5write m) = some m' ∧ answers F m' = answers F m ∧
      Consistent m' :=
  ⟨_, hdf5_eq F m hc, rfl, ⟨hc.vertices, hc.edges, hc.faces⟩⟩

/-- The transformer of a mesh is not written to the file: refining the mesh that is read does not
follow a curved boundary. -/
theorem file_fails (F : Compute P) (m : Obj P T) (hc : Consistent m) (t : T)
    (ht : m.transformer = some t) :
    ∃ m' : Obj P T, hdf5read F (hdf5write m) = some m' ∧ m'.transformer ≠ m.transformer :=
  ⟨_, hdf5_eq F m hc, by rw [ht]; exact fun h => by cases h⟩

/-- The places of a list of vertices. -/
def places (m : Obj P T) (l : List Nat) : List (Option P) := l.map fun v => m.vertices[v]?

/-- Renumbering vertices moves nothing: all cells, boundary vertices, and boundary edges keep their
places and their tags, as long as no boundary faces are cached. -/
theorem renumber_partial [Inhabited P] (m : Obj P T) (idx : List Nat)
    (hidx : idx.Perm (List.range m.vertices.length)) (hf : m.bf = none)
    (hcells : ∀ c ∈ m.cells, ∀ v ∈ c, v < m.vertices.length)
    (hbv : ∀ l, m.bv = some l → ∀ v ∈ l, v < m.vertices.length)
    (hbe : ∀ l, m.be = some l → ∀ e ∈ l, e.1 < m.vertices.length ∧ e.2 < m.vertices.length) :
    ∃ m', reorder m idx = some m' ∧
      (∀ i : Nat, m'.vertices[i]? = idx[i]?.bind fun j => m.vertices[j]?) ∧
      m'.cells.map (places m') = m.cells.map (places m) ∧
      m'.bv.map (places m') = m.bv.map (places m) ∧
      (m'.be.map fun l => l.map fun e => (m'.vertices[e.1]?, m'.vertices[e.2]?)) =
        (m.be.map fun l => l.map fun e => (m.vertices[e.1]?, m.vertices[e.2]?)) ∧
      m'.bvTags = m.bvTags ∧ m'.beTags = m.beTags := by
  have key := reorder_place m.vertices idx hidx
  have hlist : ∀ c : List Nat, (∀ v ∈ c, v < m.vertices.length) →
      (c.map fun v => (scatter idx).getD v 0).map
        (fun v => (idx.map fun i => m.vertices.getD i default)[v]?)
      = c.map fun v => m.vertices[v]? := by
    intro c hc
    rw [List.map_map]
    exact List.map_congr_left fun v hv => key v (hc v hv)
  refine ⟨{ m with
      vertices := idx.map fun i => m.vertices.getD i default
      bv := m.bv.map (·.map fun v => (scatter idx).getD v 0)
      be := m.be.map (·.map fun e => ((scatter idx).getD e.1 0, (scatter idx).getD e.2 0))
      cells := m.cells.map (·.map fun v => (scatter idx).getD v 0) }, ?_, ?_, ?_, ?_, ?_, rfl, rfl⟩
  · unfold reorder
    simp only [hf]
    rfl
  · intro i
    show (idx.map fun i => m.vertices.getD i default)[i]? = _
    rw [List.getElem?_map]
    cases h : idx[i]? with
    | none => rfl
    | some j =>
      have hj : j < m.vertices.length := by
        simpa using hidx.subset (List.mem_of_getElem? h)
      simp only [Option.map_some, Option.bind_some]
      rw [List.getD_eq_getElem _ _ hj, List.getElem?_eq_getElem hj]
  · show List.map _ (m.cells.map _) = _
    rw [List.map_map]
    exact List.map_congr_left fun c hc => hlist c (hcells c hc)
  · cases h : m.bv with
    | none => rfl
    | some l => exact congrArg some (hlist l (hbv l h))
  · cases h : m.be with
    | none => rfl
    | some l =>
      refine congrArg some ?_
      dsimp only
      rw [List.map_map]
      exact List.map_congr_left fun e he =>
        Prod.ext (key e.1 (hbe l h e he).1) (key e.2 (hbe l h e he).2)

/-- A tetrahedron with cached boundary faces, or with cached faces and edges. -/
def sampleTet (be : Option (List Edge)) : Obj (List ℚ) Unit :=
  { mdim := 3, vertices := [[0, 0, 0], [1, 0, 0], [0, 1, 0], [0, 0, 1]], cells := [[0, 1, 2, 3]],
    be := be, bf := some [(0, 1, 2)] }

/-- If boundary faces are cached, renumbering fails without cached edges; and with cached edges,
these are renumbered twice and the faces not at all: both end up at other places. -/
theorem renumber_fails :
    reorder (sampleTet none) [1, 2, 3, 0] = none ∧
    ∃ m', reorder (sampleTet (some [(0, 1)])) [1, 2, 3, 0] = some m' ∧
      m'.bf = (sampleTet none).bf ∧
      places m' [0, 1, 2] ≠ places (sampleTet none) [0, 1, 2] ∧
      m'.be = some [(2, 3)] ∧ places m' [2, 3] ≠ places (sampleTet none) [0, 1] := by
  refine ⟨rfl, _, rfl, rfl, ?_, ?_, ?_⟩ <;> decide +kernel

/-- Cached interior vertices are not updated when boundary vertices are set or vertices are
renumbered: afterwards a vertex counts as interior and as boundary. -/
theorem interior_fails :
    ∃ m : Obj (List ℚ) Unit,
      (∃ v, v ∈ (getInterior sampleF (setBV (ask sampleF m .interior) [1])).1 ∧
        v ∈ (getBV sampleF (setBV (ask sampleF m .interior) [1])).1) ∧
      ∃ m', reorder (ask sampleF m .interior) [1, 0, 2] = some m' ∧
        ∃ v, v ∈ (getInterior sampleF m').1 ∧ v ∈ (getBV sampleF m').1 := by
  refine ⟨{ mdim := 1, vertices := [[0], [1], [2]], cells := [[0, 1], [1, 2]] }, ⟨1, ?_, ?_⟩,
    _, rfl, 1, ?_, ?_⟩ <;> decide +kernel

/-- Meshes with different vertices can be equal: only numbers, one coordinate, the sizes of the
largest and the smallest cell, and the volume are compared. -/
theorem eq_fails : eq1D [0, 1, 3] [(0, 1), (1, 2)] [0, 2, 3] [(0, 1), (1, 2)] = true := by
  decide +kernel

/-- A mesh of an interval that is exported and read again lies in space: the coordinates were
written to the last column, and columns are only dropped at the end. -/
theorem vtk_fails : readPoints ([[0], [1]].map vtkPoint) = [[0, 0, 0], [0, 0, 1]] := by
  decide +kernel

/-- In space, points are read as they were written. -/
theorem vtk_partial (pts : List (List ℚ)) (h : ∀ p ∈ pts, p.length = 3)
    (hz : ∃ p ∈ pts, ∃ q ∈ pts, p.getD 2 0 ≠ q.getD 2 0) :
    readPoints (pts.map vtkPoint) = pts := by
  have e : pts.map vtkPoint = pts := by
    conv => rhs; rw [← List.map_id pts]
    refine List.map_congr_left fun p hp => ?_
    simp [vtkPoint, h p hp]
  have hd : readDim pts 3 = 3 := by
    have : decide (1 < ((pts.map fun p => p.getD 2 0).dedup).length) = true := by
      obtain ⟨p, hp, q, hq, hne⟩ := hz
      have h1 : p.getD 2 0 ∈ (pts.map fun p => p.getD 2 0).dedup :=
        List.mem_dedup.mpr (List.mem_map_of_mem (f := fun p : List ℚ => p.getD 2 0) hp)
      have h2 : q.getD 2 0 ∈ (pts.map fun p => p.getD 2 0).dedup :=
        List.mem_dedup.mpr (List.mem_map_of_mem (f := fun p : List ℚ => p.getD 2 0) hq)
      generalize (pts.map fun p => p.getD 2 0).dedup = l at h1 h2
      simp only [decide_eq_true_eq]
      match l, h1, h2 with
      | [x], h1, h2 =>
        simp only [List.mem_singleton] at h1 h2
        exact absurd (h1.trans h2.symm) hne
      | x :: y :: l, _, _ => simp
    have e3 : (List.range 3).reverse = [2, 1, 0] := by decide
    unfold readDim
    rw [e3, List.find?_cons_of_pos (a := 2) (p := fun k => decide (1 < ((pts.map fun p => p.getD k 0).dedup).length)) this]
  unfold readPoints
  rw [e, hd]
  conv => rhs; rw [← List.map_id pts]
  refine List.map_congr_left fun p hp => ?_
  rw [List.take_of_length_le (by rw [h p hp])]
  rfl

/-- A triangle whose edges are tagged by their first vertex: questions, selection, pickling, and
renumbering. -/
theorem sample_case :
    let m : Obj (List ℚ) Unit :=
      { mdim := 2, vertices := [[0, 0], [1, 0], [0, 1]], cells := [[0, 1, 2]] }
    ((tagBE sampleF m fun p _ => if p = [1, 0] then 1 else 0).bind fun m' =>
      (byTagE sampleF m' (.one 1)).map Prod.fst) = some [(1, 2)] ∧
    ((tagBE sampleF m fun p _ => if p = [1, 0] then 1 else 0).bind fun m' =>
      (byTagE sampleF (setState (getState sampleF m')) (.many [some 1, some 5])).map Prod.fst)
      = some [(1, 2)] ∧
    (reorder (ask sampleF m .vertices) [2, 0, 1]).map (fun m' => (m'.cells, m'.be, m'.vertices)) =
      some ([[1, 2, 0]], some [(1, 2), (2, 0), (0, 1)], [[0, 1], [0, 0], [1, 0]]) := by
  refine ⟨?_, ?_, ?_⟩ <;> decide +kernel

end PyNucleus.Props.C96
