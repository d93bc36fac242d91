import Verif.Proof.SubSolution

/-!
# C107: solutions on parts of a mesh, and union of two meshes
-/

namespace PyNucleus.Props.C107

open PyNucleus.Spec PyNucleus.CSR PyNucleus.Schur PyNucleus.SubSolution

/-- The dof `a` of the part and the dof `b` of the mesh are at the same place of the same cell. -/
def Corresponds (dpe : Nat) (sub glob : Nat → Nat → Int) (sel : List Nat) (a b : Nat) : Prop :=
  ∃ c k, c < sel.length ∧ k < dpe ∧ sub c k = a ∧ glob (sel.getD c 0) k = b

/-- Both dof maps have their dofs in range and identify the same degrees of freedom. -/
structure Consistent (dpe n N : Nat) (sub glob : Nat → Nat → Int) (sel : List Nat) : Prop where
  range : ∀ a b, Corresponds dpe sub glob sel a b → a < n ∧ b < N
  unique : ∀ a b b', Corresponds dpe sub glob sel a b → Corresponds dpe sub glob sel a b' → b = b'

/-- The solution on the part has the values of the given one; dofs of the part that are none of the mesh
get zero. -/
theorem sub_solution {K : Type} [Zero K] (dpe n N : Nat) (sub glob : Nat → Nat → Int) (sel : List Nat)
    (h : Consistent dpe n N sub glob sel) (x : List K) :
    (getSubSolution dpe n sub glob sel x).length = n ∧
    (∀ a b, Corresponds dpe sub glob sel a b →
      (getSubSolution dpe n sub glob sel x).getD a 0 = x.getD b 0) ∧
    ∀ a, (∀ b, ¬ Corresponds dpe sub glob sel a b) → (getSubSolution dpe n sub glob sel x).getD a 0 = 0 := by
  unfold getSubSolution
  rw [visit_eq]
  refine ⟨?_, ?_, ?_⟩
  · rw [length_foldl_set (fun b => x.getD b 0), List.length_replicate]
  · intro a b hab
    exact foldl_set_hit (fun b => x.getD b 0) _ _ a b 0 ((mem_hits ..).2 hab)
      (fun b' hb' => h.unique a b' b ((mem_hits ..).1 hb') hab) (by simpa using (h.range a b hab).1)
  · intro a ha
    rw [foldl_set_other (fun b => x.getD b 0) _ _ a 0 fun b hb => ha b ((mem_hits ..).1 hb)]
    rcases Nat.lt_or_ge a n with hl | hl <;> simp [List.getD_eq_getElem?_getD, List.getElem?_replicate, hl]

theorem indices_spec (dpe n N : Nat) (sub glob : Nat → Nat → Int) (sel : List Nat)
    (h : Consistent dpe n N sub glob sel) :
    (indices dpe n sub glob sel).length = n ∧
    ∀ a b, Corresponds dpe sub glob sel a b → (indices dpe n sub glob sel).getD a 0 = b := by
  unfold indices
  rw [visit_eq]
  refine ⟨?_, ?_⟩
  · rw [length_foldl_set (fun b => b), List.length_replicate]
  · intro a b hab
    exact foldl_set_hit (fun b => b) _ _ a b 0 ((mem_hits ..).2 hab)
      (fun b' hb' => h.unique a b' b ((mem_hits ..).1 hb') hab) (by simpa using (h.range a b hab).1)

theorem indices_lt (dpe n N : Nat) (sub glob : Nat → Nat → Int) (sel : List Nat)
    (h : Consistent dpe n N sub glob sel) (hall : ∀ a, a < n → ∃ b, Corresponds dpe sub glob sel a b) :
    ∀ i ∈ indices dpe n sub glob sel, i < N := by
  intro i hi
  obtain ⟨a, ha, rfl⟩ := List.getElem_of_mem hi
  obtain ⟨h1, h2⟩ := indices_spec dpe n N sub glob sel h
  obtain ⟨b, hb⟩ := hall a (by omega)
  have := h2 a b hb
  rw [List.getD_eq_getElem _ _ ha] at this
  rw [this]
  exact (h.range a b hb).2

/-- Wanted: the restriction operator gives the solution on the part. Proved if all dofs of the part are
dofs of the mesh. -/
theorem restricts_partial {K : Type} [CommRing K] (dpe n N : Nat) (sub glob : Nat → Nat → Int) (sel : List Nat)
    (h : Consistent dpe n N sub glob sel) (hall : ∀ a, a < n → ∃ b, Corresponds dpe sub glob sel a b)
    (x y : List K) (hy : y.length = n) :
    matvec false (restriction dpe n N sub glob sel) x y = getSubSolution dpe n sub glob sel x := by
  have hlt := indices_lt dpe n N sub glob sel h hall
  obtain ⟨h1, h2⟩ := indices_spec dpe n N sub glob sel h
  have hm := C08.matvec_correct false (restriction (K := K) dpe n N sub glob sel)
    (selection_valid N _ hlt) x y (by simp [restriction, selection, h1, hy])
  obtain ⟨s1, s2, _⟩ := sub_solution dpe n N sub glob sel h x
  apply List.ext_getElem
  · rw [hm.1, s1]; simp [restriction, selection, h1]
  · intro a ha hb
    have han : a < n := by rw [s1] at hb; exact hb
    obtain ⟨b, hab⟩ := hall a han
    have e1 := hm.2 a (by simp [restriction, selection, h1, han])
    have e2 : mulVec (restriction (K := K) dpe n N sub glob sel).numCols (restriction (K := K) dpe n N sub glob sel).entry x a = x.getD b 0 := by
      rw [show (restriction (K := K) dpe n N sub glob sel).numCols = N from rfl]
      unfold restriction
      rw [select_mulVec hlt x (by omega), h2 a b hab]
    rw [e2, List.getD_eq_getElem _ _ ha] at e1
    have e3 := s2 a b hab
    rw [List.getD_eq_getElem _ _ hb] at e3
    rw [e1, e3]

/-- For a dof of the part that is no dof of the mesh the operator takes the first dof of the mesh. -/
theorem restricts_fails : ∃ (dpe n N : Nat) (sub glob : Nat → Nat → Int) (sel : List Nat),
    Consistent dpe n N sub glob sel ∧ ∃ x : List Int,
      matvec false (restriction dpe n N sub glob sel) x [0, 0] = [5, 5] ∧
      getSubSolution dpe n sub glob sel x = [5, 0] := by
  have hc : ∀ a b, Corresponds 2 (fun _ k => k) (fun _ k => if k = 0 then 0 else -1) [0] a b → a = 0 ∧ b = 0 := by
    rintro a b ⟨c, k, _, hk, h1, h2⟩
    dsimp only at h1 h2
    split at h2 <;> omega
  refine ⟨2, 2, 1, fun _ k => k, fun _ k => if k = 0 then 0 else -1, [0], ⟨?_, ?_⟩, [5], by decide +kernel, by decide +kernel⟩
  · intro a b hab; have := hc a b hab; omega
  · intro a b b' h1 h2; have := hc a b h1; have := hc a b' h2; omega

/-- The prolongation puts the values of the part to the dofs of the mesh and zero elsewhere, and the
restriction finds them again. -/
theorem prolongs {K : Type} [CommRing K] (dpe n N : Nat) (sub glob : Nat → Nat → Int) (sel : List Nat)
    (h : Consistent dpe n N sub glob sel) (hall : ∀ a, a < n → ∃ b, Corresponds dpe sub glob sel a b)
    (hinj : ∀ a a' b, Corresponds dpe sub glob sel a b → Corresponds dpe sub glob sel a' b → a = a')
    (u : List Nat) (v : List K) (hu : u.length = n) (hv : v.length = n) (x y : List K) (hx : x.length = n)
    (hy : y.length = N) :
    (∀ a b, Corresponds dpe sub glob sel a b →
      (matvec false (prolongation dpe n N sub glob sel u v) x y).getD b 0 = x.getD a 0) ∧
    (∀ b, b < N → (∀ a, ¬ Corresponds dpe sub glob sel a b) →
      (matvec false (prolongation dpe n N sub glob sel u v) x y).getD b 0 = 0) ∧
    ∀ z : List K, z.length = n → matvec false (restriction dpe n N sub glob sel)
      (matvec false (prolongation dpe n N sub glob sel u v) x y) z = x := by
  have hlt := indices_lt dpe n N sub glob sel h hall
  obtain ⟨h1, h2⟩ := indices_spec dpe n N sub glob sel h
  have hval := selection_valid (K := K) N _ hlt
  obtain ⟨t1, t2, t3, _, t5⟩ := C09.transpose_correct (restriction (K := K) dpe n N sub glob sel) hval u v
    (by simp [restriction, selection, h1, hu]) (by simp [restriction, selection, h1, hv])
  have hm := C08.matvec_correct false (prolongation (K := K) dpe n N sub glob sel u v) t3 x y
    (by rw [prolongation, t1]; exact hy)
  have hent : ∀ b, b < N → (matvec false (prolongation dpe n N sub glob sel u v) x y).getD b 0 =
      ∑ a ∈ Finset.range n, (if (indices dpe n sub glob sel).getD a 0 = b then 1 else 0) * x.getD a 0 := by
    intro b hb
    rw [hm.2 b (by rw [prolongation, t1]; exact hb)]
    unfold mulVec
    rw [show (prolongation (K := K) dpe n N sub glob sel u v).numCols = n by
      rw [prolongation, t2]; simp [restriction, selection, h1]]
    apply Finset.sum_congr rfl
    intro a ha
    have ha : a < n := Finset.mem_range.1 ha
    rw [prolongation, t5 a b (by simp [restriction, selection, h1, ha]) hb]
    unfold restriction
    rw [selection_entry N _ (by omega)]
  have hfirst : ∀ a b, Corresponds dpe sub glob sel a b →
      (matvec false (prolongation dpe n N sub glob sel u v) x y).getD b 0 = x.getD a 0 := by
    intro a b hab
    have hr := h.range a b hab
    rw [hent b hr.2, Finset.sum_eq_single a]
    · rw [h2 a b hab]; simp
    · intro a' ha' hne
      have ha' : a' < n := Finset.mem_range.1 ha'
      obtain ⟨b', hb'⟩ := hall a' ha'
      rw [h2 a' b' hb', if_neg, zero_mul]
      rintro rfl
      exact hne (hinj a' a b' hb' hab)
    · intro hn; exact absurd (Finset.mem_range.2 hr.1) hn
  refine ⟨hfirst, ?_, ?_⟩
  · intro b hb hnone
    rw [hent b hb]
    apply Finset.sum_eq_zero
    intro a ha
    obtain ⟨b', hb'⟩ := hall a (Finset.mem_range.1 ha)
    rw [h2 a b' hb', if_neg, zero_mul]
    rintro rfl
    exact hnone a hb'
  · intro z hz
    rw [restricts_partial dpe n N sub glob sel h hall _ z hz]
    obtain ⟨s1, s2, _⟩ := sub_solution dpe n N sub glob sel h
      (matvec false (prolongation dpe n N sub glob sel u v) x y)
    apply List.ext_getElem
    · rw [s1, hx]
    · intro a ha hb
      obtain ⟨b, hab⟩ := hall a (by omega)
      have := s2 a b hab
      rw [hfirst a b hab, List.getD_eq_getElem _ _ ha, List.getD_eq_getElem _ _ hb] at this
      exact this

/-! ## Union of two meshes -/

section
variable {α τ : Type} (near : α → α → Bool) (m1 m2 : Mesh α τ)

/-- The union contains the first mesh, and each cell of the second one with vertices that are at the
places of its vertices, or are the only vertices of the first mesh near to them; a vertex of the second
mesh is added exactly if none of the first is near. -/
theorem union (m : Mesh α τ) (h : snapMeshes near m1 m2 = some m)
    (hv : ∀ c ∈ m2.cells, ∀ v ∈ c, v < m2.vertices.length) :
    ∃ (new : List α) (tr : Nat → Nat), m.vertices = m1.vertices ++ new ∧
      m.cells = m1.cells ++ m2.cells.map (fun c => c.map tr) ∧
      (∀ w ∈ new, w ∈ m2.vertices ∧ ∀ p ∈ m1.vertices, near p w = false) ∧
      (∀ (i : Nat) (v : α), m2.vertices[i]? = some v →
        (∃ p, m1.vertices[tr i]? = some p ∧ m.vertices[tr i]? = some p ∧ near p v = true ∧
          ∀ (j : Nat) (q : α), m1.vertices[j]? = some q → near q v = true → j = tr i) ∨
        (m.vertices[tr i]? = some v ∧ m1.vertices.length ≤ tr i ∧ ∀ p ∈ m1.vertices, near p v = false)) ∧
      ∀ c ∈ m.cells.drop m1.cells.length, ∀ v ∈ c, v < m.vertices.length := by
  unfold snapMeshes at h
  cases hl : snapLoop near m1.vertices m1.vertices.length m2.vertices with
  | none => simp [hl] at h
  | some r =>
    simp only [hl, Option.bind_some, Option.map_eq_some_iff] at h
    obtain ⟨t, _, rfl⟩ := h
    obtain ⟨s1, s2, s3⟩ := snapLoop_spec near m1.vertices [] m2.vertices r (by simpa using hl)
    have hnone : ∀ v, neighbors near m1.vertices v = [] → ∀ p ∈ m1.vertices, near p v = false := by
      intro v hn p hp
      obtain ⟨k, hk, rfl⟩ := List.getElem_of_mem hp
      by_contra hc
      have := (mem_neighbors near m1.vertices v k).2 ⟨_, List.getElem?_eq_getElem hk, by simpa using hc⟩
      rw [hn] at this; cases this
    have hplace : ∀ (i : Nat) (v : α), m2.vertices[i]? = some v →
        (∃ p, m1.vertices[r.1.getD i 0]? = some p ∧ (m1.vertices ++ r.2)[r.1.getD i 0]? = some p ∧ near p v = true ∧
          ∀ (j : Nat) (q : α), m1.vertices[j]? = some q → near q v = true → j = r.1.getD i 0) ∨
        ((m1.vertices ++ r.2)[r.1.getD i 0]? = some v ∧ m1.vertices.length ≤ r.1.getD i 0 ∧
          ∀ p ∈ m1.vertices, near p v = false) := by
      intro i v hi
      rcases s3 i v hi with ⟨hn, hlt⟩ | ⟨hn, hge, hp, _⟩
      · left
        obtain ⟨p, hp, hnear⟩ := (mem_neighbors near m1.vertices v (r.1.getD i 0)).1 (by rw [hn]; simp)
        refine ⟨p, hp, by rw [List.getElem?_append_left hlt]; exact hp, hnear, ?_⟩
        intro j q hq hqn
        have := (mem_neighbors near m1.vertices v j).2 ⟨q, hq, hqn⟩
        rw [hn] at this
        exact List.mem_singleton.1 this
      · right
        exact ⟨by simpa using hp, by simpa using hge, hnone v hn⟩
    refine ⟨r.2, fun v => r.1.getD v 0, rfl, rfl, ?_, hplace, ?_⟩
    · intro w hw
      exact ⟨(s2 w hw).2, hnone w (s2 w hw).1⟩
    · intro c hc v hvc
      simp only [List.drop_left, List.mem_map] at hc
      obtain ⟨c', hc', rfl⟩ := hc
      obtain ⟨i, hi, rfl⟩ := List.mem_map.1 hvc
      have hil := hv c' hc' i hi
      rcases hplace i _ (List.getElem?_eq_getElem hil) with ⟨p, _, hp, _⟩ | ⟨hp, _⟩
      · exact (List.getElem?_eq_some_iff.1 hp).1
      · exact (List.getElem?_eq_some_iff.1 hp).1

/-- Two vertices of the second mesh that are not near to the same vertex stay different; so cells keep
their shape. -/
theorem distinct (r : List Nat × List α) (h : snapLoop near m1.vertices m1.vertices.length m2.vertices = some r)
    (i j : Nat) (hi : i < m2.vertices.length) (hj : j < m2.vertices.length) (hij : i < j)
    (hfar : ∀ p ∈ m1.vertices, ¬ (near p m2.vertices[i] = true ∧ near p m2.vertices[j] = true)) :
    r.1.getD i 0 ≠ r.1.getD j 0 := by
  obtain ⟨s1, s2, s3⟩ := snapLoop_spec near m1.vertices [] m2.vertices r (by simpa using h)
  intro he
  rcases s3 j _ (List.getElem?_eq_getElem hj) with ⟨hn, hlt⟩ | ⟨_, _, _, hd⟩
  · rcases s3 i _ (List.getElem?_eq_getElem hi) with ⟨hn', _⟩ | ⟨_, hge, _, _⟩
    · obtain ⟨p, hp, h1⟩ := (mem_neighbors near m1.vertices m2.vertices[j] (r.1.getD j 0)).1 (by rw [hn]; simp)
      obtain ⟨q, hq, h2⟩ := (mem_neighbors near m1.vertices m2.vertices[i] (r.1.getD i 0)).1 (by rw [hn']; simp)
      rw [he, hp] at hq
      cases hq
      exact hfar p (List.mem_of_getElem? hp) ⟨h2, h1⟩
    · simp only [List.length_nil, add_zero] at hge
      omega
  · exact hd i hij he

/-- The transformation of the union is the one of the mesh that has one. -/
theorem transformed (m : Mesh α τ) (h : snapMeshes near m1 m2 = some m) : m.transformer = m1.transformer.or m2.transformer := by
  unfold snapMeshes at h
  rw [Option.bind_eq_some_iff] at h
  obtain ⟨r, -, h⟩ := h
  rw [Option.map_eq_some_iff] at h
  obtain ⟨t, ht, rfl⟩ := h
  revert ht
  cases m1.transformer <;> cases m2.transformer <;> simp [transformerOf] <;> exact Eq.symm

/-- The union fails exactly if a vertex of the second mesh is near to two vertices of the first, or if
both meshes have transformations. -/
theorem union_raises : snapMeshes near m1 m2 = none ↔
    (∃ v ∈ m2.vertices, 2 ≤ (neighbors near m1.vertices v).length) ∨
      (m1.transformer.isSome ∧ m2.transformer.isSome) := by
  have ht : transformerOf m1.transformer m2.transformer = none ↔ (m1.transformer.isSome ∧ m2.transformer.isSome) := by
    cases m1.transformer <;> cases m2.transformer <;> simp [transformerOf]
  have hs := snapLoop_isSome near m1.vertices m1.vertices.length m2.vertices
  unfold snapMeshes
  cases hl : snapLoop near m1.vertices m1.vertices.length m2.vertices with
  | none =>
    simp only [hl, Option.isSome_none, Bool.false_eq_true, false_iff, not_forall, not_le] at hs
    obtain ⟨v, hv, h2⟩ := hs
    simp only [Option.bind_none, true_iff]
    exact Or.inl ⟨v, hv, h2⟩
  | some r =>
    simp only [hl, Option.isSome_some, true_iff] at hs
    simp only [Option.bind_some, Option.map_eq_none_iff, ht]
    constructor
    · exact Or.inr
    · rintro (⟨v, hv, h2⟩ | h)
      · have := hs v hv; omega
      · exact h

end

/-- Two triangles with a common edge, taken apart by rounding. -/
theorem sample_case :
    let near : Int → Int → Bool := fun a b => decide ((a - b).natAbs ≤ 1)
    let m1 : Mesh Int Unit := ⟨[0, 100, 200], [[0, 1, 2]], none⟩
    let m2 : Mesh Int Unit := ⟨[101, 300, 199], [[0, 1, 2]], none⟩
    ((snapMeshes near m1 m2).map fun m => (m.vertices, m.cells)) = some ([0, 100, 200, 300], [[0, 1, 2], [1, 3, 2]]) ∧
    Corresponds 2 (fun c k => (c + k : Nat)) (fun c k => (c + k : Nat)) [1] 1 2 ∧
    getSubSolution 2 2 (fun c k => (c + k : Nat)) (fun c k => (c + k : Nat)) [1] [(7 : Int), 8, 9] = [8, 9] := by
  refine ⟨by decide +kernel, ⟨0, 1, by decide, by decide, by decide, by decide⟩, by decide +kernel⟩

end PyNucleus.Props.C107
