import Verif.Proof.Splitting
import Verif.Props.C08
import Verif.Props.C09

/-!
# C84 Splitting a mesh and its degrees of freedom

Full statement: the map on the cells of a label has the degrees of freedom of these cells, numbered without gaps; the map on the full
mesh has the same numbers there and takes all other degrees of freedom to the boundary; the restriction takes the coefficients of
the full map to those of the sub map, the prolongation extends by zero; the subdomains of an indicator divide the cells; the submesh
keeps the tags of the boundary.

Proved but for: the restriction with an explicit indicator (`indicator_fails`, `indicator_rows_partial`) and the tags of boundary
faces (`face_tags_fails`).
-/

namespace PyNucleus.Props.C84

open PyNucleus.Splitting PyNucleus.DoFMap PyNucleus.Spec PyNucleus.CSR

/-- The rows of `sub` are `rows` with every dof `d` renamed to `f d`; different dofs stay different and there are no gaps. -/
structure Renamed (rows : List (List Int)) (sub : Map) (f : Int → Int) : Prop where
  dofs : sub.dofs = rows.map fun r => r.map f
  inj : ∀ d ∈ rows.flatten, ∀ d' ∈ rows.flatten, f d = f d' → d = d'
  gapless : ∀ v : Int, (-sub.numBoundaryDofs ≤ v ∧ v < sub.numDofs) ↔ ∃ d ∈ rows.flatten, f d = v

/-- The map on the submesh of the selected cells. -/
theorem sub_map (dofs : List (List Int)) (sel : List Nat) :
    ∃ f : Int → Int, Renamed (rowsOf dofs sel) (getSubMap dofs sel) f ∧ ∀ d ∈ (rowsOf dofs sel).flatten, (0 ≤ f d ↔ 0 ≤ d) := by
  obtain ⟨h1, h2⟩ := resetRows_spec (fun _ => true) (rowsOf dofs sel) start (start_ok _)
  obtain ⟨h3, h4, h5⟩ := finished h1
  refine ⟨fun d => ((resetRows (fun _ => true) start (rowsOf dofs sel)).2.old2new d).getD 0, ⟨h2, h3, h5⟩, fun d hd => ?_⟩
  rw [h4 d hd]
  simp

/-- The map on the full mesh: dofs of other cells only are on the boundary. On the selected cells it is the map on the submesh. -/
theorem full_map (dofs : List (List Int)) (sel : List Nat) (hsel : ∀ c ∈ sel, c < dofs.length) :
    (∃ f : Int → Int, Renamed dofs (getSubMapOnFullMesh dofs sel) f ∧
      ∀ d ∈ dofs.flatten, (0 ≤ f d ↔ 0 ≤ d ∧ d ∈ (rowsOf dofs sel).flatten)) ∧
    rowsOf (getSubMapOnFullMesh dofs sel).dofs sel = (getSubMap dofs sel).dofs ∧
    (getSubMapOnFullMesh dofs sel).numDofs = (getSubMap dofs sel).numDofs := by
  classical
  let ind : Int → Bool := fun d => decide (d ∈ (rowsOf dofs sel).flatten)
  have e1 : resetRows (fun _ => true) start (rowsOf dofs sel) = resetRows ind start (rowsOf dofs sel) :=
    resetRows_congr _ _ fun d hd _ => by simp only [ind, hd, decide_true]
  obtain ⟨h1, h2⟩ := resetRows_spec ind (rowsOf dofs sel) start (start_ok _)
  have e2 : resetRows (fun _ => false) (resetRows ind start (rowsOf dofs sel)).2 dofs =
      resetRows ind (resetRows ind start (rowsOf dofs sel)).2 dofs :=
    resetRows_congr _ _ fun d _ hn => by
      by_cases q : d ∈ (rowsOf dofs sel).flatten
      · obtain ⟨v, hv⟩ := h1.seen d q; rw [hv] at hn; cases hn
      · simp only [ind, q, decide_false]
  obtain ⟨h3, h4⟩ := resetRows_spec ind dofs _ h1.ok
  have hsub : ∀ d ∈ (rowsOf dofs sel).flatten, d ∈ dofs.flatten := by
    intro d hd
    obtain ⟨r, hr, hd⟩ := List.mem_flatten.1 hd
    obtain ⟨c, hc, rfl⟩ := List.mem_map.1 hr
    have hlt := hsel c hc
    refine List.mem_flatten.2 ⟨dofs.getD c [], ?_, hd⟩
    rw [List.getD_eq_getElem _ _ hlt]
    exact List.getElem_mem hlt
  have h5 : start.After ind (resetRows ind (resetRows ind start (rowsOf dofs sel)).2 dofs).2 dofs.flatten := by
    have := h1.trans h3
    refine ⟨this.ok, this.mono, fun d hd => this.seen d (List.mem_append.2 (Or.inr hd)), fun d v h => ?_⟩
    rcases this.only d v h with q | q
    · exact Or.inl q
    · refine Or.inr ?_
      rcases List.mem_append.1 q with q | q
      · exact hsub d q
      · exact q
  obtain ⟨f1, f2, f3⟩ := finished h5
  have e3 : getSubMap dofs sel = ⟨(resetRows ind start (rowsOf dofs sel)).1, (resetRows ind start (rowsOf dofs sel)).2.dofNew.toNat,
      -(resetRows ind start (rowsOf dofs sel)).2.dofNewBoundary - 1⟩ := by
    unfold getSubMap; dsimp only; rw [e1]
  have e4 : getSubMapOnFullMesh dofs sel = ⟨(resetRows ind (resetRows ind start (rowsOf dofs sel)).2 dofs).1,
      (resetRows ind (resetRows ind start (rowsOf dofs sel)).2 dofs).2.dofNew.toNat,
      -(resetRows ind (resetRows ind start (rowsOf dofs sel)).2 dofs).2.dofNewBoundary - 1⟩ := by
    unfold getSubMapOnFullMesh; dsimp only; rw [e1, e2]
  rw [e3, e4]
  refine ⟨⟨_, ⟨h4, f1, f3⟩, fun d hd => ?_⟩, ?_, ?_⟩
  · rw [f2 d hd]
    simp only [ind, decide_eq_true_eq]
  · dsimp only
    rw [h2, h4]
    unfold rowsOf
    rw [List.map_map]
    refine List.map_congr_left fun c hc => ?_
    have hlt := hsel c hc
    rw [List.getD_eq_getElem _ _ (by simpa using hlt), List.getElem_map, Function.comp, List.getD_eq_getElem _ _ hlt]
    refine List.map_congr_left fun d hd => ?_
    obtain ⟨v, hv⟩ := h1.seen d (List.mem_flatten.2 ⟨_, List.mem_map.2 ⟨c, hc, rfl⟩, by rwa [List.getD_eq_getElem _ _ hlt]⟩)
    have e := h3.mono d v hv
    unfold rowsOf at hv e
    rw [hv, e]
  · dsimp only
    have a1 := h1.ok.new
    have a2 := h3.ok.new
    have a3 : (resetRows ind (resetRows ind start (rowsOf dofs sel)).2 dofs).2.dofNew ≤ (resetRows ind start (rowsOf dofs sel)).2.dofNew := by
      by_contra hlt
      have b := h1.ok.bnd
      have b' := h3.ok.bnd
      obtain ⟨d, hd⟩ := h3.ok.onto (resetRows ind start (rowsOf dofs sel)).2.dofNew (by omega) (by omega)
      have hs := (h3.ok.sign d _ hd).1 a1
      simp only [ind, decide_eq_true_eq] at hs
      obtain ⟨v, hv⟩ := h1.seen d hs.2
      rw [h3.mono d v hv] at hd
      cases hd
      have := (h1.ok.range d _ hv).2
      omega
    have a4 : (resetRows ind start (rowsOf dofs sel)).2.dofNew ≤ (resetRows ind (resetRows ind start (rowsOf dofs sel)).2 dofs).2.dofNew := by
      by_contra hlt
      have b := h1.ok.bnd
      have b' := h3.ok.bnd
      obtain ⟨d, hd⟩ := h1.ok.onto (resetRows ind (resetRows ind start (rowsOf dofs sel)).2 dofs).2.dofNew (by omega) (by omega)
      have := (h3.ok.range d _ (h3.mono d _ hd)).2
      omega
    omega

/-! ### Restriction and prolongation -/

/-- `R` takes the coefficient of `d` to the place `f d`. -/
structure Restricts {K : Type} [AddMonoidWithOne K] (R : CSR K) (n : Nat) (sub : Map) (rows : List (List Int)) (f : Int → Int) : Prop where
  valid : R.Valid
  numRows : R.numRows = sub.numDofs
  numCols : R.numCols = n
  entry : ∀ d ∈ rows.flatten, 0 ≤ f d → ∀ j : Nat, R.entry (f d).toNat j = if d = (j : Int) then 1 else 0

theorem pick_restricts {K : Type} [AddMonoidWithOne K] {n : Nat} {sub : Map} {rows : List (List Int)} {f : Int → Int}
    (hf : Renamed rows sub f) (hb : 0 ≤ sub.numBoundaryDofs) (hsign : ∀ d ∈ rows.flatten, 0 ≤ f d → 0 ≤ d) (hn : ∀ d ∈ rows.flatten, d < n)
    {ind : List Int} (hl : ind.length = sub.numDofs)
    (hw : ∀ e : Nat, e < ind.length → ∃ d ∈ rows.flatten, f d = e ∧ ind.getD e 0 = d) :
    Restricts (pick sub.numDofs n ind : CSR K) n sub rows f := by
  refine ⟨pick_valid hl fun d hd => ?_, rfl, rfl, fun d hd h0 j => ?_⟩
  · obtain ⟨e, he, rfl⟩ := List.getElem_of_mem hd
    obtain ⟨d', hd', h1, h2⟩ := hw e he
    rw [List.getD_eq_getElem _ _ he] at h2
    rw [h2]
    exact ⟨hsign d' hd' (by omega), hn d' hd'⟩
  · have hlt := (hf.gapless (f d)).2 ⟨d, hd, rfl⟩
    rw [pick_entry hl _ _ (by omega)]
    obtain ⟨d', hd', h1, h2⟩ := hw (f d).toNat (by omega)
    have : d' = d := hf.inj d' hd' d hd (by rw [h1]; omega)
    subst this
    rw [h2]
    have := hsign d' hd' h0
    by_cases q : d' = (j : Int)
    · rw [if_pos q, if_pos (by omega)]
    · rw [if_neg q, if_neg (by omega)]

/-- The restriction of `meshSplitter`, whatever the new array held. -/
theorem restriction {K : Type} [AddMonoidWithOne K] (dm : Map) (sel : List Nat) (hsel : ∀ c ∈ sel, c < dm.dofs.length)
    (hn : ∀ d ∈ dm.dofs.flatten, d < dm.numDofs) (mem : List Int) (hm : mem.length = (getSubMap dm.dofs sel).numDofs)
    {f : Int → Int} (hf : Renamed (rowsOf dm.dofs sel) (getSubMap dm.dofs sel) f)
    (hsign : ∀ d ∈ (rowsOf dm.dofs sel).flatten, (0 ≤ f d ↔ 0 ≤ d)) :
    Restricts (restriction2 mem dm (getSubMap dm.dofs sel) sel : CSR K) dm.numDofs (getSubMap dm.dofs sel) (rowsOf dm.dofs sel) f := by
  obtain ⟨w1, w2⟩ := writeIndex_fold (written dm.dofs ((rowsOf dm.dofs sel).map fun r => r.map f) (cellIndices dm.dofs.length sel)) mem
  have hb : 0 ≤ (getSubMap dm.dofs sel).numBoundaryDofs := by
    have := (resetRows_spec (fun _ => true) (rowsOf dm.dofs sel) start (start_ok _)).1.ok.bnd
    simp only [getSubMap]
    omega
  unfold restriction2
  rw [indices2_eq, hf.dofs]
  refine pick_restricts hf hb (fun d hd => (hsign d hd).1) (fun d hd => hn d ?_) (by rw [w1, hm]) fun e he => ?_
  · obtain ⟨r, hr, hd⟩ := List.mem_flatten.1 hd
    obtain ⟨c, hc, rfl⟩ := List.mem_map.1 hr
    have hlt := hsel c hc
    refine List.mem_flatten.2 ⟨dm.dofs.getD c [], ?_, hd⟩
    rw [List.getD_eq_getElem _ _ hlt]
    exact List.getElem_mem hlt
  · rw [w1] at he
    rcases w2 e he with ⟨_, h2⟩ | ⟨p, hp, h2, h3⟩
    · obtain ⟨d, hd, h4⟩ := (hf.gapless (e : Int)).1 (by omega)
      exact absurd h4 (h2 (f d, d) ((mem_written hsel f _).2 ⟨d, hd, rfl⟩))
    · obtain ⟨d, hd, rfl⟩ := (mem_written hsel f p).1 hp
      exact ⟨d, hd, h2, h3⟩

/-- The restriction of two maps on one mesh (`dofmapSplitter`, and `meshSplitter` with the map on the full mesh). -/
theorem restriction_same_mesh {K : Type} [AddMonoidWithOne K] (dm sub : Map) {f : Int → Int} (hf : Renamed dm.dofs sub f)
    (hb : 0 ≤ sub.numBoundaryDofs) (hsign : ∀ d ∈ dm.dofs.flatten, 0 ≤ f d → 0 ≤ d) (hn : ∀ d ∈ dm.dofs.flatten, d < dm.numDofs) :
    ∃ R : CSR K, restriction1 dm sub = some R ∧ Restricts R dm.numDofs sub dm.dofs f := by
  have hp : pairs dm.dofs sub.dofs = dm.dofs.flatten.map fun d => (d, f d) := by rw [hf.dofs]; exact mem_pairs _ _
  obtain ⟨c1, c2, c3⟩ := countOne_fold (pairs dm.dofs sub.dofs) ([], 0) List.nodup_nil rfl (by simp)
  have hk : ((pairs dm.dofs sub.dofs).foldl countOne ([], 0)).2 = sub.numDofs := by
    rw [← c2]
    have hperm : ((pairs dm.dofs sub.dofs).foldl countOne ([], 0)).1.Perm ((List.range sub.numDofs).map fun k : Nat => (k : Int)) := by
      refine (List.perm_ext_iff_of_nodup c1 (List.Nodup.map (fun a b h => by simpa using h) List.nodup_range)).2 fun v => ?_
      rw [c3, hp]
      simp only [List.not_mem_nil, false_or, List.mem_map, List.mem_range]
      constructor
      · rintro ⟨p, ⟨d, hd, rfl⟩, _, h2, rfl⟩
        have := (hf.gapless (f d)).2 ⟨d, hd, rfl⟩
        dsimp only at h2 ⊢
        exact ⟨(f d).toNat, by omega, by omega⟩
      · rintro ⟨k, hk, rfl⟩
        obtain ⟨d, hd, h⟩ := (hf.gapless (k : Int)).1 (by omega)
        exact ⟨(d, f d), ⟨d, hd, rfl⟩, hsign d hd (by omega), by dsimp only; omega, h⟩
    rw [hperm.length_eq]
    simp
  obtain ⟨s', i1, i2, _, i4⟩ := indexOne_fold (pairs dm.dofs sub.dofs) ([], List.replicate sub.numDofs 0) (by
    intro p hp' _ h2
    rw [hp] at hp'
    obtain ⟨d, hd, rfl⟩ := List.mem_map.1 hp'
    have := (hf.gapless (f d)).2 ⟨d, hd, rfl⟩
    simp only [List.length_replicate]
    omega)
  simp only [List.length_replicate] at i2 i4
  refine ⟨pick sub.numDofs dm.numDofs s'.2, ?_, pick_restricts hf hb hsign hn i2 fun e he => ?_⟩
  · unfold restriction1
    simp only [hk, i1, Option.bind_eq_bind, Option.bind_some]
  · rw [i2] at he
    obtain ⟨d, hd, h⟩ := (hf.gapless (e : Int)).1 (by omega)
    obtain ⟨q, hq, _, q2, q3⟩ := (i4 e he).2 (by simp) (d, f d) (by rw [hp]; exact List.mem_map.2 ⟨d, hd, rfl⟩) (hsign d hd (by omega)) h
    rw [hp] at hq
    obtain ⟨d', hd', rfl⟩ := List.mem_map.1 hq
    exact ⟨d', hd', q2, q3⟩

/-- The maps of `dofmapSplitter` (`resetUsingFEVector`, C38) and their restriction. -/
theorem restriction_marked {K : Type} [AddMonoidWithOne K] (dm : Map) (ind : Int → Bool) (hn : ∀ d ∈ dm.dofs.flatten, d < dm.numDofs) :
    ∃ f : Int → Int, Renamed dm.dofs (resetUsingFEVector dm.dofs ind) f ∧ (∀ d ∈ dm.dofs.flatten, (0 ≤ f d ↔ 0 ≤ d ∧ ind d = true)) ∧
      ∃ R : CSR K, restriction1 dm (resetUsingFEVector dm.dofs ind) = some R ∧
        Restricts R dm.numDofs (resetUsingFEVector dm.dofs ind) dm.dofs f := by
  obtain ⟨f, h1, h2, h3, h4⟩ := reset_spec dm.dofs ind
  have hf : Renamed dm.dofs (resetUsingFEVector dm.dofs ind) f := ⟨h1, fun d hd d' hd' => (h2 d d' hd hd').1, h4⟩
  have hb : 0 ≤ (resetUsingFEVector dm.dofs ind).numBoundaryDofs := by
    have := (resetRows_spec ind dm.dofs start (start_ok _)).1.ok.bnd
    unfold start at this
    simp only [resetUsingFEVector]
    omega
  exact ⟨f, hf, h3, restriction_same_mesh dm _ hf hb (fun d hd h => ((h3 d hd).1 h).1) hn⟩

/-- What a restriction does with the coefficients. -/
theorem restricted_values {K : Type} [CommSemiring K] {R : CSR K} {n : Nat} {sub : Map} {rows : List (List Int)} {f : Int → Int}
    (hf : Renamed rows sub f) (hsign : ∀ d ∈ rows.flatten, 0 ≤ f d → 0 ≤ d) (hn : ∀ d ∈ rows.flatten, d < n) (h : Restricts R n sub rows f)
    (c : Bool) (u y : List K) (hy : y.length = sub.numDofs) (d : Int) (hd : d ∈ rows.flatten) (h0 : 0 ≤ f d) :
    (matvec c R u y).getD (f d).toNat 0 = u.getD d.toNat 0 := by
  have hlt := (hf.gapless (f d)).2 ⟨d, hd, rfl⟩
  have := hsign d hd h0
  have := hn d hd
  rw [(C08.matvec_correct c R h.valid u y (by rw [h.numRows]; exact hy)).2 _ (by rw [h.numRows]; omega), mulVec,
    Finset.sum_eq_single d.toNat]
  · rw [h.entry d hd h0, if_pos (by omega), one_mul]
  · intro j _ hj
    rw [h.entry d hd h0, if_neg (by omega), zero_mul]
  · intro hh
    rw [h.numCols] at hh
    exact absurd (Finset.mem_range.2 (by omega)) hh

/-- The transposed matrix is the extension by zero. -/
theorem prolonged_values {K : Type} [CommSemiring K] {R : CSR K} {n : Nat} {sub : Map} {rows : List (List Int)} {f : Int → Int}
    (hf : Renamed rows sub f) (hb : 0 ≤ sub.numBoundaryDofs) (h : Restricts R n sub rows f) (m1 : List Nat) (m2 : List K)
    (hm1 : m1.length = R.indices.length) (hm2 : m2.length = R.indices.length) (c : Bool) (w y : List K) (hy : y.length = n)
    (j : Nat) (hj : j < n) :
    (matvec c (transpose R m1 m2) w y).getD j 0 =
      if (j : Int) ∈ rows.flatten ∧ 0 ≤ f j then w.getD (f j).toNat 0 else 0 := by
  obtain ⟨t1, t2, t3, _, t5⟩ := C09.transpose_correct R h.valid m1 m2 hm1 hm2
  have hr := h.numRows
  have hc := h.numCols
  rw [(C08.matvec_correct c _ t3 w y (by rw [t1, hc, hy])).2 j (by omega), mulVec]
  have he : ∀ i ∈ Finset.range (transpose R m1 m2).numCols, (transpose R m1 m2).entry j i * w.getD i 0 =
      if (j : Int) ∈ rows.flatten ∧ f j = (i : Int) then w.getD i 0 else 0 := by
    intro i hi
    rw [Finset.mem_range, t2] at hi
    rw [t5 i j hi (by omega)]
    obtain ⟨d, hd, hfd⟩ := (hf.gapless (i : Int)).1 (by omega)
    have e := h.entry d hd (by omega) j
    rw [hfd, Int.toNat_natCast] at e
    rw [e]
    by_cases q : d = (j : Int)
    · subst q
      rw [if_pos rfl, if_pos ⟨hd, hfd⟩, one_mul]
    · rw [if_neg q, zero_mul, if_neg]
      rintro ⟨a, b⟩
      exact q (hf.inj d hd _ a (by rw [hfd, b]))
  rw [Finset.sum_congr rfl he]
  by_cases q : (j : Int) ∈ rows.flatten ∧ 0 ≤ f j
  · rw [if_pos q]
    have hlt := (hf.gapless (f j)).2 ⟨_, q.1, rfl⟩
    rw [Finset.sum_eq_single (f j).toNat]
    · rw [if_pos ⟨q.1, by omega⟩]
    · intro i _ hi
      rw [if_neg]
      rintro ⟨_, b⟩
      omega
    · intro hh
      rw [t2, hr] at hh
      exact absurd (Finset.mem_range.2 (by omega)) hh
  · rw [if_neg q]
    refine Finset.sum_eq_zero fun i _ => ?_
    rw [if_neg]
    rintro ⟨a, b⟩
    exact q ⟨a, by omega⟩

/-! ### Subdomains -/

theorem subdomains (c2s : List Int) :
    ((createSubdomains c2s).isSome ↔ ∃ k : Nat, 0 < k ∧ ∀ v : Int, v ∈ c2s ↔ 0 ≤ v ∧ v < k) ∧
    ∀ g, createSubdomains c2s = some g → ∀ s : Nat, (s : Int) ∈ c2s →
      g.row s = (List.range c2s.length).filter fun c => c2s.getD c (-1) = (s : Int) := by
  have key : (c2s.dedup.min? = some 0 ∧ c2s.dedup.max? = some ((c2s.dedup.length : Int) - 1)) ↔
      ∃ k : Nat, 0 < k ∧ ∀ v : Int, v ∈ c2s ↔ 0 ≤ v ∧ v < k := by
    constructor
    · rintro ⟨h1, h2⟩
      rw [List.min?_eq_some_iff] at h1
      rw [List.max?_eq_some_iff] at h2
      have hpos : 0 < c2s.dedup.length := List.length_pos_of_mem h1.1
      refine ⟨c2s.dedup.length, hpos, ?_⟩
      have hsub : c2s.dedup ⊆ (List.range c2s.dedup.length).map fun k : Nat => (k : Int) := by
        intro v hv
        have a := h1.2 v hv
        have b := h2.2 v hv
        exact List.mem_map.2 ⟨v.toNat, List.mem_range.2 (by omega), by omega⟩
      have hp : c2s.dedup.Perm ((List.range c2s.dedup.length).map fun k : Nat => (k : Int)) :=
        ((List.nodup_dedup c2s).subperm hsub).perm_of_length_le (by simp)
      intro v
      rw [← List.mem_dedup, hp.mem_iff]
      simp only [List.mem_map, List.mem_range]
      constructor
      · rintro ⟨k, hk, rfl⟩; omega
      · rintro ⟨a, b⟩; exact ⟨v.toNat, by omega, by omega⟩
    · rintro ⟨k, hk, h⟩
      have hp : c2s.dedup.Perm ((List.range k).map fun k : Nat => (k : Int)) := by
        refine (List.perm_ext_iff_of_nodup (List.nodup_dedup c2s) (List.Nodup.map (fun a b h => by simpa using h) List.nodup_range)).2 fun v => ?_
        rw [List.mem_dedup, h]
        simp only [List.mem_map, List.mem_range]
        constructor
        · rintro ⟨a, b⟩; exact ⟨v.toNat, by omega, by omega⟩
        · rintro ⟨k, hk, rfl⟩; omega
      have hlen : c2s.dedup.length = k := by rw [hp.length_eq]; simp
      rw [List.min?_eq_some_iff, List.max?_eq_some_iff, hlen]
      refine ⟨⟨List.mem_dedup.2 ((h 0).2 (by omega)), fun b hb => ((h b).1 (List.mem_dedup.1 hb)).1⟩,
        List.mem_dedup.2 ((h _).2 (by omega)), fun b hb => ?_⟩
      have := ((h b).1 (List.mem_dedup.1 hb)).2
      omega
  refine ⟨?_, fun g hg s hs => ?_⟩
  · rw [← key]
    unfold createSubdomains
    dsimp only
    split <;> simp_all
  · unfold createSubdomains at hg
    dsimp only at hg
    split at hg
    · rename_i hcond
      obtain ⟨k, hk, h⟩ := key.1 hcond
      cases hg
      have hmax := (List.max?_eq_some_iff.1 hcond.2).2
      have hb : ∀ v ∈ c2s, 0 ≤ v ∧ v.toNat < c2s.dedup.length := fun v hv => by
        have := hmax v (List.mem_dedup.2 hv)
        have := ((h v).1 hv).1
        omega
      have emap : c2s.map Int.toNat = (List.range c2s.length).map fun c => (c2s.getD c (-1)).toNat := by
        apply List.ext_getElem (by simp)
        intro i h1 h2
        simp only [List.length_map] at h1
        simp only [List.getElem_map, List.getElem_range, List.getD_eq_getElem _ _ h1]
      rw [CellFinder.row_bucketGraph _ _ (fun x hx => ?_) s (by have := hb _ hs; omega), emap, CellFinder.zip_filter]
      · refine List.filter_congr fun c hc => ?_
        rw [List.mem_range] at hc
        have := (hb (c2s.getD c (-1)) (by rw [List.getD_eq_getElem _ _ hc]; exact List.getElem_mem hc)).1
        simp only [decide_eq_decide]
        omega
      · obtain ⟨v, hv, hx⟩ := List.mem_map.1 (List.of_mem_zip (show (x.1, x.2) ∈ _ from hx)).1
        rw [← hx]
        exact (hb v hv).2
    · cases hg

/-! ### The map on the submesh of `dofmapSplitter` -/

/-- The dofs keep their numbers, and all of them are there; those on the boundary are numbered without gaps. -/
theorem kept_map (m : Map) :
    ∃ f : Int → Int, (getSubMapOnSubMesh m).dofs = (rowsOf m.dofs (selected m.dofs)).map (fun r => r.map f) ∧
      (∀ d, 0 ≤ d → f d = d) ∧
      (∀ d ∈ (rowsOf m.dofs (selected m.dofs)).flatten, d < 0 → f d < 0) ∧
      (∀ d ∈ (rowsOf m.dofs (selected m.dofs)).flatten, ∀ d' ∈ (rowsOf m.dofs (selected m.dofs)).flatten, f d = f d' → d = d') ∧
      (∀ v : Int, v < 0 → (-(getSubMapOnSubMesh m).numBoundaryDofs ≤ v ↔ ∃ d ∈ (rowsOf m.dofs (selected m.dofs)).flatten, f d = v)) ∧
      (getSubMapOnSubMesh m).numDofs = m.numDofs ∧
      ∀ d, 0 ≤ d → (d ∈ (rowsOf m.dofs (selected m.dofs)).flatten ↔ d ∈ m.dofs.flatten) := by
  obtain ⟨h1, h2⟩ := keepRows_spec (rowsOf m.dofs (selected m.dofs)) start start_keep
  have neg : ∀ d ∈ (rowsOf m.dofs (selected m.dofs)).flatten, d < 0 → kept (keepRows start (rowsOf m.dofs (selected m.dofs))).2 d < 0 := by
    intro d hd hn
    obtain ⟨v, hv⟩ := h1.seen d hd hn
    unfold kept
    rw [if_pos hn, hv]
    exact (h1.range d v hv).2
  refine ⟨kept (keepRows start (rowsOf m.dofs (selected m.dofs))).2, h2, fun d hd => by unfold kept; rw [if_neg (by omega)], neg,
    fun d hd d' hd' h => ?_, fun v hv => ⟨fun h => ?_, ?_⟩, rfl, fun d hd => ?_⟩
  · by_cases q : d < 0 <;> by_cases q' : d' < 0
    · obtain ⟨v, hv⟩ := h1.seen d hd q
      obtain ⟨v', hv'⟩ := h1.seen d' hd' q'
      unfold kept at h
      rw [if_pos q, if_pos q', hv, hv'] at h
      simp only [Option.getD_some] at h
      subst h
      exact h1.inj d d' v hv hv'
    · have := neg d hd q
      rw [h] at this
      unfold kept at this
      rw [if_neg q'] at this
      omega
    · have := neg d' hd' q'
      rw [← h] at this
      unfold kept at this
      rw [if_neg q] at this
      omega
    · unfold kept at h
      rwa [if_neg q, if_neg q'] at h
  · simp only [getSubMapOnSubMesh] at h
    obtain ⟨d, hd⟩ := h1.onto v (by omega) hv
    rcases h1.only d v hd with q | q
    · cases q
    · exact ⟨d, q.1, by unfold kept; rw [if_pos q.2, hd]; rfl⟩
  · rintro ⟨d, hd, rfl⟩
    by_cases q : d < 0
    · obtain ⟨v, hv⟩ := h1.seen d hd q
      have := h1.range d v hv
      simp only [getSubMapOnSubMesh]
      unfold kept
      rw [if_pos q, hv, Option.getD_some]
      omega
    · unfold kept at hv
      rw [if_neg q] at hv
      omega
  · constructor
    · intro h
      obtain ⟨r, hr, h⟩ := List.mem_flatten.1 h
      obtain ⟨c, hc, rfl⟩ := List.mem_map.1 hr
      have hlt := List.mem_range.1 (List.mem_filter.1 hc).1
      rw [List.getD_eq_getElem _ _ hlt] at h
      exact List.mem_flatten.2 ⟨_, List.getElem_mem hlt, h⟩
    · intro h
      obtain ⟨r, hr, h⟩ := List.mem_flatten.1 h
      obtain ⟨c, hc, rfl⟩ := List.getElem_of_mem hr
      refine List.mem_flatten.2 ⟨m.dofs.getD c [], List.mem_map.2 ⟨c, ?_, rfl⟩, by rw [List.getD_eq_getElem _ _ hc]; exact h⟩
      unfold selected
      rw [List.mem_filter, List.mem_range]
      refine ⟨hc, List.any_eq_true.2 ⟨d, by rw [List.getD_eq_getElem _ _ hc]; exact h, by simpa using hd⟩⟩

/-! ### Tags -/

/-- Vertices and edges of the boundary of the submesh have the tag they had, and the default tag if they are new. -/
theorem tags {κ : Type} [DecidableEq κ] (old new : List (κ × Int)) (ho : (old.map Prod.fst).Nodup) (hn : (new.map Prod.fst).Nodup)
    (i : Nat) (hi : i < new.length) :
    (∀ t, (new[i].1, t) ∈ old → (copyTags old new)[i]? = some t) ∧
    (new[i].1 ∉ old.map Prod.fst → (copyTags old new)[i]? = some new[i].2) := by
  have e : (copyTags old new)[i]? = some ((tagTable old new[i].1).getD new[i].2) := by
    unfold copyTags
    rw [popTags_spec new _ hn, List.getElem?_map, List.getElem?_eq_getElem hi]
    rfl
  rw [e]
  refine ⟨fun t ht => ?_, fun h => ?_⟩
  · rw [(tagTable_spec old ho _ t).2 ht]
    rfl
  · cases q : tagTable old new[i].1 with
    | none => rfl
    | some t => exact absurd (List.mem_map.2 ⟨_, (tagTable_spec old ho _ t).1 q, rfl⟩) h

/-- The tags of faces are lost, whatever is read behind the array `e`: the two faces 012 and 013 of a tetrahedron have the tags 1 and 2
and stay on the boundary, but then have the tag 2 and the default tag. -/
theorem face_tags_fails (e : Nat × Nat) (beyond : Nat → Nat) :
    copyFaceTags e beyond [((0, 1, 2), 1), ((0, 1, 3), 2)] [((0, 1, 2), 0), ((0, 1, 3), 0)] = [2, 0] := by
  simp [copyFaceTags, copyTags, tagTable, popTags]

/-! ### Restriction with an indicator -/

/-- With an indicator the rows are the marked dofs in increasing order.
Missing for the full property: that this is the order of the sub map, see `indicator_fails`. -/
theorem indicator_rows_partial {K : Type} [One K] (dm sub : Map) (ind : Nat → Bool)
    (hc : ((List.range dm.numDofs).filter ind).length = sub.numDofs) :
    restrictionIndicator (K := K) dm sub ind =
      some (pick sub.numDofs dm.numDofs (((List.range dm.numDofs).filter ind).map fun i : Nat => (i : Int))) := by
  have key : ∀ (l : List Nat) (done : List Int) (rest : List Int), (l.filter ind).length = rest.length →
      l.foldlM (fun (s : Nat × List Int) i =>
        if ind i then (if s.1 < s.2.length then some (s.1 + 1, s.2.set s.1 (i : Int)) else none) else some s) (done.length, done ++ rest) =
        some (done.length + rest.length, done ++ (l.filter ind).map fun i : Nat => (i : Int)) := by
    intro l
    induction l with
    | nil =>
      intro done rest h
      have : rest = [] := List.length_eq_zero_iff.1 h.symm
      subst this
      rfl
    | cons a l ih =>
      intro done rest h
      rw [List.foldlM_cons]
      by_cases q : ind a = true
      · cases rest with
        | nil => simp [q] at h
        | cons b rest =>
          simp only [q, if_true, List.length_append, List.length_cons, Option.bind_eq_bind]
          rw [if_pos (by omega), Option.bind_some]
          have e : (done ++ b :: rest).set done.length (a : Int) = (done ++ [(a : Int)]) ++ rest := by simp
          have := ih (done ++ [(a : Int)]) rest (by simpa [q] using h)
          rw [e]
          simp only [List.length_append, List.length_cons, List.length_nil, Nat.zero_add] at this
          rw [this]
          simp [q]
          omega
      · simp only [q, Bool.false_eq_true, if_false, Option.bind_eq_bind, Option.bind_some]
        rw [ih done rest (by simpa [q] using h)]
        simp [q]
  unfold restrictionIndicator
  have := key (List.range dm.numDofs) [] (List.replicate sub.numDofs 0) (by simp [hc])
  simp only [List.length_nil, List.nil_append] at this
  simp only [this, Option.bind_eq_bind, Option.bind_some]

/-- Two dofs in the order 1, 0 (as after sorting by coordinates), both marked: the sub map calls dof 1 its dof 0, but row 0 of the
restriction takes dof 0. Without the indicator row 0 takes dof 1. -/
theorem indicator_fails :
    (resetUsingFEVector [[1, 0]] fun _ => true).dofs = [[0, 1]] ∧
    (restrictionIndicator (K := Int) ⟨[[1, 0]], 2, 0⟩ (resetUsingFEVector [[1, 0]] fun _ => true) fun _ => true).map (·.indices) = some [0, 1] ∧
    (restriction1 (K := Int) ⟨[[1, 0]], 2, 0⟩ (resetUsingFEVector [[1, 0]] fun _ => true)).map (·.indices) = some [1, 0] := by
  decide +kernel

/-! ### A case -/

/-- Three intervals with linear functions, the first vertex on the boundary; the last two intervals are selected. -/
def sample : Map := ⟨[[-1, 0], [0, 1], [1, 2]], 3, 1⟩

theorem sample_case :
    (∀ c ∈ [2, 1], c < sample.dofs.length) ∧ (∀ d ∈ sample.dofs.flatten, d < sample.numDofs) ∧
    (getSubMap sample.dofs [2, 1]).dofs = [[0, 1], [2, 0]] ∧ (getSubMap sample.dofs [2, 1]).numDofs = 3 ∧
    (getSubMapOnFullMesh sample.dofs [0]).dofs = [[-1, 0], [0, -2], [-2, -3]] ∧
    (restriction2 (K := Int) [7, 7, 7] sample (getSubMap sample.dofs [2, 1]) [2, 1]).indices = [1, 2, 0] ∧
    (getSubMapOnSubMesh (getSubMapOnFullMesh sample.dofs [0])).dofs = [[-1, 0], [0, -2]] ∧
    (createSubdomains [1, 0, 1]).map (fun g => (g.row 0, g.row 1)) = some ([1], [0, 2]) ∧ createSubdomains [1, 2] = none ∧
    copyTags [((0 : Nat), 5), (1, 6)] [(1, 9), (2, 9)] = [6, 9] := by
  decide +kernel

end PyNucleus.Props.C84
