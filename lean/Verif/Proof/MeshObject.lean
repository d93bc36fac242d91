import Verif.Spec.MeshObject
import Mathlib.Data.List.Induction
import Mathlib.Data.List.GetD

/-!
# Helper lemmas on mesh objects
-/

namespace PyNucleus.MeshObject

variable {P T : Type} (F : Compute P) (m : Obj P T)

/-- `m'` answers all questions like `m`, has the same transformer, and stays consistent. -/
structure Same (F : Compute P) (m m' : Obj P T) : Prop where
  answers : answers F m' = answers F m
  transformer : m'.transformer = m.transformer
  interior : m'.interior = m.interior
  consistent : Consistent m → Consistent m'

theorem Same.rfl' : Same F m m := ⟨rfl, rfl, rfl, id⟩

variable {F m} in
theorem Same.trans {m' m'' : Obj P T} (h : Same F m m') (h' : Same F m' m'') : Same F m m'' :=
  ⟨h'.answers.trans h.answers, h'.transformer.trans h.transformer, h'.interior.trans h.interior,
    h'.consistent ∘ h.consistent⟩

theorem getBF_fst : (getBF F m).1 = facesOf F m := by
  unfold getBF facesOf
  cases m.bf <;> simp

theorem getBF_bf : (getBF F m).2.bf = some (facesOf F m) := by
  unfold getBF facesOf
  cases h : m.bf <;> simp [h]

theorem getBF_eq : (getBF F m).2 = { m with bf := some (facesOf F m) } := by
  unfold getBF facesOf
  cases h : m.bf
  · simp
  · simp only [Option.getD_some]; rw [← h]

theorem same_bf (l : List Face) (hl : l = facesOf F m) : Same F m { m with bf := some l } := by
  subst hl
  refine ⟨?_, rfl, rfl, fun h => ⟨h.vertices, h.edges, ?_⟩⟩
  · simp [MeshObject.answers, verticesOf, edgesOf, facesOf]
  · intro t ht
    obtain ⟨l, hl, hlen⟩ := h.faces t ht
    exact ⟨facesOf F m, rfl, by simp [facesOf, hl, hlen]⟩

theorem same_be (l : List Edge) (hl : l = edgesOf F m) : Same F m { m with be := some l } := by
  subst hl
  refine ⟨?_, rfl, rfl, fun h => ⟨h.vertices, ?_, h.faces⟩⟩
  · simp [MeshObject.answers, verticesOf, edgesOf, facesOf]
  · intro t ht
    obtain ⟨l, hl, hlen⟩ := h.edges t ht
    exact ⟨edgesOf F m, rfl, by simp [edgesOf, hl, hlen]⟩

theorem same_bv (l : List Nat) (hl : l = verticesOf F m) : Same F m { m with bv := some l } := by
  subst hl
  refine ⟨?_, rfl, rfl, fun h => ⟨?_, h.edges, h.faces⟩⟩
  · simp [MeshObject.answers, verticesOf, edgesOf, facesOf]
  · intro t ht
    obtain ⟨l, hl, hlen⟩ := h.vertices t ht
    exact ⟨verticesOf F m, rfl, by simp [verticesOf, hl, hlen]⟩

theorem same_getBF : Same F m (getBF F m).2 := by
  rw [getBF_eq]; exact same_bf F m _ rfl

theorem edges_of_same {m' : Obj P T} (h : Same F m m') : edgesOf F m' = edgesOf F m :=
  congrArg Answers.be h.answers

theorem vertices_of_same {m' : Obj P T} (h : Same F m m') : verticesOf F m' = verticesOf F m :=
  congrArg Answers.bv h.answers

theorem faces_of_same {m' : Obj P T} (h : Same F m m') : facesOf F m' = facesOf F m :=
  congrArg Answers.bf h.answers

theorem getBE_spec : (getBE F m).1 = edgesOf F m ∧ Same F m (getBE F m).2 ∧
    (getBE F m).2.be = some (edgesOf F m) := by
  unfold getBE
  cases h : m.be with
  | some e =>
    have : edgesOf F m = e := by simp [edgesOf, h]
    exact ⟨this.symm, Same.rfl' F m, by rw [this]; exact h⟩
  | none =>
    dsimp only
    split
    · next h1 =>
      have : edgesOf F m = [] := by simp [edgesOf, h, h1]
      exact ⟨this.symm, same_be F m _ this.symm, by rw [this]⟩
    · next h1 =>
      split
      · next h2 =>
        have : edgesOf F m = F.edges m.cells := by simp [edgesOf, h, h2]
        exact ⟨this.symm, same_be F m _ this.symm, by rw [this]⟩
      · next h2 =>
        have : edgesOf F m = F.edgesOfFaces (getBF F m).1 := by
          rw [getBF_fst]; simp [edgesOf, h, h1, h2]
        refine ⟨this.symm, (same_getBF F m).trans (same_be F _ _ ?_), by rw [this]⟩
        rw [edges_of_same F m (same_getBF F m), this]

theorem getBV_spec : (getBV F m).1 = verticesOf F m ∧ Same F m (getBV F m).2 ∧
    (getBV F m).2.bv = some (verticesOf F m) := by
  unfold getBV
  cases h : m.bv with
  | some e =>
    have : verticesOf F m = e := by simp [verticesOf, h]
    exact ⟨this.symm, Same.rfl' F m, by rw [this]; exact h⟩
  | none =>
    dsimp only
    split
    · next h1 =>
      obtain ⟨a, b, -⟩ := getBE_spec F m
      have : verticesOf F m = F.verticesOfEdges (getBE F m).1 := by
        rw [a]; simp [verticesOf, h, h1]
      refine ⟨this.symm, b.trans (same_bv F _ _ ?_), by rw [this]⟩
      rw [vertices_of_same F m b, this]
    · next h1 =>
      have : verticesOf F m = F.vertices m.cells := by simp [verticesOf, h, h1]
      exact ⟨this.symm, same_bv F m _ this.symm, by rw [this]⟩

theorem getBVTags_spec : (getBVTags F m).1 = (answers F m).bvTags ∧ Same F m (getBVTags F m).2 := by
  unfold getBVTags
  cases h : m.bvTags with
  | some t => exact ⟨by simp [answers, h], Same.rfl' F m⟩
  | none =>
    obtain ⟨a, b, c⟩ := getBV_spec F m
    have h2 : (getBV F m).2.bvTags = none ∨ True := Or.inr trivial
    dsimp only
    have e : (answers F m).bvTags = List.replicate (verticesOf F m).length 0 := by
      simp [answers, h]
    refine ⟨by rw [a, e]; rfl, b.trans ⟨?_, rfl, rfl, fun hc => ⟨?_, hc.edges, hc.faces⟩⟩⟩
    · have hb := b.answers
      have h1 := congrArg Answers.bvTags hb
      rw [e] at h1
      have : answers F { (getBV F m).2 with bvTags := some (List.replicate (getBV F m).1.length PHYSICAL) }
          = { answers F (getBV F m).2 with
              bvTags := List.replicate (getBV F m).1.length PHYSICAL } := rfl
      rw [this, a]
      show _ = answers F (getBV F m).2
      have : List.replicate (verticesOf F m).length PHYSICAL = (answers F (getBV F m).2).bvTags := h1.symm
      rw [this]
    · intro t ht
      refine ⟨_, c, ?_⟩
      cases ht
      simp [a]

theorem getBETags_spec : (getBETags F m).1 = (answers F m).beTags ∧ Same F m (getBETags F m).2 := by
  unfold getBETags
  cases h : m.beTags with
  | some t => exact ⟨by simp [answers, h], Same.rfl' F m⟩
  | none =>
    obtain ⟨a, b, c⟩ := getBE_spec F m
    dsimp only
    have e : (answers F m).beTags = List.replicate (edgesOf F m).length 0 := by
      simp [answers, h]
    refine ⟨by rw [a, e]; rfl, b.trans ⟨?_, rfl, rfl, fun hc => ⟨hc.vertices, ?_, hc.faces⟩⟩⟩
    · have h1 := congrArg Answers.beTags b.answers
      rw [e] at h1
      have : answers F { (getBE F m).2 with beTags := some (List.replicate (getBE F m).1.length PHYSICAL) }
          = { answers F (getBE F m).2 with
              beTags := List.replicate (getBE F m).1.length PHYSICAL } := rfl
      rw [this, a]
      have : List.replicate (edgesOf F m).length PHYSICAL = (answers F (getBE F m).2).beTags := h1.symm
      rw [this]
    · intro t ht
      refine ⟨_, c, ?_⟩
      cases ht
      simp [a]

theorem getBFTags_spec : (getBFTags F m).1 = (answers F m).bfTags ∧ Same F m (getBFTags F m).2 := by
  unfold getBFTags
  cases h : m.bfTags with
  | some t => exact ⟨by simp [answers, h], Same.rfl' F m⟩
  | none =>
    have a := getBF_fst F m
    have b := same_getBF F m
    have c := getBF_bf F m
    dsimp only
    have e : (answers F m).bfTags = List.replicate (facesOf F m).length 0 := by
      simp [answers, h]
    refine ⟨by rw [a, e]; rfl, b.trans ⟨?_, rfl, rfl, fun hc => ⟨hc.vertices, hc.edges, ?_⟩⟩⟩
    · have h1 := congrArg Answers.bfTags b.answers
      rw [e] at h1
      have : answers F { (getBF F m).2 with bfTags := some (List.replicate (getBF F m).1.length PHYSICAL) }
          = { answers F (getBF F m).2 with
              bfTags := List.replicate (getBF F m).1.length PHYSICAL } := rfl
      rw [this, a]
      have : List.replicate (facesOf F m).length PHYSICAL = (answers F (getBF F m).2).bfTags := h1.symm
      rw [this]
    · intro t ht
      refine ⟨_, c, ?_⟩
      cases ht
      simp [a]

theorem getInterior_spec : (getInterior F m).1 = interiorOf F m ∧
    answers F (getInterior F m).2 = answers F m ∧
    (getInterior F m).2.transformer = m.transformer ∧
    (Consistent m → Consistent (getInterior F m).2) ∧
    interiorOf F (getInterior F m).2 = interiorOf F m := by
  unfold getInterior
  cases h : m.interior with
  | some l => exact ⟨by simp [interiorOf, h], rfl, rfl, id, rfl⟩
  | none =>
    obtain ⟨a, b, -⟩ := getBV_spec F m
    dsimp only
    have e : complement m.vertices.length (getBV F m).1 = interiorOf F m := by
      rw [a]; simp [interiorOf, h, complement]
    refine ⟨e, b.answers, b.transformer, fun hc => ?_, ?_⟩
    · have := b.consistent hc
      exact ⟨this.vertices, this.edges, this.faces⟩
    · show complement m.vertices.length (getBV F m).1 = _
      exact e

theorem interior_of_same {m' : Obj P T} (h : Same F m m') : interiorOf F m' = interiorOf F m := by
  unfold interiorOf
  rw [h.interior, vertices_of_same F m h, show m'.vertices = m.vertices from
    congrArg Answers.vertices h.answers]

theorem ask_spec (q : Question) : answers F (ask F m q) = answers F m ∧
    interiorOf F (ask F m q) = interiorOf F m ∧ (ask F m q).transformer = m.transformer ∧
    (Consistent m → Consistent (ask F m q)) := by
  have key : ∀ m', Same F m m' → answers F m' = answers F m ∧ interiorOf F m' = interiorOf F m ∧
      m'.transformer = m.transformer ∧ (Consistent m → Consistent m') := fun m' h =>
    ⟨h.answers, interior_of_same F m h, h.transformer, h.consistent⟩
  cases q with
  | vertices => exact key _ (getBV_spec F m).2.1
  | vertexTags => exact key _ (getBVTags_spec F m).2
  | edges => exact key _ (getBE_spec F m).2.1
  | edgeTags => exact key _ (getBETags_spec F m).2
  | faces => exact key _ (same_getBF F m)
  | faceTags => exact key _ (getBFTags_spec F m).2
  | interior =>
    obtain ⟨-, a, b, c, d⟩ := getInterior_spec F m
    exact ⟨a, d, b, c⟩

theorem answers_lengths (h : Consistent m) :
    (answers F m).bv.length = (answers F m).bvTags.length ∧
    (answers F m).be.length = (answers F m).beTags.length ∧
    (answers F m).bf.length = (answers F m).bfTags.length := by
  refine ⟨?_, ?_, ?_⟩
  · cases ht : m.bvTags with
    | none => simp [answers, ht]
    | some t => obtain ⟨l, hl, hlen⟩ := h.vertices t ht; simp [answers, ht, verticesOf, hl, hlen]
  · cases ht : m.beTags with
    | none => simp [answers, ht]
    | some t => obtain ⟨l, hl, hlen⟩ := h.edges t ht; simp [answers, ht, edgesOf, hl, hlen]
  · cases ht : m.bfTags with
    | none => simp [answers, ht]
    | some t => obtain ⟨l, hl, hlen⟩ := h.faces t ht; simp [answers, ht, facesOf, hl, hlen]

/-! ### Selection by tag -/

theorem tagMask_go (tags : List Int) (l : List (Option Int)) (f : Int → Bool) :
    l.foldl (fun idx u => (idx.zip (tags.map fun x => decide (some x = u))).map fun p => p.1 || p.2)
      (tags.map f) = tags.map fun x => f x || decide (some x ∈ l) := by
  induction l generalizing f with
  | nil => simp
  | cons u l ih =>
    simp only [List.foldl_cons]
    have : ((tags.map f).zip (tags.map fun x => decide (some x = u))).map (fun p => p.1 || p.2)
        = tags.map fun x => f x || decide (some x = u) := by
      simp [List.zip_map', List.map_map, Function.comp_def]
    rw [this, ih]
    apply List.map_congr_left
    intro x _
    simp [Bool.or_assoc]

theorem tagMask_eq (tags : List Int) (l : List (Option Int)) :
    tagMask tags l = tags.map fun x => decide (some x ∈ l) := by
  cases l with
  | nil => simp [tagMask]
  | cons t l =>
    show List.foldl _ _ _ = _
    rw [tagMask_go]
    apply List.map_congr_left
    intro x _
    simp

open Classical in
theorem mask_eq {α : Type} (l : List α) (tags : List Int) (f : Int → Bool) (a : TagArg)
    (h : ∀ t, f t = true ↔ a.Asks t) : mask l (tags.map f) = selected l tags a := by
  unfold mask selected
  induction l generalizing tags with
  | nil => rfl
  | cons x l ih =>
    cases tags with
    | nil => rfl
    | cons t tags =>
      simp only [List.map_cons, List.zip_cons_cons, List.filter_cons]
      by_cases ht : f t = true
      · simp only [ht, (h t).mp ht, decide_true, if_true, List.map_cons]
        rw [ih]
      · simp only [Bool.not_eq_true] at ht
        have : ¬ a.Asks t := fun hh => by simp [(h t).mpr hh] at ht
        simp only [ht, this, decide_false]
        exact ih tags

open Classical in
theorem selected_all {α : Type} (l : List α) (tags : List Int) (a : TagArg)
    (hl : l.length = tags.length) (h : ∀ t, a.Asks t) : selected l tags a = l := by
  unfold selected
  have : (fun p : α × Int => decide (a.Asks p.2)) = fun _ => true := by
    funext p; simp [h]
  rw [this, List.filter_true, List.map_fst_zip (by omega)]

theorem byTagV_spec (hc : Consistent m) (a : TagArg) (ha : a ≠ .many []) :
    ∃ m', byTagV F m a = some (selected (answers F m).bv (answers F m).bvTags a, m') ∧
      Same F m m' := by
  have hl := (answers_lengths F m hc).1
  cases a with
  | all =>
    refine ⟨(getBV F m).2, ?_, (getBV_spec F m).2.1⟩
    rw [selected_all _ _ .all hl (fun _ => trivial)]
    show some (getBV F m) = _
    rw [← Prod.mk.eta (p := getBV F m), (getBV_spec F m).1]
    rfl
  | one t =>
    have hb := getBV_spec F m
    have ht := getBVTags_spec F (getBV F m).2
    refine ⟨_, ?_, hb.2.1.trans ht.2⟩
    show some (mask _ _, _) = _
    rw [hb.1, ht.1, hb.2.1.answers]
    congr 2
    exact mask_eq _ _ _ _ (fun t => by simp [TagArg.Asks])
  | many l =>
    cases l with
    | nil => exact absurd rfl ha
    | cons t l =>
      cases t with
      | none =>
        refine ⟨(getBV F m).2, ?_, (getBV_spec F m).2.1⟩
        rw [selected_all _ _ (.many (none :: l)) hl (fun _ => Or.inl rfl)]
        show some (getBV F m) = _
        rw [← Prod.mk.eta (p := getBV F m), (getBV_spec F m).1]
        rfl
      | some t =>
        have ht := getBVTags_spec F m
        have hb := getBV_spec F (getBVTags F m).2
        refine ⟨_, ?_, ht.2.trans hb.2.1⟩
        show some (mask _ _, _) = _
        rw [hb.1, ht.1, vertices_of_same F m ht.2, tagMask_eq]
        congr 2
        exact mask_eq _ _ _ _ (fun t => by simp [TagArg.Asks])

theorem byTagE_spec (hc : Consistent m) (a : TagArg) (ha : a ≠ .many [])
    (ha' : ∀ l, a ≠ .many (none :: l)) :
    ∃ m', byTagE F m a = some (selected (answers F m).be (answers F m).beTags a, m') ∧
      Same F m m' := by
  have hl := (answers_lengths F m hc).2.1
  cases a with
  | all =>
    refine ⟨(getBE F m).2, ?_, (getBE_spec F m).2.1⟩
    rw [selected_all _ _ .all hl (fun _ => trivial)]
    show some (getBE F m) = _
    rw [← Prod.mk.eta (p := getBE F m), (getBE_spec F m).1]
    rfl
  | one t =>
    have ht := getBETags_spec F m
    have hb := getBE_spec F (getBETags F m).2
    refine ⟨_, ?_, ht.2.trans hb.2.1⟩
    show some (mask _ _, _) = _
    rw [hb.1, ht.1, edges_of_same F m ht.2, tagMask_eq]
    congr 2
    exact mask_eq _ _ _ _ (fun t => by simp [TagArg.Asks])
  | many l =>
    cases l with
    | nil => exact absurd rfl ha
    | cons t l =>
      cases t with
      | none => exact absurd rfl (ha' l)
      | some t =>
        have ht := getBETags_spec F m
        have hb := getBE_spec F (getBETags F m).2
        refine ⟨_, ?_, ht.2.trans hb.2.1⟩
        show some (mask _ _, _) = _
        rw [hb.1, ht.1, edges_of_same F m ht.2, tagMask_eq]
        congr 2
        exact mask_eq _ _ _ _ (fun t => by simp [TagArg.Asks])

theorem byTagF_spec (hc : Consistent m) (a : TagArg) (ha : a ≠ .many [])
    (ha' : ∀ l, a ≠ .many (none :: l)) :
    ∃ m', byTagF F m a = some (selected (answers F m).bf (answers F m).bfTags a, m') ∧
      Same F m m' := by
  have hl := (answers_lengths F m hc).2.2
  cases a with
  | all =>
    refine ⟨(getBF F m).2, ?_, same_getBF F m⟩
    rw [selected_all _ _ .all hl (fun _ => trivial)]
    show some (getBF F m) = _
    rw [← Prod.mk.eta (p := getBF F m), getBF_fst]
    rfl
  | one t =>
    have ht := getBFTags_spec F (getBF F m).2
    refine ⟨_, ?_, (same_getBF F m).trans ht.2⟩
    show some (mask _ _, _) = _
    rw [getBF_fst, ht.1, (same_getBF F m).answers]
    congr 2
    exact mask_eq _ _ _ _ (fun t => by simp [TagArg.Asks])
  | many l =>
    cases l with
    | nil => exact absurd rfl ha
    | cons t l =>
      cases t with
      | none => exact absurd rfl (ha' l)
      | some t =>
        have ht := getBFTags_spec F m
        refine ⟨_, ?_, ht.2.trans (same_getBF F _)⟩
        show some (mask _ _, _) = _
        rw [getBF_fst, ht.1, faces_of_same F m ht.2, tagMask_eq]
        congr 2
        exact mask_eq _ _ _ _ (fun t => by simp [TagArg.Asks])

open Classical in
theorem selected_sublist {α : Type} (l : List α) (tags : List Int) (a : TagArg) :
    (selected l tags a).Sublist l := by
  unfold selected
  induction l generalizing tags with
  | nil => simp
  | cons x l ih =>
    cases tags with
    | nil => simp
    | cons t tags =>
      simp only [List.zip_cons_cons, List.filter_cons]
      split
      · exact (ih tags).cons_cons x
      · exact (ih tags).cons x

open Classical in
theorem mem_selected {α : Type} (l : List α) (tags : List Int) (a : TagArg) (v : α) :
    v ∈ selected l tags a ↔ ∃ i : Nat, ∃ t, l[i]? = some v ∧ tags[i]? = some t ∧ a.Asks t := by
  unfold selected
  simp only [List.mem_map, List.mem_filter, decide_eq_true_eq]
  constructor
  · rintro ⟨p, ⟨hp, ha⟩, rfl⟩
    obtain ⟨i, hi⟩ := List.getElem?_of_mem hp
    obtain ⟨h1, h2⟩ := List.getElem?_zip_eq_some.mp hi
    exact ⟨i, p.2, h1, h2, ha⟩
  · rintro ⟨i, t, h1, h2, ha⟩
    exact ⟨(v, t), ⟨List.mem_of_getElem? (List.getElem?_zip_eq_some.mpr ⟨h1, h2⟩), ha⟩, rfl⟩

open Classical in
theorem selected_map {α : Type} (l : List α) (f : α → Int) (t : Int) :
    selected l (l.map f) (.one t) = l.filter fun x => decide (f x = t) := by
  unfold selected
  induction l with
  | nil => rfl
  | cons x l ih =>
    simp only [List.map_cons, List.zip_cons_cons, List.filter_cons]
    by_cases h : f x = t
    · simp only [TagArg.Asks, h, decide_true, if_true, List.map_cons] at ih ⊢
      exact congrArg (x :: ·) ih
    · simp only [TagArg.Asks, h, decide_false] at ih ⊢
      exact ih

/-! ### Setting tags -/

theorem setBVTags_spec (t : List Int) (h : t.length = (verticesOf F m).length) :
    ∃ m', setBVTags F m t = some m' ∧ answers F m' = { answers F m with bvTags := t } ∧
      m'.transformer = m.transformer ∧ (Consistent m → Consistent m') := by
  obtain ⟨a, b, c⟩ := getBV_spec F m
  refine ⟨{ (getBV F m).2 with bvTags := some t }, ?_, ?_, b.transformer, fun hc => ?_⟩
  · unfold setBVTags
    simp only
    rw [if_pos (by rw [a, h])]
  · have : answers F { (getBV F m).2 with bvTags := some t }
        = { answers F (getBV F m).2 with bvTags := t } := rfl
    rw [this, b.answers]
  · have := b.consistent hc
    refine ⟨fun u hu => ⟨_, c, ?_⟩, this.edges, this.faces⟩
    cases hu; exact h.symm

theorem setBETags_spec (t : List Int) (h : t.length = (edgesOf F m).length) :
    ∃ m', setBETags F m t = some m' ∧ answers F m' = { answers F m with beTags := t } ∧
      m'.transformer = m.transformer ∧ (Consistent m → Consistent m') := by
  obtain ⟨a, b, c⟩ := getBE_spec F m
  refine ⟨{ (getBE F m).2 with beTags := some t }, ?_, ?_, b.transformer, fun hc => ?_⟩
  · unfold setBETags
    simp only
    rw [if_pos (by rw [a, h])]
  · have : answers F { (getBE F m).2 with beTags := some t }
        = { answers F (getBE F m).2 with beTags := t } := rfl
    rw [this, b.answers]
  · have := b.consistent hc
    refine ⟨this.vertices, fun u hu => ⟨_, c, ?_⟩, this.faces⟩
    cases hu; exact h.symm

theorem setBFTags_spec (t : List Int) (h : t.length = (facesOf F m).length) :
    ∃ m', setBFTags F m t = some m' ∧ answers F m' = { answers F m with bfTags := t } ∧
      m'.transformer = m.transformer ∧ (Consistent m → Consistent m') := by
  have a := getBF_fst F m
  have b := same_getBF F m
  refine ⟨{ (getBF F m).2 with bfTags := some t }, ?_, ?_, b.transformer, fun hc => ?_⟩
  · unfold setBFTags
    simp only
    rw [if_pos (by rw [a, h])]
  · have : answers F { (getBF F m).2 with bfTags := some t }
        = { answers F (getBF F m).2 with bfTags := t } := rfl
    rw [this, b.answers]
  · have := b.consistent hc
    refine ⟨this.vertices, this.edges, fun u hu => ⟨_, getBF_bf F m, ?_⟩⟩
    cases hu; exact h.symm

/-! ### Copies -/

theorem setState_getState (hc : Consistent m) :
    answers F (setState (getState F m)) = answers F m ∧
    (setState (getState F m)).transformer = m.transformer ∧
    Consistent (setState (getState F m)) := by
  have hl := answers_lengths F m hc
  have hv : (setState (getState F m)).bv = m.bv := by
    cases h : m.bv with
    | none => simp [setState, getState, h]
    | some l => simp [setState, getState, h, getBV]
  have he : (setState (getState F m)).be = m.be := by
    cases h : m.be with
    | none => simp [setState, getState, h]
    | some l => simp [setState, getState, h, getBE]
  have hf : (setState (getState F m)).bf = m.bf := by
    cases h : m.bf with
    | none => simp [setState, getState, h]
    | some l => simp [setState, getState, h, getBF]
  have hvt : (setState (getState F m)).bvTags = m.bv.map fun _ => (answers F m).bvTags := by
    cases h : m.bv with
    | none => simp [setState, getState, h]
    | some l => simp [setState, getState, h, (getBVTags_spec F m).1]
  have het : (setState (getState F m)).beTags = m.be.map fun _ => (answers F m).beTags := by
    cases h : m.be with
    | none => simp [setState, getState, h]
    | some l => simp [setState, getState, h, (getBETags_spec F m).1]
  have hft : (setState (getState F m)).bfTags = m.bf.map fun _ => (answers F m).bfTags := by
    cases h : m.bf with
    | none => simp [setState, getState, h]
    | some l => simp [setState, getState, h, (getBFTags_spec F m).1]
  have ef : facesOf F (setState (getState F m)) = facesOf F m := by
    unfold facesOf; rw [hf]; rfl
  have ee : edgesOf F (setState (getState F m)) = edgesOf F m := by
    unfold edgesOf; rw [he, ef]; rfl
  have ev : verticesOf F (setState (getState F m)) = verticesOf F m := by
    unfold verticesOf; rw [hv, ee]; rfl
  refine ⟨?_, rfl, ?_, ?_, ?_⟩
  · have e1 : (setState (getState F m)).bvTags.getD (List.replicate (verticesOf F m).length 0)
        = (answers F m).bvTags := by
      rw [hvt]
      cases h : m.bv with
      | some l => rfl
      | none =>
        cases ht : m.bvTags with
        | none => simp [answers, ht]
        | some t => obtain ⟨l, hl, -⟩ := hc.vertices t ht; simp [h] at hl
    have e2 : (setState (getState F m)).beTags.getD (List.replicate (edgesOf F m).length 0)
        = (answers F m).beTags := by
      rw [het]
      cases h : m.be with
      | some l => rfl
      | none =>
        cases ht : m.beTags with
        | none => simp [answers, ht]
        | some t => obtain ⟨l, hl, -⟩ := hc.edges t ht; simp [h] at hl
    have e3 : (setState (getState F m)).bfTags.getD (List.replicate (facesOf F m).length 0)
        = (answers F m).bfTags := by
      rw [hft]
      cases h : m.bf with
      | some l => rfl
      | none =>
        cases ht : m.bfTags with
        | none => simp [answers, ht]
        | some t => obtain ⟨l, hl, -⟩ := hc.faces t ht; simp [h] at hl
    unfold answers at e1 e2 e3 ⊢
    rw [ef, ee, ev, e1, e2, e3]
    rfl
  · intro t ht
    rw [hvt] at ht
    cases h : m.bv with
    | none => simp [h] at ht
    | some l =>
      simp only [h, Option.map_some, Option.some.injEq] at ht
      refine ⟨l, by rw [hv, h], ?_⟩
      have := hl.1
      rw [ht] at this
      simpa [answers, verticesOf, h] using this
  · intro t ht
    rw [het] at ht
    cases h : m.be with
    | none => simp [h] at ht
    | some l =>
      simp only [h, Option.map_some, Option.some.injEq] at ht
      refine ⟨l, by rw [he, h], ?_⟩
      have := hl.2.1
      rw [ht] at this
      simpa [answers, edgesOf, h] using this
  · intro t ht
    rw [hft] at ht
    cases h : m.bf with
    | none => simp [h] at ht
    | some l =>
      simp only [h, Option.map_some, Option.some.injEq] at ht
      refine ⟨l, by rw [hf, h], ?_⟩
      have := hl.2.2
      rw [ht] at this
      simpa [answers, facesOf, h] using this

theorem setBVTags_of_bv (l : List Nat) (h : m.bv = some l) (t : List Int) (ht : t.length = l.length) :
    setBVTags F m t = some { m with bvTags := some t } := by
  have : getBV F m = (l, m) := by simp [getBV, h]
  simp [setBVTags, this, ht]

theorem setBETags_of_be (l : List Edge) (h : m.be = some l) (t : List Int)
    (ht : t.length = l.length) : setBETags F m t = some { m with beTags := some t } := by
  have : getBE F m = (l, m) := by simp [getBE, h]
  simp [setBETags, this, ht]

theorem setBFTags_of_bf (l : List Face) (h : m.bf = some l) (t : List Int)
    (ht : t.length = l.length) : setBFTags F m t = some { m with bfTags := some t } := by
  have : getBF F m = (l, m) := by simp [getBF, h]
  simp [setBFTags, this, ht]

theorem hdf5_eq (hc : Consistent m) :
    (hdf5read F (hdf5write m) : Option (Obj P T)) = some { copy m with transformer := none } := by
  obtain ⟨md, vs, cs, tr, bv, bvt, be, bet, bf, bft, bc, int⟩ := m
  have s1 : ∀ x : Obj P T, x.bv = bv → (∀ t, bvt = some t → setBVTags F x t
      = some { x with bvTags := some t }) := fun x hx t ht => by
    obtain ⟨l, hl, hlen⟩ := hc.vertices t ht
    exact setBVTags_of_bv F x l (hx.trans hl) t hlen.symm
  have s2 : ∀ x : Obj P T, x.be = be → (∀ t, bet = some t → setBETags F x t
      = some { x with beTags := some t }) := fun x hx t ht => by
    obtain ⟨l, hl, hlen⟩ := hc.edges t ht
    exact setBETags_of_be F x l (hx.trans hl) t hlen.symm
  have s3 : ∀ x : Obj P T, x.bf = bf → (∀ t, bft = some t → setBFTags F x t
      = some { x with bfTags := some t }) := fun x hx t ht => by
    obtain ⟨l, hl, hlen⟩ := hc.faces t ht
    exact setBFTags_of_bf F x l (hx.trans hl) t hlen.symm
  unfold hdf5read hdf5write copy
  cases bv <;> cases bvt <;> cases be <;> cases bet <;> cases bf <;> cases bft <;>
    simp [s1, s2, s3]

/-! ### Renumbering -/

theorem scatter_go (l : List Nat) (k : Nat) (a : List Nat) (hnd : l.Nodup)
    (hlt : ∀ x ∈ l, x < a.length) (i : Nat) (hi : i < l.length) :
    ((l.zipIdx k).foldl (fun a p => a.set p.1 p.2) a)[l[i]]? = some (k + i) := by
  induction l generalizing k a i with
  | nil => simp at hi
  | cons x l ih =>
    simp only [List.zipIdx_cons, List.foldl_cons]
    cases i with
    | zero =>
      have keep : ∀ (l : List Nat) (k' : Nat) (a : List Nat), x ∉ l →
          ((l.zipIdx k').foldl (fun a p => a.set p.1 p.2) a)[x]? = a[x]? := by
        intro l
        induction l with
        | nil => intro k' a _; rfl
        | cons y l ih' =>
          intro k' a hx
          simp only [List.zipIdx_cons, List.foldl_cons]
          rw [ih' _ _ (fun h => hx (List.mem_cons_of_mem _ h))]
          rw [List.getElem?_set_ne]
          rintro rfl
          exact hx List.mem_cons_self
      show ((l.zipIdx (k+1)).foldl _ (a.set x k))[x]? = _
      rw [keep l (k+1) _ (List.nodup_cons.mp hnd).1]
      rw [List.getElem?_set_self (hlt x List.mem_cons_self)]
      simp
    | succ i =>
      have := ih (k+1) (a.set x k) (List.nodup_cons.mp hnd).2
        (fun y hy => by simpa using hlt y (List.mem_cons_of_mem _ hy)) i (by simpa using hi)
      simp only [List.getElem_cons_succ]
      rw [this]
      congr 1; omega

theorem scatter_get (idx : List Nat) (h : idx.Perm (List.range idx.length)) (i : Nat)
    (hi : i < idx.length) : (scatter idx).getD idx[i] 0 = i := by
  have := scatter_go idx 0 (List.replicate idx.length 0) (h.nodup_iff.mpr List.nodup_range)
    (fun x hx => by simpa using h.subset hx) i hi
  unfold scatter
  rw [List.getD_eq_getElem?_getD, this]
  simp

/-- The place of a renumbered vertex is that of the vertex. -/
theorem reorder_place [Inhabited P] (vs : List P) (idx : List Nat)
    (h : idx.Perm (List.range vs.length)) (v : Nat) (hv : v < vs.length) :
    (idx.map fun i => vs.getD i default)[(scatter idx).getD v 0]? = vs[v]? := by
  have hlen : idx.length = vs.length := by simpa using h.length_eq
  have : v ∈ idx := h.symm.subset (by simpa using hv)
  obtain ⟨i, hi, rfl⟩ := List.getElem_of_mem this
  rw [scatter_get idx (by rw [hlen]; exact h) i hi]
  rw [List.getElem?_map, List.getElem?_eq_getElem hi]
  simp only [Option.map_some]
  rw [List.getElem?_eq_getElem hv, List.getD_eq_getElem _ _ hv]

end PyNucleus.MeshObject
