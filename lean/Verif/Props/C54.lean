import Verif.Model.DoFMap
import Verif.Proof.SetAll
import Verif.Props.C38
import Verif.Props.C39

/-!
# C54: restriction to interior and boundary dofs, and to components

Full statement: the restrictions `R` and `R_bc` of `getFullDoFMap` together select each dof of the map without boundary conditions exactly
once, at the node of the interior or boundary dof; `augmentWithBoundaryData` is the right inverse of both; the restriction of a product
space to a component selects the dofs of the component.
-/

namespace PyNucleus.Props.C54

open PyNucleus.DoFMap

/-- Pairs of numbers of the same local dof in two maps. -/
def pairs (m full : Map) : List (Int × Int) := m.dofs.flatten.zip full.dofs.flatten

/-- Both maps number the same nodes without gaps, and the second one has no boundary dofs. -/
structure SameNodes (m full : Map) : Prop where
  shape : m.dofs.flatten.length = full.dofs.flatten.length
  nodes : ∀ p ∈ pairs m full, ∀ q ∈ pairs m full, p.1 = q.1 ↔ p.2 = q.2
  boundary : 0 ≤ m.numBoundaryDofs
  range : ∀ d : Int, (-m.numBoundaryDofs ≤ d ∧ d < m.numDofs) ↔ d ∈ m.dofs.flatten
  full : ∀ f : Int, (0 ≤ f ∧ f < full.numDofs) ↔ f ∈ full.dofs.flatten

variable {m full : Map}

theorem SameNodes.fst (h : SameNodes m full) {p : Int × Int} (hp : p ∈ pairs m full) : -m.numBoundaryDofs ≤ p.1 ∧ p.1 < m.numDofs :=
  (h.range _).2 (List.of_mem_zip hp).1

theorem SameNodes.snd (h : SameNodes m full) {p : Int × Int} (hp : p ∈ pairs m full) : 0 ≤ p.2 ∧ p.2 < full.numDofs :=
  (h.full _).2 (List.of_mem_zip hp).2

theorem SameNodes.exists_snd (h : SameNodes m full) {d : Int} (h1 : -m.numBoundaryDofs ≤ d) (h2 : d < m.numDofs) : ∃ f, (d, f) ∈ pairs m full := by
  obtain ⟨i, hi, e⟩ := List.getElem_of_mem ((h.range d).1 ⟨h1, h2⟩)
  have hz : i < (m.dofs.flatten.zip full.dofs.flatten).length := by rw [List.length_zip, ← h.shape]; omega
  have := List.getElem_mem hz
  rw [List.getElem_zip, e] at this
  exact ⟨_, this⟩

theorem SameNodes.exists_fst (h : SameNodes m full) {f : Int} (h1 : 0 ≤ f) (h2 : f < full.numDofs) : ∃ d, (d, f) ∈ pairs m full := by
  obtain ⟨i, hi, e⟩ := List.getElem_of_mem ((h.full f).1 ⟨h1, h2⟩)
  have hz : i < (m.dofs.flatten.zip full.dofs.flatten).length := by rw [List.length_zip, h.shape]; omega
  have := List.getElem_mem hz
  rw [List.getElem_zip, e] at this
  exact ⟨_, this⟩

private theorem fullIndices_eq (m full : Map) :
    fullIndices m full = (setAll (((pairs m full).filter fun p => decide (0 ≤ p.1)).map fun p => (p.1.toNat, p.2)) (List.replicate m.numDofs 0),
      setAll (((pairs m full).filter fun p => decide (p.1 < 0)).map fun p => ((-p.1 - 1).toNat, p.2)) (List.replicate m.numBoundaryDofs.toNat 0)) := by
  unfold fullIndices pairs
  generalize m.dofs.flatten.zip full.dofs.flatten = ps
  generalize List.replicate m.numDofs (0 : Int) = a
  generalize List.replicate m.numBoundaryDofs.toNat (0 : Int) = b
  induction ps generalizing a b with
  | nil => rfl
  | cons p ps ih =>
    rw [List.foldl_cons]
    have hs : fullStep (a, b) p = if 0 ≤ p.1 then (a.set p.1.toNat p.2, b) else (a, b.set (-p.1 - 1).toNat p.2) := rfl
    rw [hs]
    by_cases h : 0 ≤ p.1
    · rw [if_pos h, ih, List.filter_cons_of_pos (by simpa using h), List.filter_cons_of_neg (by simpa using h)]
      rfl
    · rw [if_neg h, ih, List.filter_cons_of_neg (by simpa using h), List.filter_cons_of_pos (by simpa using h)]
      rfl

/-- `R` and `R_bc` select the number of the same node. -/
theorem full_restriction (h : SameNodes m full) (p : Int × Int) (hp : p ∈ pairs m full) :
    (0 ≤ p.1 → (fullIndices m full).1.getD p.1.toNat 0 = p.2) ∧ (p.1 < 0 → (fullIndices m full).2.getD (-p.1 - 1).toNat 0 = p.2) := by
  have hr := h.fst hp
  rw [fullIndices_eq]
  constructor
  · intro h0
    refine setAll_get 0 (p.1.toNat, p.2) _ _ (List.mem_map.2 ⟨p, List.mem_filter.2 ⟨hp, by simpa using h0⟩, rfl⟩) ?_ (by rw [List.length_replicate]; dsimp only; omega)
    intro q hq e
    obtain ⟨q', hq', rfl⟩ := List.mem_map.1 hq
    obtain ⟨h1, h2⟩ := List.mem_filter.1 hq'
    have h2 : 0 ≤ q'.1 := by simpa using h2
    dsimp only at e ⊢
    exact (h.nodes q' h1 p hp).1 (by omega)
  · intro h0
    refine setAll_get 0 ((-p.1 - 1).toNat, p.2) _ _ (List.mem_map.2 ⟨p, List.mem_filter.2 ⟨hp, by simpa using h0⟩, rfl⟩) ?_
      (by rw [List.length_replicate]; dsimp only; omega)
    intro q hq e
    obtain ⟨q', hq', rfl⟩ := List.mem_map.1 hq
    obtain ⟨h1, h2⟩ := List.mem_filter.1 hq'
    have h2 : q'.1 < 0 := by simpa using h2
    dsimp only at e ⊢
    exact (h.nodes q' h1 p hp).1 (by omega)

/-- Each dof of the full map is selected by exactly one row of `R` and `R_bc`. -/
theorem full_restriction_once (h : SameNodes m full) (f : Int) (h1 : 0 ≤ f) (h2 : f < full.numDofs) :
    ∃ d : Int, (-m.numBoundaryDofs ≤ d ∧ d < m.numDofs) ∧
      (∀ r, r < m.numDofs → ((fullIndices m full).1.getD r 0 = f ↔ (r : Int) = d)) ∧
      ∀ r, r < m.numBoundaryDofs.toNat → ((fullIndices m full).2.getD r 0 = f ↔ -(r : Int) - 1 = d) := by
  have hb := h.boundary
  obtain ⟨d, hd⟩ := h.exists_fst h1 h2
  refine ⟨d, h.fst hd, fun r hr => ?_, fun r hr => ?_⟩
  · obtain ⟨g, hg⟩ := h.exists_snd (d := r) (by omega) (by omega)
    have := (full_restriction h _ hg).1 (by dsimp only; omega)
    dsimp only at this
    rw [Int.toNat_natCast] at this
    rw [this]
    exact (h.nodes _ hg _ hd).symm
  · obtain ⟨g, hg⟩ := h.exists_snd (d := -(r : Int) - 1) (by omega) (by omega)
    have := (full_restriction h _ hg).2 (by dsimp only; omega)
    dsimp only at this
    rw [show (-(-(r : Int) - 1) - 1).toNat = r by omega] at this
    rw [this]
    exact (h.nodes _ hg _ hd).symm

/-- Augmenting with boundary data and restricting returns the interior vector and the boundary data, whatever the memory contained. -/
theorem augment_restrict {K : Type} [Zero K] (h : SameNodes m full) (x b y : List K) (hy : y.length = full.numDofs) :
    (∀ r, r < m.numDofs → (augment m full x b y).getD ((fullIndices m full).1.getD r 0).toNat 0 = x.getD r 0) ∧
    ∀ r, r < m.numBoundaryDofs.toNat → (augment m full x b y).getD ((fullIndices m full).2.getD r 0).toNat 0 = b.getD r 0 := by
  have hb := h.boundary
  have heq : augment m full x b y = setAll ((pairs m full).map fun p => (p.2.toNat, if 0 ≤ p.1 then x.getD p.1.toNat 0 else b.getD (-p.1 - 1).toNat 0)) y := by
    unfold augment pairs setAll
    rw [List.foldl_map]
    congr 1
    funext y p
    unfold augmentStep
    split <;> rfl
  have key : ∀ p ∈ pairs m full, (augment m full x b y).getD p.2.toNat 0 = if 0 ≤ p.1 then x.getD p.1.toNat 0 else b.getD (-p.1 - 1).toNat 0 := by
    intro p hp
    rw [heq]
    have hs := h.snd hp
    refine setAll_get 0 (p.2.toNat, if 0 ≤ p.1 then x.getD p.1.toNat 0 else b.getD (-p.1 - 1).toNat 0) _ _ (List.mem_map.2 ⟨p, hp, rfl⟩) ?_ (by rw [hy]; dsimp only; omega)
    intro q hq e
    obtain ⟨q', hq', rfl⟩ := List.mem_map.1 hq
    dsimp only at e ⊢
    have hs' := h.snd hq'
    rw [(h.nodes q' hq' p hp).2 (by omega)]
  constructor
  · intro r hr
    obtain ⟨g, hg⟩ := h.exists_snd (d := r) (by omega) (by omega)
    have := (full_restriction h _ hg).1 (by dsimp only; omega)
    dsimp only at this
    rw [Int.toNat_natCast] at this
    rw [this, key _ hg]
    dsimp only
    rw [if_pos (by omega), Int.toNat_natCast]
  · intro r hr
    obtain ⟨g, hg⟩ := h.exists_snd (d := -(r : Int) - 1) (by omega) (by omega)
    have := (full_restriction h _ hg).2 (by dsimp only; omega)
    dsimp only at this
    rw [show (-(-(r : Int) - 1) - 1).toNat = r by omega] at this
    rw [this, key _ hg]
    dsimp only
    rw [if_neg (by omega), show (-(-(r : Int) - 1) - 1).toNat = r by omega]

/-- The restriction to a component selects, for every scalar dof, the dof of this component. -/
theorem component_restriction (m : Map) (n component : Nat) (hc : component < n) (hrange : ∀ d : Int, 0 ≤ d → ((d < m.numDofs) ↔ d ∈ m.dofs.flatten))
    (init : List Int) (hi : init.length = m.numDofs) (s : Nat) (hs : s < m.numDofs) :
    (componentIndices m n component init).getD s 0 = n * s + component := by
  have hval : ∀ p ∈ componentPairs m n component,
      p.2 = if 0 ≤ p.1 then n * p.1 + component else n * (p.1 + 1) - component - 1 := by
    intro p hp
    unfold componentPairs at hp
    obtain ⟨r, hr, hp⟩ := List.mem_flatMap.1 hp
    obtain ⟨l, hl, rfl⟩ := List.mem_map.1 hp
    have hl := List.mem_range.1 hl
    obtain ⟨i, hi, e⟩ := List.getElem_of_mem hr
    rw [List.length_zip] at hi
    rw [List.getElem_zip] at e
    have h1 : m.entry i l = some (r.1.getD l 0) := by
      unfold Map.entry
      rw [List.getD_eq_getElem _ _ (by omega), ← e]
      dsimp only
      have : l < m.dofs[i].length := by rw [← e] at hl; exact hl
      rw [List.getElem?_eq_getElem this, List.getD_eq_getElem _ _ this]
    have h2 := C39.product_entry m n i l component hc _ h1
    unfold Map.entry at h2
    rw [List.getD_eq_getElem _ _ (show i < (product m n).dofs.length by omega)] at h2
    rw [← e] at h2 ⊢
    dsimp only at h2 ⊢
    rw [List.getD_eq_getElem?_getD, h2]
    rfl
  have hfst : ∀ d, d ∈ m.dofs.flatten ↔ ∃ p ∈ componentPairs m n component, p.1 = d := by
    intro d
    constructor
    · intro h
      obtain ⟨row, hrow, hd⟩ := List.mem_flatten.1 h
      obtain ⟨i, hi, e⟩ := List.getElem_of_mem hrow
      obtain ⟨l, hl, e2⟩ := List.getElem_of_mem hd
      have hz : i < (m.dofs.zip (product m n).dofs).length := by
        rw [List.length_zip]; unfold product; dsimp only; rw [List.length_map]; omega
      unfold componentPairs
      refine ⟨_, List.mem_flatMap.2 ⟨_, List.getElem_mem hz, List.mem_map.2 ⟨l, List.mem_range.2 ?_, rfl⟩⟩, ?_⟩
      · rw [List.getElem_zip]; dsimp only; rw [e]; exact hl
      · rw [List.getElem_zip]; dsimp only; rw [e, List.getD_eq_getElem _ _ hl, e2]
    · rintro ⟨p, hp, rfl⟩
      unfold componentPairs at hp
      obtain ⟨r, hr, hp⟩ := List.mem_flatMap.1 hp
      obtain ⟨l, hl, rfl⟩ := List.mem_map.1 hp
      have hl := List.mem_range.1 hl
      dsimp only
      rw [List.getD_eq_getElem _ _ hl]
      exact List.mem_flatten.2 ⟨r.1, (List.of_mem_zip hr).1, List.getElem_mem hl⟩
  have hsign : ∀ p ∈ componentPairs m n component,
      (0 ≤ p.2 ↔ 0 ≤ p.1) := by
    intro p hp
    rw [hval p hp]
    split
    · rename_i h0
      have : (0 : Int) ≤ n * p.1 := by positivity
      constructor <;> intro <;> omega
    · rename_i h0
      have : (n : Int) * (p.1 + 1) ≤ 0 := by nlinarith
      constructor <;> intro <;> omega
  have heq : componentIndices m n component init =
      setAll (((componentPairs m n component).filter
        fun p => decide (0 ≤ p.2)).map fun p => (p.1.toNat, p.2)) init := by
    unfold componentIndices
    generalize componentPairs m n component = ps
    clear hi
    induction ps generalizing init with
    | nil => rfl
    | cons p ps ih =>
      rw [List.foldl_cons, ih]
      unfold componentStep
      by_cases h : 0 ≤ p.2
      · rw [if_pos h, List.filter_cons_of_pos (by simpa using h)]; rfl
      · rw [if_neg h, List.filter_cons_of_neg (by simpa using h)]
  obtain ⟨p, hp, e⟩ := (hfst s).1 ((hrange s (by omega)).1 (by omega))
  have hv := hval p hp
  rw [if_pos (by omega), e] at hv
  rw [heq, ← hv]
  refine setAll_get 0 (s, p.2) _ _ (List.mem_map.2 ⟨p, List.mem_filter.2 ⟨hp, by rw [decide_eq_true_eq, hsign p hp]; omega⟩, by rw [e]; rfl⟩) ?_ (by dsimp only; omega)
  intro q hq e2
  obtain ⟨q', hq', rfl⟩ := List.mem_map.1 hq
  obtain ⟨h1, h2⟩ := List.mem_filter.1 hq'
  rw [decide_eq_true_eq, hsign q' h1] at h2
  dsimp only at e2 ⊢
  rw [hval q' h1, if_pos h2, hv]
  have : q'.1 = s := by omega
  rw [this]

private theorem mem_zip_flatten : ∀ (a b : List (List Int)), a.length = b.length → (∀ i, i < a.length → (a.getD i []).length = (b.getD i []).length) →
    a.flatten.length = b.flatten.length ∧ ∀ p ∈ a.flatten.zip b.flatten, ∃ i l : Nat, i < a.length ∧ (a.getD i [])[l]? = some p.1 ∧ (b.getD i [])[l]? = some p.2 := by
  intro a
  induction a with
  | nil =>
    intro b h _
    rw [List.length_eq_zero_iff.1 h.symm]
    exact ⟨rfl, fun p hp => by cases hp⟩
  | cons r a ih =>
    intro b h hr
    cases b with
    | nil => cases h
    | cons r' b =>
      have h0 := hr 0 (by simp)
      simp only [List.getD_cons_zero] at h0
      obtain ⟨i1, i2⟩ := ih b (by simpa using h) (fun i hi => by have := hr (i + 1) (by rw [List.length_cons]; omega); simpa using this)
      rw [List.flatten_cons, List.flatten_cons]
      refine ⟨by rw [List.length_append, List.length_append, h0, i1], fun p hp => ?_⟩
      rw [List.zip_append h0] at hp
      rcases List.mem_append.1 hp with q | q
      · obtain ⟨l, hl, e⟩ := List.getElem_of_mem q
        rw [List.length_zip] at hl
        rw [List.getElem_zip] at e
        refine ⟨0, l, by simp, ?_, ?_⟩
        · rw [List.getD_cons_zero, List.getElem?_eq_getElem (by omega), ← e]
        · rw [List.getD_cons_zero, List.getElem?_eq_getElem (by omega), ← e]
      · obtain ⟨i, l, h1, h2, h3⟩ := i2 p q
        exact ⟨i + 1, l, by rw [List.length_cons]; omega, by rw [List.getD_cons_succ]; exact h2, by rw [List.getD_cons_succ]; exact h3⟩

private theorem mem_flatten_iff (m : Map) (d : Int) : d ∈ m.dofs.flatten ↔ ∃ i l, i < m.dofs.length ∧ m.entry i l = some d := by
  rw [List.mem_flatten]
  constructor
  · rintro ⟨row, hrow, hd⟩
    obtain ⟨i, hi, rfl⟩ := List.getElem_of_mem hrow
    obtain ⟨l, hl⟩ := List.mem_iff_getElem?.1 hd
    exact ⟨i, l, hi, by unfold Map.entry; rw [List.getD_eq_getElem _ _ hi]; exact hl⟩
  · rintro ⟨i, l, hi, h⟩
    unfold Map.entry at h
    rw [List.getD_eq_getElem _ _ hi] at h
    exact ⟨_, List.getElem_mem hi, List.mem_of_getElem? h⟩

/-- The maps of the constructor with and without boundary fulfil the hypotheses. -/
theorem build_sameNodes {E : Element} {dim : Nat} {cells : List (List Nat)} {bnd : List Key} (ha : Admissible E dim cells bnd) (hf : Forward E dim cells bnd)
    (hb : ∀ k ∈ bnd, ∃ i, i < cells.length ∧ ∃ e ∈ entities dim i (cells.getD i []), e.1 = k) :
    SameNodes (build E dim cells bnd cells.length) (build E dim cells [] cells.length) := by
  have ha' : Admissible E dim cells [] := ⟨List.nodup_nil, ha.perFace, fun h0 k hk => by
    refine (ha.faces h0 k hk).trans ?_
    rw [if_neg (show k ∉ ([] : List Key) from List.not_mem_nil)]
    split <;> omega⟩
  have hf' : Forward E dim cells [] := Or.inr fun i hi e he _ => List.not_mem_nil
  obtain ⟨s1, s2⟩ := C38.table_shape_partial (skip := cells.length) ha hf
  obtain ⟨s1', s2'⟩ := C38.table_shape_partial (skip := cells.length) ha' hf'
  obtain ⟨z1, z2⟩ := mem_zip_flatten (build E dim cells bnd cells.length).dofs (build E dim cells [] cells.length).dofs (s1.trans s1'.symm)
    (fun i hi => by rw [s2 i (by omega), s2' i (by omega)])
  have g := C38.gap_free_partial (skip := cells.length) ha hf (fun k hk => by
    obtain ⟨i, hi, he⟩ := hb k hk
    exact ⟨i, hi, hi, he⟩)
  have g' := C38.gap_free_partial (skip := cells.length) ha' hf' (fun k hk => by cases hk)
  obtain ⟨-, nb, -, hnb, -⟩ := build_spec E dim cells bnd cells.length ha hf
  have hlt : ∀ (m : Map) (i l : Nat) (d : Int), (∀ i, i < cells.length → (m.dofs.getD i []).length = E.perElement dim) → i < cells.length →
      m.entry i l = some d → l < E.perElement dim := by
    intro m i l d hs hi h
    rw [← hs i hi]
    exact (List.getElem?_eq_some_iff.1 h).1
  refine ⟨z1, fun p hp q hq => ?_, by rw [hnb]; omega, fun d => ?_, fun f => ?_⟩
  · obtain ⟨i, l, hi, h1, h2⟩ := z2 p hp
    obtain ⟨j, k, hj, h3, h4⟩ := z2 q hq
    rw [s1] at hi hj
    have l1 := hlt _ i l _ s2 hi h1
    have l2 := hlt _ j k _ s2 hj h3
    have e := C38.same_number_iff_partial (skip := cells.length) ha hf i j hi hi hj hj l k l1 l2
    have e' := C38.same_number_iff_partial (skip := cells.length) ha' hf' i j hi hi hj hj l k l1 l2
    have h1 : (build E dim cells bnd cells.length).entry i l = some p.1 := h1
    have h2 : (build E dim cells [] cells.length).entry i l = some p.2 := h2
    have h3 : (build E dim cells bnd cells.length).entry j k = some q.1 := h3
    have h4 : (build E dim cells [] cells.length).entry j k = some q.2 := h4
    rw [h1, h3, Option.some.injEq] at e
    rw [h2, h4, Option.some.injEq] at e'
    exact e.trans e'.symm
  · rw [g d, mem_flatten_iff, s1]
    constructor
    · rintro ⟨i, l, h1, h2, h3⟩; exact ⟨i, l, h1, h3⟩
    · rintro ⟨i, l, h1, h3⟩; exact ⟨i, l, h1, h1, h3⟩
  · have h0 : (build E dim cells [] cells.length).numBoundaryDofs = 0 := rfl
    have := g' f
    rw [h0, neg_zero] at this
    rw [this, mem_flatten_iff, s1']
    constructor
    · rintro ⟨i, l, h1, h2, h3⟩; exact ⟨i, l, h1, h3⟩
    · rintro ⟨i, l, h1, h3⟩; exact ⟨i, l, h1, h1, h3⟩

/-- Example: P1 on two triangles, vertex 1 on the boundary. -/
example : SameNodes ⟨[[0, -1, 1], [1, -1, 2]], 3, 1⟩ ⟨[[0, 1, 2], [2, 1, 3]], 4, 0⟩ where
  shape := by decide
  nodes := by decide
  boundary := by decide
  range := fun d => by
    simp only [List.flatten_cons, List.flatten_nil, List.mem_append, List.mem_cons, List.not_mem_nil, or_false]
    omega
  full := fun d => by
    simp only [List.flatten_cons, List.flatten_nil, List.mem_append, List.mem_cons, List.not_mem_nil, or_false]
    omega

/-- In this example the rows select the vertices 0, 2, 3, and 1. -/
example : fullIndices ⟨[[0, -1, 1], [1, -1, 2]], 3, 1⟩ ⟨[[0, 1, 2], [2, 1, 3]], 4, 0⟩ = ([0, 2, 3], [1]) ∧
    componentIndices ⟨[[0, -1, 1], [1, -1, 2]], 3, 1⟩ 2 1 [9, 9, 9] = [1, 3, 5] := by decide

end PyNucleus.Props.C54
