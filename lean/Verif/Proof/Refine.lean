import Verif.Model.Refine
import Verif.Props.C04
import Verif.Proof.Loops
import Mathlib.Data.List.GetD
import Mathlib.Data.List.Nodup

/-! Numbering of edges. -/

namespace PyNucleus.Refine

open PyNucleus.Loops PyNucleus.TupleDict PyNucleus.Spec

variable {K : Type}

/-- Edges in the order of their first occurrence. -/
def addE (E : List (Nat × Nat)) (e : Nat × Nat) : List (Nat × Nat) := if e ∈ E then E else E ++ [e]

theorem addE_nodup (E : List (Nat × Nat)) (e : Nat × Nat) (h : E.Nodup) : (addE E e).Nodup := by
  unfold addE
  split
  · exact h
  · rename_i hn
    rw [List.nodup_append]
    exact ⟨h, by simp, by intro a ha b hb; rw [List.mem_singleton] at hb; subst hb; exact fun e => hn (e ▸ ha)⟩

theorem mem_addE (E : List (Nat × Nat)) (e a : Nat × Nat) : a ∈ addE E e ↔ a ∈ E ∨ a = e := by
  unfold addE
  split
  · rename_i h
    exact ⟨Or.inl, fun hh => hh.elim id (fun h2 => h2 ▸ h)⟩
  · rw [List.mem_append, List.mem_singleton]

theorem fold_addE (es : List (Nat × Nat)) : ∀ E : List (Nat × Nat), E.Nodup → (es.foldl addE E).Nodup ∧ ∀ a, a ∈ es.foldl addE E ↔ a ∈ E ∨ a ∈ es := by
  induction es with
  | nil => intro E h; exact ⟨h, fun a => by simp⟩
  | cons e t ih =>
    intro E h
    obtain ⟨h1, h2⟩ := ih (addE E e) (addE_nodup E e h)
    refine ⟨h1, fun a => ?_⟩
    rw [List.foldl_cons, h2, mem_addE, List.mem_cons]
    tauto

/-- The map with the numbers `n, n + 1, …`. -/
def mapOf (n : Nat) (E : List (Nat × Nat)) : EdgeMap Nat := fun k => if 0 ≤ k.2 ∧ (k.1, k.2.toNat) ∈ E then some (n + E.idxOf (k.1, k.2.toNat)) else none

theorem mapOf_nat (n : Nat) (E : List (Nat × Nat)) (e : Nat × Nat) : mapOf n E (e.1, (e.2 : Int)) = if e ∈ E then some (n + E.idxOf e) else none := by
  unfold mapOf
  simp

theorem mapOf_put (n : Nat) (E : List (Nat × Nat)) (e : Nat × Nat) (h : e ∉ E) :
    (mapOf n E).put (e.1, (e.2 : Int)) (some (n + E.length)) = mapOf n (E ++ [e]) := by
  funext k
  unfold EdgeMap.put mapOf
  by_cases hk : k = (e.1, (e.2 : Int))
  · subst hk
    rw [if_pos rfl, if_pos (by simp)]
    rw [show ((e.1, ((e.1, (e.2 : Int)).2).toNat) : Nat × Nat) = e by simp, List.idxOf_append_of_notMem h]
    simp
  · rw [if_neg hk]
    by_cases h0 : 0 ≤ k.2
    · have hne : ((k.1, k.2.toNat) : Nat × Nat) ≠ e := by
        intro he
        apply hk
        rw [← he]
        ext <;> simp [h0]
      by_cases hm : (k.1, k.2.toNat) ∈ E
      · rw [if_pos ⟨h0, hm⟩, if_pos ⟨h0, List.mem_append_left _ hm⟩, List.idxOf_append_of_mem hm]
      · rw [if_neg (fun hh => hm hh.2), if_neg]
        rintro ⟨-, hh⟩
        rcases List.mem_append.1 hh with h1 | h1
        · exact hm h1
        · exact hne (List.mem_singleton.1 h1)
    · rw [if_neg (fun hh => h0 hh.1), if_neg (fun hh => h0 hh.1)]

/-- No vertex has too many larger neighbours. -/
def Few (E : List (Nat × Nat)) : Prop := ∀ (I : Nat) (l : List Nat), l.Nodup → (∀ J ∈ l, (I, J) ∈ E) → l.length ≤ 253

theorem fits_mapOf (n : Nat) (E F : List (Nat × Nat)) (h : Few F) (hs : ∀ e ∈ E, e ∈ F) : Fits config (mapOf n E) := by
  intro I l hn hl
  have h0 : ∀ J ∈ l, 0 ≤ J ∧ (I, J.toNat) ∈ E := fun J hJ => by
    have := hl J hJ
    unfold mapOf at this
    by_contra hc
    exact this (if_neg hc)
  have hnd : (l.map Int.toNat).Nodup := by
    unfold List.Nodup
    rw [List.pairwise_map]
    refine hn.imp_of_mem fun {a b} ha hb hab => ?_
    have := h0 a ha
    have := h0 b hb
    omega
  have := h I (l.map Int.toNat) hnd (fun J hJ => by
    obtain ⟨a, ha, rfl⟩ := List.mem_map.1 hJ
    exact hs _ (h0 a ha).2)
  rw [List.length_map] at this
  show l.length + 3 ≤ 256
  omega

theorem enterEdges_eq (n : Nat) (F : List (Nat × Nat)) (hF : Few F) (hn : ∀ e ∈ F, e.1 < n) : ∀ (es E : List (Nat × Nat)) (d : Dict Nat), Rel n d (mapOf n E) → E.Nodup →
    (∀ e ∈ E, e ∈ F) → (∀ e ∈ es, e ∈ F) →
    ∃ d', enterEdges es (d, n + E.length) = some (d', n + (es.foldl addE E).length) ∧ Rel n d' (mapOf n (es.foldl addE E)) := by
  intro es
  induction es with
  | nil => intro E d h _ _ _; exact ⟨d, rfl, h⟩
  | cons e t ih =>
    intro E d h hE h1 h2
    have he := h2 e List.mem_cons_self
    have hadd : ∀ a ∈ addE E e, a ∈ F := fun a ha => ((mem_addE E e a).1 ha).elim (h1 a) (fun hh => hh ▸ he)
    have hstep : edgeStep config.mode config.invalid (mapOf n E) (.enter e.1 e.2 (n + E.length)) =
        (mapOf n (addE E e), if e ∈ E then n + E.idxOf e else n + E.length) := by
      unfold edgeStep
      dsimp only
      rw [mapOf_nat]
      unfold addE
      by_cases hm : e ∈ E
      · rw [if_pos hm, if_pos hm, if_pos hm]; rfl
      · rw [if_neg hm, if_neg hm, if_neg hm]
        dsimp only
        rw [mapOf_put n E e hm]
    obtain ⟨d', h3, h4⟩ := step_rel config n d (mapOf n E) h (by decide) (.enter e.1 e.2 (n + E.length)) (hn e he) (fits_mapOf n E F hF h1)
      (by rw [hstep]; exact fits_mapOf n (addE E e) F hF hadd)
    rw [hstep] at h3 h4
    obtain ⟨d'', h5, h6⟩ := ih (addE E e) d' h4 (addE_nodup E e hE) hadd (fun a ha => h2 a (List.mem_cons_of_mem _ ha))
    refine ⟨d'', ?_, h6⟩
    unfold enterEdges at h5 ⊢
    rw [List.foldlM_cons]
    dsimp only
    rw [h3]
    have hnum : (if (if e ∈ E then n + E.idxOf e else n + E.length) = n + E.length then n + E.length + 1 else n + E.length) = n + (addE E e).length := by
      unfold addE
      by_cases hm : e ∈ E
      · have := List.idxOf_lt_length_of_mem hm
        rw [if_pos hm, if_pos hm, if_neg (by omega)]
      · rw [if_neg hm, if_neg hm, if_pos rfl, List.length_append]; rfl
    show List.foldlM _ (d', if (if e ∈ E then n + E.idxOf e else n + E.length) = n + E.length then n + E.length + 1 else n + E.length) t = _
    rw [hnum]
    exact h5

theorem getEdge_eq (n : Nat) (E : List (Nat × Nat)) (d : Dict Nat) (h : Rel n d (mapOf n E)) (hF : Few E) (e : Nat × Nat) (he : e ∈ E) (hn : e.1 < n) :
    getEdge d e = some (n + E.idxOf e) := by
  have hf := fits_mapOf n E E hF (fun _ => id)
  obtain ⟨d', h1, -⟩ := step_rel config n d (mapOf n E) h (by decide) (.get e.1 e.2) hn hf hf
  unfold getEdge
  rw [h1]
  unfold edgeStep
  dsimp only
  rw [mapOf_nat, if_pos he]
  rfl

/-- Writes at the numbers of a table. -/
theorem foldl_set {α β : Type} (f : β → α) (dflt : α) : ∀ (L : List (β × Nat)) (v : List α), (∀ p ∈ L, p.2 < v.length) →
    (L.foldl (fun v p => v.set p.2 (f p.1)) v).length = v.length ∧
    (∀ i, (∀ p ∈ L, p.2 ≠ i) → (L.foldl (fun v p => v.set p.2 (f p.1)) v).getD i dflt = v.getD i dflt) ∧
    ∀ i w, (∃ p ∈ L, p.2 = i) → (∀ p ∈ L, p.2 = i → f p.1 = w) → (L.foldl (fun v p => v.set p.2 (f p.1)) v).getD i dflt = w := by
  intro L
  induction L with
  | nil => intro v _; exact ⟨rfl, fun _ _ => rfl, fun i w ⟨p, hp, _⟩ => absurd hp List.not_mem_nil⟩
  | cons p t ih =>
    intro v h
    obtain ⟨h1, h2, h3⟩ := ih (v.set p.2 (f p.1)) (fun q hq => by rw [List.length_set]; exact h q (List.mem_cons_of_mem _ hq))
    have hp := h p List.mem_cons_self
    rw [List.foldl_cons]
    refine ⟨by rw [h1, List.length_set], fun i hi => ?_, fun i w he hw => ?_⟩
    · rw [h2 i (fun q hq => hi q (List.mem_cons_of_mem _ hq)), getD_set, if_neg (fun hh => hi p List.mem_cons_self hh.1)]
    · by_cases ht : ∃ q ∈ t, q.2 = i
      · exact h3 i w ht (fun q hq => hw q (List.mem_cons_of_mem _ hq))
      · rw [h2 i (fun q hq e => ht ⟨q, hq, e⟩)]
        obtain ⟨q, hq, e⟩ := he
        rcases List.mem_cons.1 hq with rfl | hq
        · rw [getD_set, if_pos ⟨e, by omega⟩]
          exact hw q List.mem_cons_self e
        · exact absurd ⟨q, hq, e⟩ ht

theorem copyVertices_spec [Zero K] (dim : Nat) (vertices u : List (List K)) (hu : vertices.length ≤ u.length) (hr : ∀ r ∈ vertices, r.length = dim) :
    (copyVertices dim vertices u).length = u.length ∧ ∀ i, i < vertices.length → (copyVertices dim vertices u).getD i [] = vertices.getD i [] := by
  have hrow : ∀ i, i < vertices.length → (List.range dim).map (fun k => (vertices.getD i []).getD k 0) = vertices.getD i [] := by
    intro i hi
    rw [List.getD_eq_getElem _ _ hi]
    have hl := hr _ (List.getElem_mem hi)
    refine List.ext_getElem (by simp [hl]) fun k h1 h2 => ?_
    rw [List.getElem_map, List.getElem_range, List.getD_eq_getElem _ _ h2]
  have key : ∀ m, m ≤ vertices.length → (forRange 0 m u fun u i => u.set i ((List.range dim).map fun k => (vertices.getD i []).getD k 0)).length = u.length ∧
      ∀ i, i < m → (forRange 0 m u fun u i => u.set i ((List.range dim).map fun k => (vertices.getD i []).getD k 0)).getD i [] = vertices.getD i [] := by
    intro m
    induction m with
    | zero => intro _; exact ⟨rfl, fun i hi => absurd hi (by omega)⟩
    | succ m ih =>
      intro hm
      obtain ⟨h1, h2⟩ := ih (by omega)
      rw [forRange_succ]
      refine ⟨by rw [List.length_set, h1], fun i hi => ?_⟩
      rw [getD_set, h1]
      by_cases h3 : m = i
      · subst h3
        rw [if_pos ⟨rfl, by omega⟩, hrow m (by omega)]
      · rw [if_neg (fun hh => h3 hh.1), h2 i (by omega)]
  exact key vertices.length (le_refl _)

/-- A table of the numbers of the edges. -/
structure IsTable (n : Nat) (E : List (Nat × Nat)) (L : List ((Nat × Nat) × Nat)) : Prop where
  nodup : (L.map Prod.fst).Nodup
  mem : ∀ e v, (e, v) ∈ L ↔ e ∈ E ∧ v = n + E.idxOf e

theorem vertices_eq [Field K] (dim : Nat) (vertices u : List (List K)) (hr : ∀ r ∈ vertices, r.length = dim) (E : List (Nat × Nat)) (hE : E.Nodup)
    (hu : u.length = vertices.length + E.length) (L : List ((Nat × Nat) × Nat)) (hL : IsTable vertices.length E L) :
    L.foldl (fun v p => v.set p.2 (midpoint dim vertices p.1)) (copyVertices dim vertices u) = vertices ++ E.map (midpoint dim vertices) := by
  obtain ⟨c1, c2⟩ := copyVertices_spec dim vertices u (by omega) hr
  have hlt : ∀ p ∈ L, vertices.length ≤ p.2 ∧ p.2 < vertices.length + E.length := fun p hp => by
    obtain ⟨h1, h2⟩ := (hL.mem p.1 p.2).1 hp
    have := List.idxOf_lt_length_of_mem h1
    omega
  obtain ⟨h1, h2, h3⟩ := foldl_set (midpoint dim vertices) ([] : List K) L (copyVertices dim vertices u) (fun p hp => by rw [c1, hu]; exact (hlt p hp).2)
  refine List.ext_getElem (by rw [h1, c1, hu]; simp) fun i hi1 hi2 => ?_
  rw [h1, c1, hu] at hi1
  rw [← List.getD_eq_getElem _ [] , ← List.getD_eq_getElem _ []]
  by_cases hlt2 : i < vertices.length
  · rw [h2 i (fun p hp => by have := hlt p hp; omega), c2 i hlt2, List.getD_append _ _ _ _ hlt2]
  · have hj : i - vertices.length < E.length := by omega
    have hidx : E.idxOf E[i - vertices.length] = i - vertices.length := hE.idxOf_getElem _ hj
    rw [h3 i (midpoint dim vertices E[i - vertices.length]) ⟨(E[i - vertices.length], i), (hL.mem _ _).2 ⟨List.getElem_mem _, by rw [hidx]; omega⟩, rfl⟩ (fun p hp hpi => by
      obtain ⟨g1, g2⟩ := (hL.mem p.1 p.2).1 hp
      have hp1 : E.idxOf p.1 = i - vertices.length := by omega
      have hp2 := List.getElem_idxOf (List.idxOf_lt_length_of_mem g1)
      congr 1
      rw [← hp2]
      congr 1), List.getD_append_right _ _ _ _ (by omega), List.getD_eq_getElem _ _ (by simpa using hj), List.getElem_map]

theorem newVertices_eq [Field K] (dim : Nat) (u : Nat → List (List K)) (hu : ∀ m, (u m).length = m) (vertices : List (List K)) (hr : ∀ r ∈ vertices, r.length = dim)
    (E : List (Nat × Nat)) (hE : E.Nodup) (d : Dict Nat) (h : Rel vertices.length d (mapOf vertices.length E)) :
    ∃ L, newVertices dim u vertices (d, vertices.length + E.length) = some (vertices ++ E.map (midpoint dim vertices), L) ∧ IsTable vertices.length E L := by
  have hl := PyNucleus.Props.C04.lists_of_rel h
  have hnn : d.nnz = (itemsFrom d.rows 0).length := by rw [itemsFrom_length d h.wf]; exact h.nnz
  have hit := iterate_from d h.wf _ 0 (d.nnz.toNat + 1) rfl (by rw [hnn]; simp)
  have hmem : ∀ k v, (k, v) ∈ itemsFrom d.rows 0 ↔ (0 ≤ k.2 ∧ (k.1, k.2.toNat) ∈ E) ∧ v = vertices.length + E.idxOf (k.1, k.2.toNat) := fun k v => by
    rw [hl.mem k v]
    unfold mapOf
    split
    · rename_i hh
      rw [Option.some.injEq]
      exact ⟨fun e => ⟨hh, e.symm⟩, fun e => e.2.symm⟩
    · rename_i hh
      exact ⟨fun e => (nomatch e), fun e => absurd e.1 hh⟩
  have htab : IsTable vertices.length E ((itemsFrom d.rows 0).map fun p => ((p.1.1, p.1.2.toNat), p.2)) := by
    constructor
    · rw [List.map_map]
      unfold List.Nodup
      rw [List.pairwise_map]
      refine hl.sorted.imp_of_mem fun {a b} ha hb hab => ?_
      have h1 := ((hmem a.1 a.2).1 ha).1.1
      have h2 := ((hmem b.1 b.2).1 hb).1.1
      intro e
      change (a.1.1, a.1.2.toNat) = (b.1.1, b.1.2.toNat) at e
      obtain ⟨e1, e2⟩ := Prod.mk.inj e
      omega
    · intro e v
      rw [List.mem_map]
      constructor
      · rintro ⟨p, hp, hpe⟩
        obtain ⟨g1, g2⟩ := (hmem p.1 p.2).1 hp
        obtain ⟨rfl, rfl⟩ := Prod.mk.inj hpe
        exact ⟨g1.2, g2⟩
      · rintro ⟨g1, g2⟩
        exact ⟨((e.1, (e.2 : Int)), v), (hmem _ _).2 ⟨⟨by simp, by simpa using g1⟩, by simpa using g2⟩, by simp⟩
  refine ⟨_, ?_, htab⟩
  unfold newVertices
  show Option.map _ (iterate d (d.nnz.toNat + 1) (startIter d)) = _
  rw [show startIter d = ⟨skipEmpty d.rows 0, 0⟩ from rfl, hit]
  simp only [Option.map_some]
  rw [vertices_eq dim vertices _ hr E hE (hu _) _ htab]

/-! ### dictionaries -/

theorem dget_zipIdx (E : List (Nat × Nat)) (e : Nat × Nat) (he : e ∈ E) : ∀ n, dget (E.zipIdx n) e = some (n + E.idxOf e) := by
  induction E with
  | nil => cases he
  | cons a t ih =>
    intro n
    unfold dget at ih ⊢
    rw [List.zipIdx_cons, List.find?_cons, List.idxOf_cons]
    by_cases h : a = e
    · subst h; simp
    · have hb : (a == e) = false := by simpa using h
      simp only [hb, cond_false]
      rw [ih ((List.mem_cons.1 he).resolve_left (fun hh => h hh.symm)) (n + 1)]
      congr 1
      omega

theorem dset_zipIdx (E : List (Nat × Nat)) (e : Nat × Nat) (n : Nat) (he : e ∉ E) : dset (E.zipIdx n) e (n + E.length) = (E ++ [e]).zipIdx n := by
  unfold dset
  rw [if_neg, List.zipIdx_append]
  · rfl
  · rw [List.any_eq_true]
    rintro ⟨p, hp, hpe⟩
    have : p.1 = e := by simpa using hpe
    exact he (this ▸ (List.mem_zipIdx hp).2.2 ▸ List.getElem_mem _)

theorem zipIdx_table (E : List (Nat × Nat)) (n : Nat) (hE : E.Nodup) : IsTable n E (E.zipIdx n) := by
  constructor
  · rw [List.zipIdx_map_fst]; exact hE
  · intro e v
    constructor
    · intro h
      obtain ⟨h1, h2, h3⟩ := List.mem_zipIdx h
      have hj : v - n < E.length := by omega
      rw [h3]
      exact ⟨List.getElem_mem _, by rw [hE.idxOf_getElem _ hj]; omega⟩
    · rintro ⟨h1, h2⟩
      have h3 := List.idxOf_lt_length_of_mem h1
      rw [List.mk_mem_zipIdx_iff_le_and_getElem?_sub]
      subst h2
      refine ⟨by omega, ?_⟩
      rw [Nat.add_sub_cancel_left, List.getElem?_eq_getElem h3, List.getElem_idxOf]

end PyNucleus.Refine
