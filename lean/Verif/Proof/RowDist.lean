import Verif.Model.Distributed
import Verif.Spec.Distributed
import Verif.Proof.CSR
import Verif.Proof.Drop
import Verif.Proof.Transpose
import Mathlib.Data.List.GetD
import Mathlib.Algebra.Order.BigOperators.Group.Finset
import Mathlib.Algebra.BigOperators.Group.List.Basic

/-! # Row distributed product -/

namespace PyNucleus.Distributed

open PyNucleus.Loops PyNucleus.Spec PyNucleus.CSR

variable {K : Type}

/-- The ranks own disjoint sets of rows that cover everything, and each has a matrix of full size, of which only the own rows matter. -/
structure RowDist.Partitioned (D : RowDist K) (N : Nat) : Prop where
  nodup : ∀ r, r < D.P → (D.own r).Nodup
  lt : ∀ r, r < D.P → ∀ g ∈ D.own r, g < N
  disjoint : ∀ r s g, r < D.P → s < D.P → g ∈ D.own r → g ∈ D.own s → r = s
  cover : ∀ g, g < N → ∃ r, r < D.P ∧ g ∈ D.own r
  valid : ∀ r, r < D.P → (D.mat r).Valid
  rows : ∀ r, r < D.P → (D.mat r).numRows = N
  cols : ∀ r, r < D.P → (D.mat r).numCols = N

theorem forRange_add {σ : Type} (lo m : Nat) (s : σ) (f : σ → Nat → σ) :
    forRange lo (lo + (m + 1)) s f = f (forRange lo (lo + m) s f) (lo + m) := by
  unfold forRange
  rw [Nat.add_sub_cancel_left, Nat.add_sub_cancel_left, List.range'_1_concat, List.foldl_append]
  rfl

/-- A loop that fills a dictionary with positions. -/
theorem put_loop (c : List Nat) (lo : Nat) (d : Nat → Option Nat) (g m : Nat) :
    ((∃ l, lo ≤ l ∧ l < lo + m ∧ c.getD l 0 = g) → ∃ l, lo ≤ l ∧ l < lo + m ∧ c.getD l 0 = g ∧
      forRange lo (lo + m) d (fun d l => put d (c.getD l 0) l) g = some l) ∧
    ((¬ ∃ l, lo ≤ l ∧ l < lo + m ∧ c.getD l 0 = g) → forRange lo (lo + m) d (fun d l => put d (c.getD l 0) l) g = d g) := by
  induction m with
  | zero =>
    refine ⟨fun ⟨l, h1, h2, _⟩ => by omega, fun _ => ?_⟩
    simp [forRange]
  | succ m ih =>
    rw [forRange_add]
    by_cases h : c.getD (lo + m) 0 = g
    · refine ⟨fun _ => ⟨lo + m, by omega, by omega, h, ?_⟩, fun hn => absurd ⟨lo + m, by omega, by omega, h⟩ hn⟩
      unfold put
      rw [if_pos h.symm]
    · have e : ∀ d' : Nat → Option Nat, put d' (c.getD (lo + m) 0) (lo + m) g = d' g := fun d' => by
        unfold put; rw [if_neg fun q => h q.symm]
      rw [e]
      constructor
      · rintro ⟨l, h1, h2, h3⟩
        have hl : l ≠ lo + m := fun q => h (q ▸ h3)
        obtain ⟨l', k1, k2, k3, k4⟩ := ih.1 ⟨l, h1, by omega, h3⟩
        exact ⟨l', k1, by omega, k3, k4⟩
      · intro hn
        exact ih.2 fun ⟨l, h1, h2, h3⟩ => hn ⟨l, h1, by omega, h3⟩

variable {D : RowDist K} {N : Nat}

theorem RowDist.Partitioned.owner_eq (h : D.Partitioned N) {r g : Nat} (hr : r < D.P) (hg : g ∈ D.own r) : D.owner g = r := by
  unfold RowDist.owner
  have : ∀ (l : List Nat), (∀ s ∈ l, s < D.P) → ∀ m, m ≤ r →
      (l.foldl (fun m s => max m (if g ∈ D.own s then s else 0)) m) = if r ∈ l then r else m := by
    intro l
    induction l with
    | nil => intro _ m _; simp
    | cons s l ih =>
      intro hl m hm
      have hs := hl s List.mem_cons_self
      rw [List.foldl_cons]
      by_cases hgs : g ∈ D.own s
      · have e := h.disjoint s r g hs hr hgs hg
        subst e
        rw [if_pos hgs, ih (fun t ht => hl t (List.mem_cons_of_mem _ ht)) _ (by omega), if_pos List.mem_cons_self]
        split
        · rfl
        · omega
      · have hne : r ≠ s := fun e => hgs (e ▸ hg)
        rw [if_neg hgs, ih (fun t ht => hl t (List.mem_cons_of_mem _ ht)) _ (by omega)]
        simp [hne]
  rw [this _ (fun s hs => List.mem_range.1 hs) 0 (by omega), if_pos (List.mem_range.2 hr)]

theorem RowDist.mem_receives (q p J : Nat) : J ∈ D.receives q p ↔ J ∈ D.wanted q p := by
  unfold RowDist.receives
  rw [List.mem_insertionSort, List.mem_dedup]

/-- What a rank receives from another rank is owned by that rank. -/
theorem RowDist.Partitioned.receives_own (h : D.Partitioned N) {q p J : Nat} (hq : q < D.P) (hJ : J ∈ D.receives q p) :
    J ∈ D.own p ∧ p < D.P := by
  rw [RowDist.mem_receives] at hJ
  unfold RowDist.wanted at hJ
  rw [List.mem_filter] at hJ
  obtain ⟨h1, h2⟩ := hJ
  obtain ⟨dof, -, h3⟩ := List.mem_flatMap.1 h1
  obtain ⟨e, h4, rfl⟩ := List.mem_map.1 h3
  have h5 := row_cols _ (h.valid q hq) dof e h4
  rw [h.cols q hq] at h5
  obtain ⟨r, hr, hg⟩ := h.cover _ h5
  have h6 := of_decide_eq_true h2
  rw [h.owner_eq hr hg] at h6
  exact h6 ▸ ⟨hg, hr⟩

theorem RowDist.Partitioned.mem_ghosts (h : D.Partitioned N) {q g : Nat} (hq : q < D.P) (hg : g ∈ D.own q) {e : Nat × K}
    (he : e ∈ (D.mat q).row g) : e.1 ∈ D.ghosts q := by
  have h5 := row_cols _ (h.valid q hq) g e he
  rw [h.cols q hq] at h5
  obtain ⟨p, hp, hJ⟩ := h.cover _ h5
  unfold RowDist.ghosts
  refine List.mem_flatMap.2 ⟨p, List.mem_range.2 hp, (RowDist.mem_receives q p e.1).2 ?_⟩
  unfold RowDist.wanted
  refine List.mem_filter.2 ⟨List.mem_flatMap.2 ⟨g, List.mem_filter.2 ⟨List.mem_range.2 ?_, ?_⟩, List.mem_map.2 ⟨e, he, rfl⟩⟩, ?_⟩
  · rw [h.rows q hq]; exact h.lt q hq g hg
  · exact decide_eq_true (h.owner_eq hq hg)
  · exact decide_eq_true (h.owner_eq hp hJ)

/-- The own dofs are found. -/
theorem RowDist.ownIndex_spec (p g : Nat) (hg : g ∈ D.own p) :
    ∃ l, l < (D.own p).length ∧ (D.own p).getD l 0 = g ∧ D.ownIndex p g = some l := by
  obtain ⟨l, hl, e⟩ := List.getElem_of_mem hg
  have := (put_loop (D.own p) 0 (fun _ => none) g (D.own p).length).1 ⟨l, by omega, by omega, by rw [List.getD_eq_getElem _ _ hl, e]⟩
  obtain ⟨l', -, h2, h3, h4⟩ := this
  rw [Nat.zero_add] at h2 h4
  exact ⟨l', h2, h3, h4⟩

theorem RowDist.colIndex_spec (q J : Nat) (hJ : J ∈ D.ghosts q) :
    ∃ i, i < (D.ghosts q).length ∧ (D.ghosts q).getD i 0 = J ∧ D.colIndex q J = some ((D.own q).length + i) := by
  obtain ⟨i, hi, e⟩ := List.getElem_of_mem hJ
  have hc : ∀ i, i < (D.ghosts q).length → (D.colIdx q).getD ((D.own q).length + i) 0 = (D.ghosts q).getD i 0 := by
    intro i hi
    unfold RowDist.colIdx
    rw [List.getD_append_right _ _ _ _ (by omega), Nat.add_sub_cancel_left]
  have := (put_loop (D.colIdx q) (D.own q).length (D.ownIndex q) J (D.ghosts q).length).1
    ⟨(D.own q).length + i, by omega, by omega, by rw [hc i hi, List.getD_eq_getElem _ _ hi, e]⟩
  obtain ⟨l', h1, h2, h3, h4⟩ := this
  refine ⟨l' - (D.own q).length, by omega, ?_, ?_⟩
  · rw [← hc _ (by omega), Nat.add_sub_cancel' h1, h3]
  · rw [Nat.add_sub_cancel' h1]; exact h4

/-! ## Communication -/

theorem RowDist.Partitioned.dataReceives_eq [Zero K] (h : D.Partitioned N) {q : Nat} (hq : q < D.P) (x : Nat → List K) (xg : Nat → K)
    (hx : ∀ p l, p < D.P → l < (D.own p).length → (x p).getD l 0 = xg ((D.own p).getD l 0)) :
    D.dataReceives q x = (D.ghosts q).map xg := by
  unfold RowDist.dataReceives RowDist.ghosts
  rw [List.map_flatMap]
  refine List.flatMap_congr fun p _ => ?_
  unfold RowDist.sendIdx
  rw [List.map_map]
  refine List.map_congr_left fun J hJ => ?_
  obtain ⟨h1, h2⟩ := h.receives_own hq hJ
  obtain ⟨l, h3, h4, h5⟩ := RowDist.ownIndex_spec p J h1
  show (x p).getD ((D.ownIndex p J).getD 0) 0 = xg J
  rw [h5, Option.getD_some, hx p l h2 h3, h4]

theorem RowDist.Partitioned.xTemp_ghost [Zero K] (h : D.Partitioned N) {q : Nat} (hq : q < D.P) (x : Nat → List K) (xg : Nat → K)
    (hxl : (x q).length = (D.own q).length)
    (hx : ∀ p l, p < D.P → l < (D.own p).length → (x p).getD l 0 = xg ((D.own p).getD l 0)) (t : List K)
    (ht : t.length = (D.ghosts q).length) (i : Nat) (hi : i < (D.ghosts q).length) :
    (D.xTemp q x t).getD ((D.own q).length + i) 0 = xg ((D.ghosts q).getD i 0) := by
  have hlen : (x q ++ t).length = (D.own q).length + (D.ghosts q).length := by rw [List.length_append, hxl, ht]
  have hd := h.dataReceives_eq hq x xg hx
  unfold RowDist.xTemp
  rw [hd]
  have : ∀ m, m ≤ (D.ghosts q).length →
      (forRange 0 m (x q ++ t) fun z i => z.set ((D.own q).length + i) (((D.ghosts q).map xg).getD i 0)).length = (x q ++ t).length ∧
      ∀ i, i < m → (forRange 0 m (x q ++ t) fun z i => z.set ((D.own q).length + i) (((D.ghosts q).map xg).getD i 0)).getD
        ((D.own q).length + i) 0 = xg ((D.ghosts q).getD i 0) := by
    intro m
    induction m with
    | zero => intro _; exact ⟨rfl, fun i hi => by omega⟩
    | succ m ih =>
      intro hm
      obtain ⟨h1, h2⟩ := ih (by omega)
      rw [forRange_succ]
      refine ⟨by rw [List.length_set, h1], fun i hi => ?_⟩
      rw [getD_set, h1, hlen]
      by_cases e : m = i
      · subst e
        rw [if_pos ⟨rfl, by omega⟩, List.getD_eq_getElem _ _ (by rw [List.length_map]; omega), List.getElem_map,
          List.getD_eq_getElem _ _ (by omega)]
      · rw [if_neg (by omega)]
        exact h2 i (by omega)
  exact (this _ (Nat.le_refl _)).2 i hi

/-! ## The local matrix -/

/-- A renumbered entry. -/
def RowDist.renum (D : RowDist K) (q : Nat) (e : Nat × K) : Nat × K := ((D.colIndex q e.1).getD 0, e.2)

theorem fill_fold {α : Type} (l : List α) : ∀ (k : Nat) (u : List α), k + l.length ≤ u.length →
    l.foldl (fun s a => (s.1 + 1, s.2.set s.1 a)) (k, u) = (k + l.length, u.take k ++ l ++ u.drop (k + l.length)) := by
  induction l with
  | nil => intro k u _; simp
  | cons a l ih =>
    intro k u h
    rw [List.length_cons] at h
    rw [List.foldl_cons]
    dsimp only
    rw [ih (k + 1) (u.set k a) (by rw [List.length_set]; omega), List.take_succ_eq_append_getElem (by rw [List.length_set]; omega),
      List.getElem_set_self, List.take_set_of_le (by omega), List.drop_set_of_lt (by omega)]
    simp only [List.length_cons, List.append_assoc, List.cons_append, List.nil_append]
    rw [show k + 1 + l.length = k + (l.length + 1) by omega]

theorem RowDist.fillRow_eq [Zero K] (q g k : Nat) (u : List Nat) (v : List K) (hA : (D.mat q).Valid) (hg : g < (D.mat q).numRows)
    (hu : k + ((D.mat q).row g).length ≤ u.length) (hv : k + ((D.mat q).row g).length ≤ v.length) :
    D.fillRow q g (k, u, v) = (k + ((D.mat q).row g).length,
      u.take k ++ (((D.mat q).row g).map fun e => (D.colIndex q e.1).getD 0) ++ u.drop (k + ((D.mat q).row g).length),
      v.take k ++ (((D.mat q).row g).map Prod.snd) ++ v.drop (k + ((D.mat q).row g).length)) := by
  unfold RowDist.fillRow
  rw [forRow_eq _ hA g hg]
  have : ∀ (l : List (Nat × K)) (k : Nat) (u : List Nat) (v : List K),
      l.foldl (fun (s : Nat × List Nat × List K) e => (s.1 + 1, s.2.1.set s.1 ((D.colIndex q e.1).getD 0), s.2.2.set s.1 e.2)) (k, u, v) =
      ((((l.map fun e => (D.colIndex q e.1).getD 0).foldl (fun s a => (s.1 + 1, s.2.set s.1 a)) (k, u))).1,
       (((l.map fun e => (D.colIndex q e.1).getD 0).foldl (fun s a => (s.1 + 1, s.2.set s.1 a)) (k, u))).2,
       (((l.map Prod.snd).foldl (fun s a => (s.1 + 1, s.2.set s.1 a)) (k, v))).2) := by
    intro l
    induction l with
    | nil => intro k u v; rfl
    | cons e l ih => intro k u v; rw [List.foldl_cons, ih]; rfl
  rw [this, fill_fold _ _ _ (by rw [List.length_map]; exact hu), fill_fold _ _ _ (by rw [List.length_map]; exact hv)]
  simp only [List.length_map]

theorem row_length (A : CSR K) (hA : A.Valid) (g : Nat) (hg : g < A.numRows) :
    (A.row g).length = A.indptr.getD (g + 1) 0 - A.indptr.getD g 0 := by
  have := ValidIndptr.le_nnz hA.indptr (g + 1) (by omega)
  unfold CSR.row csrRow
  rw [List.length_take, List.length_drop, List.length_zip, hA.data]
  omega

/-- The rows of some distinct dofs fit. -/
theorem rows_fit (A : CSR K) (hA : A.Valid) (own : List Nat) (hn : own.Nodup) (hl : ∀ g ∈ own, g < A.numRows) :
    (own.map fun g => (A.row g).length).sum ≤ A.indices.length := by
  have e : A.indices.length = ((List.range A.numRows).map fun g => (A.row g).length).sum := by
    have := congrArg List.length (flatMap_csrRow A.indptr (A.indices.zip A.data) A.numRows (by
      have h2 := hA.indptr
      rwa [List.length_zip, hA.data, Nat.min_self]))
    rw [List.length_zip, hA.data, Nat.min_self, List.length_flatMap] at this
    exact this.symm
  rw [e, ← List.sum_toFinset _ hn, ← List.sum_toFinset _ List.nodup_range]
  refine Finset.sum_le_sum_of_subset fun g hg => ?_
  rw [List.mem_toFinset] at hg ⊢
  exact List.mem_range.2 (hl g hg)

/-- The rows of the new matrix. -/
def RowDist.newRows (D : RowDist K) (q : Nat) : List (List (Nat × K)) := (D.own q).map fun g => ((D.mat q).row g).map (D.renum q)

theorem newRows_getElem (D : RowDist K) (q l : Nat) (hl : l < (D.own q).length) (h : l < (D.newRows q).length) :
    (D.newRows q)[l] = ((D.mat q).row ((D.own q).getD l 0)).map (D.renum q) := by
  have h1 : (D.newRows q)[l]? = some (((D.mat q).row ((D.own q).getD l 0)).map (D.renum q)) := by
    unfold RowDist.newRows
    rw [List.getElem?_map, List.getElem?_eq_getElem hl, List.getD_eq_getElem _ _ hl]
    rfl
  rw [List.getElem?_eq_getElem h] at h1
  exact Option.some.inj h1

theorem prefix_len (D : RowDist K) (q l : Nat) (hl : l < (D.own q).length) :
    ((D.newRows q).take (l + 1)).flatten.length = ((D.newRows q).take l).flatten.length + ((D.mat q).row ((D.own q).getD l 0)).length := by
  have h : l < (D.newRows q).length := by unfold RowDist.newRows; rwa [List.length_map]
  rw [List.take_succ_eq_append_getElem h, List.flatten_append, List.length_append]
  rw [newRows_getElem D q l hl h, List.flatten_singleton, List.length_map]

theorem RowDist.Partitioned.localMat_rows [Zero K] (h : D.Partitioned N) {q : Nat} (hq : q < D.P) (p u : List Nat) (v : List K)
    (hp : p.length = (D.own q).length + 1) (hu : u.length = (D.mat q).indices.length) (hv : v.length = (D.mat q).indices.length) :
    (D.localMat q p u v).indptr.length = (D.own q).length + 1 ∧
    (∀ i, i ≤ (D.own q).length → (D.localMat q p u v).indptr.getD i 0 = ((D.newRows q).take i).flatten.length) ∧
    (D.localMat q p u v).indices.length = u.length ∧ (D.localMat q p u v).data.length = v.length ∧
    ((D.localMat q p u v).indices.zip (D.localMat q p u v).data).take (D.newRows q).flatten.length = (D.newRows q).flatten := by
  have hlen : (D.newRows q).length = (D.own q).length := by unfold RowDist.newRows; rw [List.length_map]
  have hfit : ∀ l, ((D.newRows q).take l).flatten.length ≤ (D.mat q).indices.length := by
    intro l
    have h1 : (D.newRows q).flatten.length ≤ (D.mat q).indices.length := by
      have := rows_fit (D.mat q) (h.valid q hq) (D.own q) (h.nodup q hq) (fun g hg => by rw [h.rows q hq]; exact h.lt q hq g hg)
      refine Nat.le_trans (Nat.le_of_eq ?_) this
      unfold RowDist.newRows
      rw [List.length_flatten, List.map_map]
      congr 1
      refine List.map_congr_left fun g _ => ?_
      simp
    refine Nat.le_trans ?_ h1
    conv => rhs; rw [← List.take_append_drop l (D.newRows q), List.flatten_append, List.length_append]
    omega
  have hinv : ∀ l, l ≤ (D.own q).length →
      let s := forRange 0 l (p.set 0 0, u, v) (D.rowStep q)
      s.1.length = p.length ∧ (∀ i, i ≤ l → s.1.getD i 0 = ((D.newRows q).take i).flatten.length) ∧ s.2.1.length = u.length ∧
      s.2.2.length = v.length ∧ s.2.1.take ((D.newRows q).take l).flatten.length = ((D.newRows q).take l).flatten.map Prod.fst ∧
      s.2.2.take ((D.newRows q).take l).flatten.length = ((D.newRows q).take l).flatten.map Prod.snd := by
    intro l
    induction l with
    | zero =>
      intro _
      refine ⟨List.length_set .., fun i hi => ?_, rfl, rfl, by simp, by simp⟩
      have : i = 0 := by omega
      subst this
      show (p.set 0 0).getD 0 0 = _
      rw [getD_set, if_pos ⟨rfl, by omega⟩]
      simp
    | succ l ih =>
      intro hl
      have ih := ih (by omega)
      dsimp only at ih ⊢
      rw [forRange_succ]
      generalize forRange 0 l (p.set 0 0, u, v) (D.rowStep q) = s at *
      obtain ⟨i1, i2, i3, i4, i5, i6⟩ := ih
      have hg : (D.own q).getD l 0 < N := by
        rw [List.getD_eq_getElem _ _ (by omega)]
        exact h.lt q hq _ (List.getElem_mem _)
      have hgr : (D.own q).getD l 0 < (D.mat q).numRows := by rw [h.rows q hq]; exact hg
      have hrl := row_length _ (h.valid q hq) _ hgr
      have hmono := (h.valid q hq).indptr.mono _ hgr
      have hpl := prefix_len D q l (by omega)
      have hf := hfit (l + 1)
      have hi2 := i2 l (Nat.le_refl l)
      have hp1 : (s.1.set (l + 1) (s.1.getD l 0 + (D.mat q).indptr.getD ((D.own q).getD l 0 + 1) 0 -
          (D.mat q).indptr.getD ((D.own q).getD l 0) 0)).getD l 0 = ((D.newRows q).take l).flatten.length := by
        rw [getD_set, if_neg (by omega), hi2]
      unfold RowDist.rowStep
      dsimp only
      rw [hp1, D.fillRow_eq q _ _ _ _ (h.valid q hq) hgr (by omega) (by omega)]
      dsimp only
      have ht : (D.newRows q).take (l + 1) = (D.newRows q).take l ++ [((D.mat q).row ((D.own q).getD l 0)).map (D.renum q)] := by
        rw [List.take_succ_eq_append_getElem (by omega)]
        rw [newRows_getElem D q l (by omega)]
      refine ⟨by rw [List.length_set, i1], fun i hi => ?_, ?_, ?_, ?_, ?_⟩
      · rw [getD_set]
        by_cases e : l + 1 = i
        · subst e
          rw [if_pos ⟨rfl, by omega⟩, hi2, hpl, hrl]
          omega
        · rw [if_neg (by omega)]
          exact i2 i (by omega)
      · simp only [List.length_append, List.length_take, List.length_map, List.length_drop]; omega
      · simp only [List.length_append, List.length_take, List.length_map, List.length_drop]; omega
      · rw [i5, hpl, List.take_append_of_le_length (by rw [List.length_append, List.length_map, List.length_map]), List.take_of_length_le (by rw [List.length_append, List.length_map, List.length_map]), ht, List.flatten_append, List.map_append]
        rw [List.flatten_singleton, List.map_map]
        rfl
      · rw [i6, hpl, List.take_append_of_le_length (by rw [List.length_append, List.length_map, List.length_map]), List.take_of_length_le (by rw [List.length_append, List.length_map, List.length_map]), ht, List.flatten_append, List.map_append]
        rw [List.flatten_singleton, List.map_map]
        rfl
  obtain ⟨i1, i2, i3, i4, i5, i6⟩ := hinv _ (Nat.le_refl _)
  unfold RowDist.localMat
  dsimp only
  refine ⟨by rw [i1, hp], i2, i3, i4, ?_⟩
  have htake : (D.newRows q).take (D.own q).length = D.newRows q := List.take_of_length_le (by omega)
  rw [htake] at i5 i6
  have hz : ∀ (a : List Nat) (b : List K) (n : Nat), (a.zip b).take n = (a.take n).zip (b.take n) := fun a b n => by
    rw [List.zip, List.take_zipWith]
  rw [hz, i5, i6, List.zip_map']
  exact List.map_id _

theorem RowDist.Partitioned.localMat_row [Zero K] (h : D.Partitioned N) {q : Nat} (hq : q < D.P) (p u : List Nat) (v : List K)
    (hp : p.length = (D.own q).length + 1) (hu : u.length = (D.mat q).indices.length) (hv : v.length = (D.mat q).indices.length)
    (l : Nat) (hl : l < (D.own q).length) :
    (D.localMat q p u v).row l = ((D.mat q).row ((D.own q).getD l 0)).map (D.renum q) ∧
    ∀ {σ : Type} (s : σ) (f : σ → Nat → K → σ),
      forRow (D.localMat q p u v) l s f = ((D.localMat q p u v).row l).foldl (fun s e => f s e.1 e.2) s := by
  obtain ⟨h1, h2, h3, h4, h5⟩ := h.localMat_rows hq p u v hp hu hv
  have hlen : (D.newRows q).length = (D.own q).length := by unfold RowDist.newRows; rw [List.length_map]
  obtain ⟨-, h6⟩ := Drop.layout (D.newRows q) (D.localMat q p u v).indptr (by rw [h1, hlen]) (fun i hi => h2 i (by omega))
  have h7 := h6 l (by omega)
  have hle : ((D.newRows q).take (l + 1)).flatten.length ≤ (D.newRows q).flatten.length := by
    conv => rhs; rw [← List.take_append_drop (l + 1) (D.newRows q), List.flatten_append, List.length_append]
    omega
  have hmono := prefix_len D q l hl
  have e1 := h2 l (by omega)
  have e2 := h2 (l + 1) (by omega)
  have hz : (D.newRows q).flatten.length ≤ ((D.localMat q p u v).indices.zip (D.localMat q p u v).data).length := by
    have := congrArg List.length h5
    rw [List.length_take] at this
    omega
  constructor
  · have : (D.localMat q p u v).row l = csrRow (D.localMat q p u v).indptr (D.newRows q).flatten l := by
      rw [← h5]
      unfold CSR.row csrRow
      rw [e1, e2, List.drop_take, List.take_take]
      congr 1
      omega
    rw [this, h7]
    unfold RowDist.newRows
    simp [List.getD_eq_getElem?_getD, List.getElem?_eq_getElem hl]
  · intro σ s f
    unfold forRow CSR.row csrRow
    rw [← forRange_slice ((D.localMat q p u v).indices.zip (D.localMat q p u v).data) (0, 0) _ _ (by omega)]
    apply forRange_congr
    intro s k _ hk
    rw [List.length_zip] at hz
    have : ((D.localMat q p u v).indices.zip (D.localMat q p u v).data).getD k (0, 0) =
        ((D.localMat q p u v).indices.getD k 0, (D.localMat q p u v).data.getD k 0) := by
      simp only [List.getD_eq_getElem?_getD]
      rw [List.getElem?_eq_getElem (by rw [List.length_zip]; omega), List.getElem?_eq_getElem (by omega),
        List.getElem?_eq_getElem (by omega)]
      simp
    rw [this]

/-- The product of one row. -/
theorem RowDist.Partitioned.rowSum_eq [CommSemiring K] (h : D.Partitioned N) {q : Nat} (hq : q < D.P) (p u : List Nat) (v t : List K)
    (hp : p.length = (D.own q).length + 1) (hu : u.length = (D.mat q).indices.length) (hv : v.length = (D.mat q).indices.length)
    (ht : t.length = (D.ghosts q).length) (x : Nat → List K) (xg : Nat → K) (hxl : (x q).length = (D.own q).length)
    (hx : ∀ p l, p < D.P → l < (D.own p).length → (x p).getD l 0 = xg ((D.own p).getD l 0)) (l : Nat) (hl : l < (D.own q).length) :
    CSR.rowSum (D.localMat q p u v) (D.xTemp q x t) l = ∑ J ∈ Finset.range N, (D.mat q).entry ((D.own q).getD l 0) J * xg J := by
  obtain ⟨h1, h2⟩ := h.localMat_row hq p u v hp hu hv l hl
  unfold CSR.rowSum
  rw [h2, h1, List.foldl_map, CSR.foldl_add, zero_add]
  have hg : (D.own q).getD l 0 ∈ D.own q := by rw [List.getD_eq_getElem _ _ hl]; exact List.getElem_mem hl
  have e : (((D.mat q).row ((D.own q).getD l 0)).map fun e => (D.renum q e).2 * (D.xTemp q x t).getD (D.renum q e).1 0) =
      ((D.mat q).row ((D.own q).getD l 0)).map fun e => e.2 * xg e.1 := by
    refine List.map_congr_left fun e he => ?_
    obtain ⟨i, k1, k2, k3⟩ := D.colIndex_spec q e.1 (h.mem_ghosts hq hg he)
    unfold RowDist.renum
    dsimp only
    rw [k3, Option.getD_some, h.xTemp_ghost hq x xg hxl hx t ht i k1, k2]
  rw [e]
  exact CSR.sum_row_eq _ N (fun e he => by rw [← h.cols q hq]; exact row_cols _ (h.valid q hq) _ e he) xg

theorem RowDist.Partitioned.diagonal_eq [Zero K] (h : D.Partitioned N) {q : Nat} (hq : q < D.P) (p u : List Nat) (v : List K)
    (hp : p.length = (D.own q).length + 1) (hu : u.length = (D.mat q).indices.length) (hv : v.length = (D.mat q).indices.length) :
    D.diagonal q p u v = List.replicate (D.own q).length 0 := by
  unfold RowDist.diagonal getDiagonal
  have hn : (D.localMat q p u v).numRows = (D.own q).length := rfl
  rw [hn]
  have : ∀ m, m ≤ (D.own q).length → (forRange 0 m (List.replicate (D.own q).length (0 : K)) fun dv i =>
      dv.set i (firstDiag i (dv.getD i 0) ((D.localMat q p u v).row i))) = List.replicate (D.own q).length 0 := by
    intro m
    induction m with
    | zero => intro _; rfl
    | succ m ih =>
      intro hm
      rw [forRange_succ, ih (by omega), (h.localMat_row hq p u v hp hu hv m (by omega)).1]
      have hg : (D.own q).getD m 0 ∈ D.own q := by rw [List.getD_eq_getElem _ _ (by omega)]; exact List.getElem_mem _
      have hfd : ∀ (l : List (Nat × K)) (old : K), (∀ e ∈ l, (D.own q).length ≤ e.1) → firstDiag m old l = old := by
        intro l
        induction l with
        | nil => intro old _; rfl
        | cons e l ihl =>
          intro old hl
          obtain ⟨j, d⟩ := e
          have h0 := hl (j, d) List.mem_cons_self
          dsimp only at h0
          unfold firstDiag
          rw [if_neg (by omega)]
          exact ihl old fun e he => hl e (List.mem_cons_of_mem _ he)
      rw [hfd]
      · have e0 : (List.replicate (D.own q).length (0 : K)).getD m 0 = 0 := by
          rw [List.getD_eq_getElem _ _ (by rw [List.length_replicate]; omega), List.getElem_replicate]
        rw [e0]
        refine List.ext_getElem (by simp) fun i h1 h2 => ?_
        rw [List.getElem_set]
        split <;> simp
      · intro e he
        obtain ⟨e', he', rfl⟩ := List.mem_map.1 he
        obtain ⟨i, k1, k2, k3⟩ := D.colIndex_spec q e'.1 (h.mem_ghosts hq hg he')
        unfold RowDist.renum
        rw [k3]
        simp
  exact this _ (Nat.le_refl _)

end PyNucleus.Distributed
