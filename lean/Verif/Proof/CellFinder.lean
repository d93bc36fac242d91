import Mathlib.Algebra.Order.Floor.Ring
import Mathlib.Algebra.Order.Archimedean.Basic
import Mathlib.Data.List.Perm.Subperm
import Mathlib.Tactic.FieldSimp
import Mathlib.Tactic.Linarith
import Mathlib.Tactic.Positivity
import Mathlib.Tactic.Ring
import Verif.Model.CellFinder
import Verif.Proof.FaceVals
import Verif.Proof.Loops

/-! # Lemmas about the cell finder -/

namespace PyNucleus.CellFinder

open PyNucleus.Loops PyNucleus.Spec PyNucleus.BarycentricCoords PyNucleus.FaceVals

/-! ### Numbering of keys -/

/-- The map numbers its keys with numbers below `n`. -/
structure Numbering (m : FaceMap) (n : Nat) : Prop where
  range : ∀ k v, m k = some v → 0 ≤ v ∧ v < n
  inj : ∀ k k' v, m k = some v → m k' = some v → k = k'

theorem enterAll_spec {N : Nat} : ∀ (ks : List (Int × Int × Int)) (d : Dict) (m : FaceMap) (n : Nat), Rel N d m →
    d.deleteHits = false → Numbering m n → (∀ k ∈ ks, 0 ≤ k.1 ∧ k.1 < N) →
    (∀ (I : Int) (l : List (Int × Int)), l.Nodup → (∀ k ∈ l, m (I, k) ≠ none ∨ (I, k) ∈ ks) → l.length ≤ 255) →
    ∃ d' m' n', enterAll ks d n = some (d', n') ∧ Rel N d' m' ∧ Numbering m' n' ∧ ∀ k, m' k ≠ none ↔ m k ≠ none ∨ k ∈ ks := by
  intro ks
  induction ks with
  | nil => intro d m n hr _ hn _ _; exact ⟨d, m, n, rfl, hr, hn, by simp⟩
  | cons k ks ih =>
    intro d m n hr hd hn hrow hfit
    obtain ⟨I, J, K⟩ := k
    have hk := hrow _ List.mem_cons_self
    have hdom : ∀ k', (faceStep false m (.enter I J K n)).1 k' ≠ none ↔ m k' ≠ none ∨ k' = (I, J, K) := by
      intro k'
      simp only [faceStep]
      cases h : m (I, J, K) with
      | none =>
        simp only [FaceMap.put]
        by_cases he : k' = (I, J, K) <;> simp [he]
      | some v =>
        simp only [Bool.false_eq_true, if_false]
        constructor
        · exact Or.inl
        · rintro (h' | rfl)
          · exact h'
          · rw [h]; simp
    obtain ⟨d1, e1, r1, h1⟩ := enterValue_rel hr hk.1 hk.2 J K n (by
      rw [hd]
      intro I' l hl hmem
      refine hfit I' l hl fun k' hk' => ?_
      rcases (hdom _).mp (hmem k' hk') with h | h
      · exact Or.inl h
      · exact Or.inr (h ▸ List.mem_cons_self))
    rw [hd] at e1 r1 h1
    simp only [enterAll, e1]
    have hnum : Numbering (faceStep false m (.enter I J K n)).1
        (if (faceStep false m (.enter I J K n)).2 = (n : Int) then n + 1 else n) := by
      cases h : m (I, J, K) with
      | none =>
        have e : faceStep false m (.enter I J K n) = (m.put (I, J, K) (some n), (n : Int)) := by simp [faceStep, h]
        rw [e]
        simp only [if_true]
        constructor
        · intro k' v hv
          simp only [FaceMap.put] at hv
          split at hv
          · cases hv; push_cast; omega
          · have := hn.range _ _ hv; push_cast; omega
        · intro k' k'' v hv hv'
          simp only [FaceMap.put] at hv hv'
          split at hv
          · rename_i a
            cases hv
            split at hv'
            · rename_i b; rw [a, b]
            · have := hn.range _ _ hv'; omega
          · split at hv'
            · cases hv'
              have := hn.range _ _ hv; omega
            · exact hn.inj _ _ _ hv hv'
      | some v =>
        have := hn.range _ _ h
        have e : faceStep false m (.enter I J K n) = (m, v) := by simp [faceStep, h]
        rw [e]
        simp only
        rw [if_neg (by omega)]
        exact hn
    obtain ⟨d2, m2, n2, e2, r2, hn2, hd2⟩ := ih d1 _ _ r1 h1 hnum (fun k' hk' => hrow k' (List.mem_cons_of_mem _ hk')) (by
      intro I' l hl hmem
      refine hfit I' l hl fun k' hk' => ?_
      rcases hmem k' hk' with h | h
      · rcases (hdom _).mp h with h | h
        · exact Or.inl h
        · exact Or.inr (h ▸ List.mem_cons_self)
      · exact Or.inr (List.mem_cons_of_mem _ h))
    refine ⟨d2, m2, n2, e2, r2, hn2, fun k' => ?_⟩
    rw [hd2, hdom, List.mem_cons, or_assoc]

theorem getAll_spec {N : Nat} {d : Dict} {m : FaceMap} (hr : Rel N d m) : ∀ ks : List (Int × Int × Int),
    (∀ k ∈ ks, 0 ≤ k.1 ∧ k.1 < N) → getAll d ks = some (ks.map fun k => (m k).getD (-1)) := by
  intro ks
  induction ks with
  | nil => intro _; rfl
  | cons k ks ih =>
    intro h
    have hk := h k List.mem_cons_self
    simp only [getAll, getValue_spec hr hk.1 hk.2, ih fun k' hk' => h k' (List.mem_cons_of_mem _ hk'), Option.map_some,
      List.map_cons]

theorem enterAll_append (a b : List (Int × Int × Int)) : ∀ (d : Dict) (n : Nat),
    enterAll (a ++ b) d n = (enterAll a d n).bind fun p => enterAll b p.1 p.2 := by
  induction a with
  | nil => intro d n; rfl
  | cons k a ih =>
    intro d n
    simp only [List.cons_append, enterAll]
    split
    · rfl
    · exact ih _ _

/-- Number of entries of a row. -/
theorem count_of_dom {n : Nat} {d : Dict} {m : FaceMap} (h : Rel n d m) {I : Int} (h0 : 0 ≤ I) (hI : I < n) {ks : List (Int × Int)}
    (hks : ks.Nodup) (hdom : ∀ k, m (I, k) ≠ none ↔ k ∈ ks) : ∃ hi : I.toNat < d.rows.length, d.rows[I.toNat].count = ks.length := by
  obtain ⟨hi, _, r2⟩ := row?_spec h h0 hI
  refine ⟨hi, ?_⟩
  obtain ⟨l, hl, ha⟩ := h.row _ hi
  rw [r2] at ha
  rw [← hl.len]
  have hnd : (l.map fun e => (e.1, e.2.1)).Nodup := by
    rw [List.Nodup, List.pairwise_map]
    exact hl.sorted.imp fun hab => hab.ne
  have hsub : ∀ k, k ∈ ks ↔ k ∈ l.map fun e => (e.1, e.2.1) := by
    intro k
    rw [← hdom]
    constructor
    · intro hne
      obtain ⟨v, hv⟩ := Option.ne_none_iff_exists'.mp hne
      exact List.mem_map.mpr ⟨(k.1, k.2, v), (ha k.1 k.2 v).mpr hv, rfl⟩
    · intro hmem
      obtain ⟨⟨a, b, c⟩, he, rfl⟩ := List.mem_map.mp hmem
      have : m (I, a, b) = some c := (ha _ _ _).mp he
      rw [this]
      simp
  have h5 := (List.Nodup.subperm hks fun k h => (hsub k).mp h).length_le
  have h6 := (List.Nodup.subperm hnd fun k h => (hsub k).mpr h).length_le
  rw [List.length_map] at h5 h6
  omega

/-- After 256 different keys with the same first number have been entered, none of them is found. -/
theorem enterAll_overflow {n : Nat} {I : Int} (h0 : 0 ≤ I) (hI : I < n) {ks : List (Int × Int)} (hks : ks.Nodup) (hl : ks.length = 256) :
    ∃ d c, enterAll (ks.map fun k => (I, k)) (init n 0 3 false) 0 = some (d, c) ∧ ∀ k : Int × Int, getValue d I k.1 k.2 = some (-1) := by
  obtain ⟨ks', k, rfl⟩ : ∃ ks' k, ks = ks' ++ [k] := by
    rcases List.eq_nil_or_concat ks with h | ⟨a, b, h⟩
    · rw [h] at hl
      exact absurd hl (by simp)
    · exact ⟨a, b, by rw [h, List.concat_eq_append]⟩
  have hl' : ks'.length = 255 := by
    simp only [List.length_append, List.length_cons, List.length_nil] at hl
    omega
  have hks' : ks'.Nodup := (List.nodup_append.mp hks).1
  have hk' : k ∉ ks' := fun hmem => (List.nodup_append.mp hks).2.2 k hmem k (by simp) rfl
  obtain ⟨d, m, c, e1, r1, _, hdom⟩ := enterAll_spec (ks'.map fun k => (I, k)) _ _ 0
    (rel_init n 0 3 false (by omega) (by omega)) rfl ⟨by simp, by simp⟩
    (by
      intro q hq
      obtain ⟨k, _, rfl⟩ := List.mem_map.mp hq
      exact ⟨h0, hI⟩)
    (by
      intro I' l hnd hmem
      have := (List.Nodup.subperm hnd (l₂ := ks') fun q hq => by
        rcases hmem q hq with h | h
        · exact absurd rfl h
        · obtain ⟨k, hk, he⟩ := List.mem_map.mp h
          rw [← (Prod.mk.inj he).2]
          exact hk).length_le
      omega)
  have hdom' : ∀ q, m (I, q) ≠ none ↔ q ∈ ks' := by
    intro q
    rw [hdom]
    simp
  obtain ⟨hi, hcount⟩ := count_of_dom r1 h0 hI hks' hdom'
  obtain ⟨_, q1, q2⟩ := row?_spec r1 h0 hI
  obtain ⟨l, hl1, ha⟩ := r1.row _ hi
  rw [q2] at ha
  have hno : ∀ e ∈ l, ¬(e.1 = k.1 ∧ e.2.1 = k.2) := by
    rintro ⟨a, b, v⟩ he ⟨g1, g2⟩
    simp only at g1 g2
    subst g1 g2
    have : m (I, k.1, k.2) = some v := (ha _ _ _).mp he
    exact hk' ((hdom' _).mp (by rw [this]; simp))
  obtain ⟨r', f1, f2, _⟩ := insertRow_spec hl1 ha r1.inc c hno
  have hstep : enterValue d I k.1 k.2 c = some ({ d with rows := d.rows.set I.toNat r', nnz := d.nnz + 1 }, (c : Int)) := by
    unfold enterValue
    rw [q1]
    have hfi : l.findIdx? (isKey k.1 k.2) = none := by
      rw [List.findIdx?_eq_none_iff]
      intro e he
      simpa [isKey] using hno e he
    simp only [enterRow, hl1.scan, hfi, f1]
  refine ⟨{ d with rows := d.rows.set I.toNat r', nnz := d.nnz + 1 }, c + 1, ?_, ?_⟩
  · rw [List.map_append, enterAll_append, e1]
    simp only [List.map_cons, List.map_nil, Option.bind_some, enterAll, hstep, if_true]
  · intro k2
    have hc0 : r'.count = 0 := by rw [f2, hcount, hl']
    unfold getValue row?
    rw [if_pos h0]
    simp only [List.getElem?_set_self hi, getRow, hc0, scan]

/-! ### Graphs -/

theorem row_bucketGraph (n : Nat) (items : List (Nat × Nat)) (hk : ∀ x ∈ items, x.1 < n) (c : Nat) (hc : c < n) :
    (bucketGraph n items).row c = (items.filter fun it => it.1 = c).map Prod.snd :=
  (bucket n items hk (List.replicate items.length 0) (by simp) (shiftBack n) (shiftBack_getD n)).2.2.2 c hc

theorem zip_filter (g : Nat → Nat) (i : Nat) : ∀ l : List Nat,
    (((l.map g).zip l).filter fun it => it.1 = i).map Prod.snd = l.filter fun c => g c = i := by
  intro l
  induction l with
  | nil => rfl
  | cons a l ih =>
    simp only [List.map_cons, List.zip_cons_cons, List.filter_cons]
    by_cases h : g a = i
    · simp only [h, decide_true, if_true, List.map_cons, ih]
    · simp only [h, decide_false, Bool.false_eq_true, if_false, ih]

theorem le_foldl_max {β : Type} [LinearOrder β] (f : Nat → β) : ∀ (l : List Nat) (s : β),
    s ≤ l.foldl (fun s i => max s (f i)) s ∧ ∀ i ∈ l, f i ≤ l.foldl (fun s i => max s (f i)) s := by
  intro l
  induction l with
  | nil => intro s; simp
  | cons a l ih =>
    intro s
    obtain ⟨h1, h2⟩ := ih (max s (f a))
    refine ⟨(le_max_left _ _).trans h1, fun i hi => ?_⟩
    rcases List.mem_cons.mp hi with rfl | hi
    · exact (le_max_right _ _).trans h1
    · exact h2 i hi

theorem foldl_min_le {β : Type} [LinearOrder β] (f : Nat → β) : ∀ (l : List Nat) (s : β),
    l.foldl (fun s i => min s (f i)) s ≤ s ∧ ∀ i ∈ l, l.foldl (fun s i => min s (f i)) s ≤ f i := by
  intro l
  induction l with
  | nil => intro s; simp
  | cons a l ih =>
    intro s
    obtain ⟨h1, h2⟩ := ih (min s (f a))
    refine ⟨h1.trans (min_le_left _ _), fun i hi => ?_⟩
    rcases List.mem_cons.mp hi with rfl | hi
    · exact h1.trans (min_le_right _ _)
    · exact h2 i hi

/-! ### The mesh -/

variable {K : Type} [Field K] [LinearOrder K]

/-- Meshes without degenerate cells. -/
structure Valid (m : Mesh K) : Prop where
  dim : m.dim = 1 ∨ m.dim = 2
  pos : 0 < m.numCells
  cell : ∀ c < m.numCells, ∀ i ≤ m.dim, m.cells c i < m.numVertices
  line : m.dim = 1 → ∀ c < m.numCells, m.simplex c 0 0 ≠ m.simplex c 1 0
  plane : m.dim = 2 → ∀ c < m.numCells,
    (m.simplex c 1 0 - m.simplex c 0 0) * (m.simplex c 2 1 - m.simplex c 0 1) -
      (m.simplex c 1 1 - m.simplex c 0 1) * (m.simplex c 2 0 - m.simplex c 0 0) ≠ 0
  h : 0 < m.h

theorem Mesh.xMin_le (m : Mesh K) {i : Nat} (hi : i < m.numVertices) (k : Nat) : m.xMin k ≤ m.vertices i k :=
  (foldl_min_le (fun i => m.vertices i k) (List.range m.numVertices) (m.vertices 0 k)).2 i (List.mem_range.mpr hi)

theorem Mesh.le_xMax (m : Mesh K) {i : Nat} (hi : i < m.numVertices) (k : Nat) : m.vertices i k ≤ m.xMax k :=
  (le_foldl_max (fun i => m.vertices i k) (List.range m.numVertices) (m.vertices 0 k)).2 i (List.mem_range.mpr hi)

theorem Valid.simplex_box {m : Mesh K} (hm : Valid m) {c : Nat} (hc : c < m.numCells) {i : Nat} (hi : i ≤ m.dim) (k : Nat) :
    m.xMin k ≤ m.simplex c i k ∧ m.simplex c i k ≤ m.xMax k :=
  ⟨m.xMin_le (hm.cell c hc i hi) k, m.le_xMax (hm.cell c hc i hi) k⟩

theorem Valid.extent {m : Mesh K} (hm : Valid m) {k : Nat} (hk : k < m.dim) : m.xMin k < m.xMax k := by
  by_contra hlt
  have heq : ∀ i ≤ m.dim, m.simplex 0 i k = m.xMin k := by
    intro i hi
    obtain ⟨h1, h2⟩ := hm.simplex_box hm.pos hi k
    exact le_antisymm (h2.trans (not_lt.mp hlt)) h1
  rcases hm.dim with hd | hd
  · have : k = 0 := by omega
    subst this
    exact hm.line hd 0 hm.pos ((heq 0 (by omega)).trans (heq 1 (by omega)).symm)
  · apply hm.plane hd 0 hm.pos
    have hk2 : k = 0 ∨ k = 1 := by omega
    rcases hk2 with rfl | rfl <;> rw [heq 0 (by omega), heq 1 (by omega), heq 2 (by omega)] <;> ring

variable [IsStrictOrderedRing K]

theorem foldl_add_bounds (f : Nat → K) (lo hi : K) : ∀ (n : Nat), (∀ i < n, lo ≤ f i ∧ f i ≤ hi) →
    (n : K) * lo ≤ (List.range n).foldl (fun s j => s + f j) 0 ∧ (List.range n).foldl (fun s j => s + f j) 0 ≤ (n : K) * hi := by
  intro n
  induction n with
  | zero => intro _; simp
  | succ n ih =>
    intro h
    obtain ⟨h1, h2⟩ := ih fun i hi' => h i (by omega)
    obtain ⟨h3, h4⟩ := h n (by omega)
    rw [List.range_succ, List.foldl_append, List.foldl_cons, List.foldl_nil]
    push_cast
    constructor <;> linarith

theorem center_bounds (m : Mesh K) (c k : Nat) (lo hi : K) (h : ∀ i < m.dim + 1, lo ≤ m.simplex c i k ∧ m.simplex c i k ≤ hi) :
    lo ≤ m.center c k ∧ m.center c k ≤ hi := by
  obtain ⟨h1, h2⟩ := foldl_add_bounds (fun j => m.simplex c j k) lo hi (m.dim + 1) h
  unfold Mesh.center
  have hp : (0 : K) < (m.dim : K) + 1 := by positivity
  push_cast at h1 h2
  rw [mul_one_div, le_div_iff₀ hp, div_le_iff₀ hp]
  constructor <;> linarith

/-- A point of the bounding box. -/
def InBox (m : Mesh K) (x : Nat → K) : Prop := ∀ k < m.dim, m.xMin k ≤ x k ∧ x k ≤ m.xMax k

theorem Valid.center_box {m : Mesh K} (hm : Valid m) {c : Nat} (hc : c < m.numCells) : InBox m (m.center c) := fun k _ =>
  center_bounds m c k _ _ fun _ hi => hm.simplex_box hc (by omega) k

theorem diamInv_pos {m : Mesh K} (hm : Valid m) {L k : Nat} (hL : 0 < L) (hk : k < m.dim) : 0 < m.diamInv L k := by
  have h1 : (0 : K) < L := by exact_mod_cast hL
  have h2 : 0 < m.xMax k - m.xMin k := sub_pos.mpr (hm.extent hk)
  unfold Mesh.diamInv
  positivity

variable [FloorRing K]

omit [IsStrictOrderedRing K] in
theorem trunc_nonneg {x : K} (hx : 0 ≤ x) : trunc x = ⌊x⌋ := if_pos hx

theorem coord_eq {m : Mesh K} (hm : Valid m) {L k : Nat} (hL : 0 < L) (hk : k < m.dim) {x : Nat → K} (hx : m.xMin k ≤ x k) :
    m.coord L x k = ⌊(x k - m.xMin k) * m.diamInv L k⌋ ∧ 0 ≤ m.coord L x k := by
  have h0 : 0 ≤ (x k - m.xMin k) * m.diamInv L k := mul_nonneg (sub_nonneg.mpr hx) (diamInv_pos hm hL hk).le
  unfold Mesh.coord
  rw [if_pos hk, trunc_nonneg h0]
  exact ⟨rfl, Int.floor_nonneg.mpr h0⟩

theorem coord_le_maxKey {m : Mesh K} (hm : Valid m) {L k : Nat} (hL : 0 < L) (hk : k < m.dim) {x : Nat → K}
    (hx : m.xMin k ≤ x k ∧ x k ≤ m.xMax k) : m.coord L x k ≤ m.maxKey L := by
  have hp := diamInv_pos hm hL hk
  rw [(coord_eq hm hL hk hx.1).1]
  have h1 := (le_foldl_max (fun j => trunc ((m.xMax j - m.xMin j) * m.diamInv L j)) (List.range m.dim) 0).2 k (List.mem_range.mpr hk)
  refine le_trans ?_ h1
  rw [trunc_nonneg (mul_nonneg (sub_nonneg.mpr (hx.1.trans hx.2)) hp.le)]
  refine Int.floor_le_floor ?_
  exact mul_le_mul_of_nonneg_right (by linarith [hx.2]) hp.le

omit [IsStrictOrderedRing K] in
theorem maxKey_nonneg (m : Mesh K) (L : Nat) : 0 ≤ m.maxKey L := (le_foldl_max _ (List.range m.dim) 0).1

theorem key_range {m : Mesh K} (hm : Valid m) {L : Nat} (hL : 0 < L) {x : Nat → K} (hx : InBox m x) :
    0 ≤ (m.key L x).1 ∧ (m.key L x).1 < ((m.maxKey L).toNat + 1 : Nat) := by
  have hd : 0 < m.dim := by rcases hm.dim with h | h <;> omega
  have h1 := (coord_eq hm hL hd (hx 0 hd).1).2
  have h2 := coord_le_maxKey hm hL hd (hx 0 hd)
  have h3 := maxKey_nonneg m L
  have e : (m.key L x).1 = m.coord L x 0 := rfl
  rw [e]
  push_cast
  omega

omit [FloorRing K] in
theorem doubling_pos {h : K} : ∀ {fuel L L' : Nat}, doubling h fuel L = some L' → 0 < L → 0 < L' := by
  intro fuel
  induction fuel with
  | zero => intro L L' h1 _; simp [doubling] at h1
  | succ fuel ih =>
    intro L L' h1 h2
    simp only [doubling] at h1
    split at h1
    · exact ih h1 (by omega)
    · cases h1; exact h2

omit [FloorRing K] in
/-- The length `L` is 1 or the last factor 2 was necessary. -/
theorem doubling_bound {h : K} : ∀ {fuel L L' : Nat}, doubling h fuel L = some L' → 1 / 2 ≤ (L' : K) * h ∧ (L' = L ∨ (L' : K) * h < 1) := by
  intro fuel
  induction fuel with
  | zero => intro L L' h1; simp [doubling] at h1
  | succ fuel ih =>
    intro L L' h1
    simp only [doubling] at h1
    split at h1
    · rename_i hlt
      obtain ⟨h2, h3⟩ := ih h1
      refine ⟨h2, Or.inr ?_⟩
      rcases h3 with h3 | h3
      · rw [h3]; push_cast; linarith
      · exact h3
    · rename_i hge
      cases h1
      exact ⟨not_lt.mp hge, Or.inl rfl⟩

theorem doubling_total {h : K} (hh : 0 < h) : ∃ n, ∀ fuel, n ≤ fuel → ∃ L, doubling h fuel 1 = some L := by
  have key : ∀ (n L : Nat), 1 / 2 ≤ (L : K) * 2 ^ n * h → ∀ fuel, n + 1 ≤ fuel → ∃ L', doubling h fuel L = some L' := by
    intro n
    induction n with
    | zero =>
      intro L hL fuel hf
      obtain ⟨f, rfl⟩ : ∃ f, fuel = f + 1 := ⟨fuel - 1, by omega⟩
      refine ⟨L, ?_⟩
      rw [doubling, if_neg]
      simpa using hL
    | succ n ih =>
      intro L hL fuel hf
      obtain ⟨f, rfl⟩ : ∃ f, fuel = f + 1 := ⟨fuel - 1, by omega⟩
      rw [doubling]
      split
      · refine ih (L * 2) ?_ f (by omega)
        push_cast
        rw [pow_succ] at hL
        linarith
      · exact ⟨L, rfl⟩
  obtain ⟨n, hn⟩ := pow_unbounded_of_one_lt (1 / 2 / h) (one_lt_two (α := K))
  refine ⟨n + 1, key n 1 ?_⟩
  rw [div_lt_iff₀ hh] at hn
  simp only [Nat.cast_one, one_mul]
  exact hn.le

/-! ### The finder -/

/-- What the constructor sets up. -/
structure Built (m : Mesh K) (f : Finder K) (map : FaceMap) : Prop where
  mesh : f.mesh = m
  pos : 0 < f.L
  rel : Rel ((m.maxKey f.L).toNat + 1) f.lookup map
  dom : ∀ k, map k ≠ none ↔ ∃ c < m.numCells, m.key f.L (m.center c) = k
  val : ∀ k v, map k = some v → 0 ≤ v ∧
    f.graph.row v.toNat = (List.range m.numCells).filter (fun c => m.key f.L (m.center c) = k)
  room : ∀ k, 3 ^ m.dim * ((List.range m.numCells).filter fun c => m.key f.L (m.center c) = k).length ≤ f.capacity
  v2c : ∀ v < m.numVertices, ∀ c, c ∈ f.v2c.row v ↔ c < m.numCells ∧ ∃ i ≤ m.dim, m.cells c i = v

/-- No more than 255 boxes with the same first number are occupied. -/
def KeysFit (m : Mesh K) (L : Nat) : Prop :=
  ∀ (I : Int) (l : List (Int × Int)), l.Nodup → (∀ k ∈ l, ∃ c < m.numCells, m.key L (m.center c) = (I, k)) → l.length ≤ 255

theorem build_spec {m : Mesh K} (hm : Valid m) {fuel L : Nat} (hL : doubling m.h fuel 1 = some L) (hfit : KeysFit m L) :
    ∃ f map, build m fuel = some f ∧ f.L = L ∧ Built m f map := by
  have hpos := doubling_pos hL one_pos
  have hrange : ∀ k ∈ (List.range m.numCells).map (fun c => m.key L (m.center c)), 0 ≤ k.1 ∧ k.1 < ((m.maxKey L).toNat + 1 : Nat) := by
    intro k hk
    obtain ⟨c, hc, rfl⟩ := List.mem_map.mp hk
    exact key_range hm hpos (hm.center_box (List.mem_range.mp hc))
  obtain ⟨d, map, n, e1, r1, hn, hdom⟩ := enterAll_spec ((List.range m.numCells).map fun c => m.key L (m.center c)) _ _ 0
    (rel_init ((m.maxKey L).toNat + 1) 0 3 false (by omega) (by omega)) rfl ⟨by simp, by simp⟩ hrange
    (by
      intro I l hl hmem
      refine hfit I l hl fun k hk => ?_
      rcases hmem k hk with h | h
      · exact absurd rfl h
      · obtain ⟨c, hc, he⟩ := List.mem_map.mp h
        exact ⟨c, List.mem_range.mp hc, he⟩)
  have hdom' : ∀ k, map k ≠ none ↔ ∃ c < m.numCells, m.key L (m.center c) = k := by
    intro k
    rw [hdom]
    simp [List.mem_map, List.mem_range]
  have e2 := getAll_spec r1 _ hrange
  have hsome : ∀ c < m.numCells, ∃ v, map (m.key L (m.center c)) = some v := fun c hc =>
    Option.ne_none_iff_exists'.mp ((hdom' _).mpr ⟨c, hc, rfl⟩)
  unfold build
  rw [hL]
  simp only [e1, e2]
  rw [List.map_map, if_neg (by
    rw [not_not, List.countP_eq_length.mpr, List.length_map, List.length_range]
    intro i hi
    obtain ⟨c, hc, rfl⟩ := List.mem_map.mp hi
    obtain ⟨v, hv⟩ := hsome c (List.mem_range.mp hc)
    have := hn.range _ _ hv
    simp only [Function.comp_apply, hv, Option.getD_some]
    exact decide_eq_true this.1), List.map_map]
  set g : Nat → Nat := Int.toNat ∘ (fun k => (map k).getD (-1)) ∘ fun c => m.key L (m.center c) with hg
  have hgv : ∀ c v, map (m.key L (m.center c)) = some v → g c = v.toNat := by
    intro c v hv
    simp [hg, hv]
  have hgn : ∀ c < m.numCells, g c < n := by
    intro c hc
    obtain ⟨v, hv⟩ := hsome c hc
    rw [hgv c v hv]
    have := hn.range _ _ hv
    omega
  have hfilter : ∀ k v, map k = some v →
      (List.range m.numCells).filter (fun c => g c = v.toNat) = (List.range m.numCells).filter fun c => m.key L (m.center c) = k := by
    intro k v hv
    refine List.filter_congr fun c hc => ?_
    obtain ⟨w, hw⟩ := hsome c (List.mem_range.mp hc)
    rw [hgv c w hw]
    have h1 := hn.range _ _ hv
    have h2 := hn.range _ _ hw
    refine decide_eq_decide.mpr ⟨fun h => ?_, fun h => ?_⟩
    · have : w = v := by omega
      exact hn.inj _ _ _ hw (this ▸ hv)
    · rw [h, hv] at hw
      cases hw
      rfl
  have hitems : ∀ x ∈ ((List.range m.numCells).map g).zip (List.range m.numCells), x.1 < n := by
    rintro ⟨a, b⟩ hx
    obtain ⟨c, hc, rfl⟩ := List.mem_map.mp (List.of_mem_zip hx).1
    exact hgn c (List.mem_range.mp hc)
  refine ⟨_, map, rfl, rfl, rfl, hpos, r1, hdom', ?_, ?_, ?_⟩
  · intro k v hv
    have h1 := hn.range _ _ hv
    refine ⟨h1.1, ?_⟩
    simp only
    rw [row_bucketGraph n _ hitems v.toNat (by omega), zip_filter g, hfilter k v hv]
  · intro k
    simp only
    refine Nat.mul_le_mul_left _ ?_
    cases hv : map k with
    | none =>
      have : (List.range m.numCells).filter (fun c => m.key L (m.center c) = k) = [] := by
        rw [List.filter_eq_nil_iff]
        intro c hc
        have hno : ¬∃ c < m.numCells, m.key L (m.center c) = k := fun h => ((hdom' k).mpr h) hv
        simp only [decide_eq_true_eq]
        exact fun he => hno ⟨c, List.mem_range.mp hc, he⟩
      rw [this]
      exact Nat.zero_le _
    | some v =>
      have h1 := hn.range _ _ hv
      rw [← hfilter k v hv]
      refine le_trans ?_ ((le_foldl_max (fun i => ((List.range m.numCells).map g).count i) (List.range n) 0).2 v.toNat
        (List.mem_range.mpr (by omega)))
      rw [List.count, List.countP_map, List.countP_eq_length_filter]
      refine le_of_eq (congrArg List.length (List.filter_congr fun c _ => ?_))
      rfl
  · intro v hv c
    simp only
    have hitems2 : ∀ x ∈ (List.range m.numCells).flatMap fun c => (List.range (m.dim + 1)).map fun i => (m.cells c i, c),
        x.1 < m.numVertices := by
      intro x hx
      obtain ⟨c, hc, hx⟩ := List.mem_flatMap.mp hx
      obtain ⟨i, hi, rfl⟩ := List.mem_map.mp hx
      exact hm.cell c (List.mem_range.mp hc) i (by have := List.mem_range.mp hi; omega)
    rw [row_bucketGraph _ _ hitems2 v hv]
    simp only [List.mem_map, List.mem_filter, List.mem_flatMap, List.mem_range, decide_eq_true_eq]
    constructor
    · rintro ⟨⟨a, b⟩, ⟨⟨c', hc', i, hi, he⟩, h2⟩, rfl⟩
      cases he
      exact ⟨hc', i, by omega, h2⟩
    · rintro ⟨hc, i, hi, he⟩
      exact ⟨(v, c), ⟨⟨c, hc, i, by omega, by rw [he]⟩, rfl⟩, rfl⟩

/-- Whatever the constructor returns was set up like this. -/
theorem built_of_build {m : Mesh K} (hm : Valid m) {fuel : Nat} {f : Finder K} (hf : build m fuel = some f)
    (hfit : ∀ L, doubling m.h fuel 1 = some L → KeysFit m L) : ∃ map, Built m f map := by
  cases hL : doubling m.h fuel 1 with
  | none =>
    unfold build at hf
    rw [hL] at hf
    cases hf
  | some L =>
    obtain ⟨f', map, h1, _, h2⟩ := build_spec hm hL (hfit L hL)
    rw [hf] at h1
    cases h1
    exact ⟨map, h2⟩

/-- The cells whose centres are in the box with a key. -/
def boxOf (m : Mesh K) (L : Nat) (k : Int × Int × Int) : List Nat := (List.range m.numCells).filter fun c => m.key L (m.center c) = k

theorem neighbourKeys_one (k : Int × Int × Int) : neighbourKeys 1 k = [(k.1 - 1, k.2.1, k.2.2), k, (k.1 + 1, k.2.1, k.2.2)] := by
  have : ProductIterator.drain 3 (3 ^ 1 + 1) (ProductIterator.reset 1) = some [[0], [1], [2]] := by decide +kernel
  obtain ⟨a, b, c⟩ := k
  unfold neighbourKeys
  rw [this]
  simp only [List.map_cons, List.map_nil, List.getD_cons_zero, List.getD_cons_succ, List.getD_nil, List.cons.injEq, Prod.mk.injEq, and_true]
  omega

theorem neighbourKeys_two (k : Int × Int × Int) : neighbourKeys 2 k =
    [(k.1 - 1, k.2.1 - 1, k.2.2), (k.1 - 1, k.2.1, k.2.2), (k.1 - 1, k.2.1 + 1, k.2.2),
      (k.1, k.2.1 - 1, k.2.2), k, (k.1, k.2.1 + 1, k.2.2),
      (k.1 + 1, k.2.1 - 1, k.2.2), (k.1 + 1, k.2.1, k.2.2), (k.1 + 1, k.2.1 + 1, k.2.2)] := by
  have : ProductIterator.drain 3 (3 ^ 2 + 1) (ProductIterator.reset 2) =
    some [[0, 0], [0, 1], [0, 2], [1, 0], [1, 1], [1, 2], [2, 0], [2, 1], [2, 2]] := by decide +kernel
  obtain ⟨a, b, c⟩ := k
  unfold neighbourKeys
  rw [this]
  simp only [List.map_cons, List.map_nil, List.getD_cons_zero, List.getD_cons_succ, List.getD_nil, List.cons.injEq, Prod.mk.injEq, and_true]
  omega

theorem neighbourKeys_spec {dim : Nat} (hd : dim = 1 ∨ dim = 2) (k : Int × Int × Int) :
    (neighbourKeys dim k).Nodup ∧ (neighbourKeys dim k).length = 3 ^ dim ∧
      ∀ k', k' ∈ neighbourKeys dim k ↔ (k.1 - 1 ≤ k'.1 ∧ k'.1 ≤ k.1 + 1) ∧
        (if dim = 1 then k'.2.1 = k.2.1 else k.2.1 - 1 ≤ k'.2.1 ∧ k'.2.1 ≤ k.2.1 + 1) ∧ k'.2.2 = k.2.2 := by
  obtain ⟨a, b, c⟩ := k
  rcases hd with rfl | rfl
  · rw [neighbourKeys_one]
    refine ⟨?_, rfl, ?_⟩
    · simp; omega
    · rintro ⟨a', b', c'⟩
      simp only [List.mem_cons, Prod.mk.injEq, List.not_mem_nil, or_false, if_true]
      omega
  · rw [neighbourKeys_two]
    refine ⟨?_, rfl, ?_⟩
    · simp; omega
    · rintro ⟨a', b', c'⟩
      simp only [List.mem_cons, Prod.mk.injEq, List.not_mem_nil, or_false]
      rw [if_neg (by omega)]
      omega

theorem row?_some {n : Nat} {d : Dict} {m : FaceMap} (h : Rel n d m) {I : Int} {r : Row} (hr : row? d I = some r) : 0 ≤ I ∧ I < n := by
  unfold row? at hr
  split at hr
  · rename_i h0
    have := (List.getElem?_eq_some_iff.mp hr).1
    rw [h.len] at this
    omega
  · cases hr

theorem getValue_some {n : Nat} {d : Dict} {m : FaceMap} (h : Rel n d m) {I J K v : Int} (hv : getValue d I J K = some v) :
    (0 ≤ I ∧ I < n) ∧ v = (m (I, J, K)).getD (-1) := by
  have hI : 0 ≤ I ∧ I < n := by
    unfold getValue at hv
    split at hv
    · cases hv
    · rename_i r hr
      exact row?_some h hr
  refine ⟨hI, ?_⟩
  rw [getValue_spec h hI.1 hI.2] at hv
  exact (Option.some.inj hv).symm

theorem getAll_some {n : Nat} {d : Dict} {m : FaceMap} (h : Rel n d m) : ∀ (ks : List (Int × Int × Int)) (l : List Int),
    getAll d ks = some l → l = ks.map fun k => (m k).getD (-1) := by
  intro ks
  induction ks with
  | nil => intro l hl; cases hl; rfl
  | cons k ks ih =>
    intro l hl
    simp only [getAll] at hl
    split at hl
    · cases hl
    · rename_i v hv
      cases hg : getAll d ks with
      | none => rw [hg] at hl; cases hl
      | some l' =>
        rw [hg, Option.map_some] at hl
        cases hl
        rw [List.map_cons, ← ih l' hg, (getValue_some h hv).2]

/-- The cells that are tried first: those with their centre in the box of the point, or in the surrounding boxes if there is none. -/
def Near (m : Mesh K) (L : Nat) (x : Nat → K) (c : Nat) : Prop :=
  c < m.numCells ∧
    ((∃ c' < m.numCells, m.key L (m.center c') = m.key L x) → m.key L (m.center c) = m.key L x) ∧
    ∀ j < m.dim, |m.coord L (m.center c) j - m.coord L x j| ≤ 1

omit [IsStrictOrderedRing K] in
theorem coord_ge (m : Mesh K) (L : Nat) (x : Nat → K) {j : Nat} (hj : m.dim ≤ j) : m.coord L x j = 0 := if_neg (by omega)

omit [IsStrictOrderedRing K] in
theorem mem_neighbour {m : Mesh K} (hd : m.dim = 1 ∨ m.dim = 2) (L : Nat) (x y : Nat → K) :
    m.key L y ∈ neighbourKeys m.dim (m.key L x) ↔ ∀ j < m.dim, |m.coord L y j - m.coord L x j| ≤ 1 := by
  rw [(neighbourKeys_spec hd _).2.2]
  have h2 : m.coord L y 2 = m.coord L x 2 := by rw [coord_ge m L y (by omega), coord_ge m L x (by omega)]
  rcases hd with hd | hd
  · have h1 : m.coord L y 1 = m.coord L x 1 := by rw [coord_ge m L y (by omega), coord_ge m L x (by omega)]
    rw [if_pos hd, hd]
    simp only [Mesh.key, h1, h2, and_true]
    constructor
    · intro h j hj
      obtain rfl : j = 0 := by omega
      rw [abs_le]
      omega
    · intro h
      have := abs_le.mp (h 0 (by omega))
      omega
  · rw [if_neg (by omega), hd]
    simp only [Mesh.key, h2, and_true]
    constructor
    · intro h j hj
      rw [abs_le]
      have : j = 0 ∨ j = 1 := by omega
      rcases this with rfl | rfl <;> omega
    · intro h
      have := abs_le.mp (h 0 (by omega))
      have := abs_le.mp (h 1 (by omega))
      omega

theorem boxCells_spec {m : Mesh K} {f : Finder K} {map : FaceMap} (hb : Built m f map) (k : Int × Int × Int) :
    boxCells f.graph ((map k).getD (-1)) = boxOf m f.L k := by
  unfold boxCells boxOf
  cases hv : map k with
  | none =>
    rw [Option.getD_none, if_neg (by simp)]
    symm
    rw [List.filter_eq_nil_iff]
    intro c hc
    have hno : ¬∃ c < m.numCells, m.key f.L (m.center c) = k := fun h => ((hb.dom k).mpr h) hv
    simp only [decide_eq_true_eq]
    exact fun he => hno ⟨c, List.mem_range.mp hc, he⟩
  | some v =>
    obtain ⟨h1, h2⟩ := hb.val k v hv
    rw [Option.getD_some, if_pos (by omega), h2]

omit [IsStrictOrderedRing K] in
theorem mem_boxOf {m : Mesh K} {L : Nat} {k : Int × Int × Int} {c : Nat} :
    c ∈ boxOf m L k ↔ c < m.numCells ∧ m.key L (m.center c) = k := by
  simp [boxOf]

theorem candidates_some {m : Mesh K} (hm : Valid m) {f : Finder K} {map : FaceMap} (hb : Built m f map) {x : Nat → K} {cand : List Nat}
    (hc : candidates f x = some cand) :
    cand.Nodup ∧ cand.length ≤ f.capacity ∧ ∀ c, c ∈ cand ↔ Near m f.L x c := by
  unfold candidates at hc
  rw [hb.mesh] at hc
  split at hc
  · cases hc
  · rename_i idx hidx
    obtain ⟨hr, hv⟩ := getValue_some hb.rel hidx
    have hv : idx = (map (m.key f.L x)).getD (-1) := hv
    have hbox := boxCells_spec hb (m.key f.L x)
    rw [← hv] at hbox
    unfold boxCells at hbox
    have hpow : 1 ≤ 3 ^ m.dim := Nat.one_le_pow _ _ (by omega)
    split at hc
    · rename_i hne
      rw [if_pos hne] at hbox
      cases hc
      rw [hbox]
      refine ⟨List.nodup_range.filter _, (Nat.le_mul_of_pos_left _ hpow).trans (hb.room _), fun c => ?_⟩
      have hex : ∃ c' < m.numCells, m.key f.L (m.center c') = m.key f.L x := by
        rw [← hb.dom]
        intro h0
        rw [h0] at hv
        exact hne hv
      rw [mem_boxOf]
      constructor
      · rintro ⟨h1, h2⟩
        refine ⟨h1, fun _ => h2, fun j hj => ?_⟩
        have : m.coord f.L (m.center c) j = m.coord f.L x j := by
          simp only [Mesh.key, Prod.mk.injEq] at h2
          have : j = 0 ∨ j = 1 := by have := hm.dim; omega
          rcases this with rfl | rfl
          · exact h2.1
          · exact h2.2.1
        rw [this]
        simp
      · rintro ⟨h1, h2, _⟩
        exact ⟨h1, h2 hex⟩
    · rename_i hne
      have hne : idx = -1 := not_not.mp hne
      have hnone : map (m.key f.L x) = none := by
        cases h : map (m.key f.L x) with
        | none => rfl
        | some v =>
          have := (hb.val _ _ h).1
          rw [h, Option.getD_some] at hv
          omega
      have hno : ¬∃ c' < m.numCells, m.key f.L (m.center c') = m.key f.L x := fun h => (hb.dom _).mpr h hnone
      cases hg : getAll f.lookup (neighbourKeys m.dim (m.key f.L x)) with
      | none => rw [hg] at hc; cases hc
      | some l =>
        rw [hg, Option.map_some] at hc
        cases hc
        rw [getAll_some hb.rel _ _ hg, List.flatMap_map]
        have e : (fun a => boxCells f.graph ((map a).getD (-1))) = boxOf m f.L := funext fun a => boxCells_spec hb a
        simp only [e]
        obtain ⟨n1, n2, _⟩ := neighbourKeys_spec hm.dim (m.key f.L x)
        refine ⟨?_, ?_, fun c => ?_⟩
        · rw [List.nodup_flatMap]
          refine ⟨fun _ _ => List.nodup_range.filter _, n1.imp fun {a b} hab => ?_⟩
          intro c h1 h2
          exact hab ((mem_boxOf.mp h1).2.symm.trans (mem_boxOf.mp h2).2)
        · have : ∀ ks : List (Int × Int × Int), 3 ^ m.dim * (ks.flatMap (boxOf m f.L)).length ≤ ks.length * f.capacity := by
            intro ks
            induction ks with
            | nil => simp
            | cons k ks ih =>
              rw [List.flatMap_cons, List.length_append, Nat.mul_add, List.length_cons, Nat.add_mul, one_mul]
              have : 3 ^ m.dim * (boxOf m f.L k).length ≤ f.capacity := hb.room k
              omega
          have h3 := this (neighbourKeys m.dim (m.key f.L x))
          rw [n2] at h3
          exact Nat.le_of_mul_le_mul_left h3 (by omega)
        · rw [List.mem_flatMap]
          constructor
          · rintro ⟨k, hk, hck⟩
            obtain ⟨h1, rfl⟩ := mem_boxOf.mp hck
            exact ⟨h1, fun h => absurd h hno, (mem_neighbour hm.dim _ _ _).mp hk⟩
          · rintro ⟨h1, _, h3⟩
            exact ⟨_, (mem_neighbour hm.dim _ _ _).mpr h3, mem_boxOf.mpr ⟨h1, rfl⟩⟩

/-- The box of the point is occupied, or it is not in the first or last slice. -/
def SafeKey (m : Mesh K) (L : Nat) (x : Nat → K) : Prop :=
  (∃ c < m.numCells, m.key L (m.center c) = m.key L x) ∨ (0 < m.coord L x 0 ∧ m.coord L x 0 < m.maxKey L)

theorem candidates_total {m : Mesh K} (hm : Valid m) {f : Finder K} {map : FaceMap} (hb : Built m f map) {x : Nat → K}
    (hx : InBox m x) (hs : SafeKey m f.L x) : ∃ cand, candidates f x = some cand := by
  have hr := key_range hm hb.pos hx
  unfold candidates
  rw [hb.mesh, getValue_spec hb.rel hr.1 hr.2]
  simp only
  split
  · exact ⟨_, rfl⟩
  · rename_i hne
    rcases hs with hs | hs
    · exfalso
      obtain ⟨v, hv⟩ := Option.ne_none_iff_exists'.mp ((hb.dom _).mpr hs)
      have h1 := (hb.val _ _ hv).1
      apply hne
      show (map (m.key f.L x)).getD (-1) ≠ -1
      rw [hv, Option.getD_some]
      omega
    · rw [getAll_spec hb.rel _ ?_]
      · exact ⟨_, rfl⟩
      · intro k hk
        have h1 := (((neighbourKeys_spec hm.dim _).2.2 k).mp hk).1
        have h2 : (m.key f.L x).1 = m.coord f.L x 0 := rfl
        rw [h2] at h1
        push_cast
        omega

/-- Two cells have a common vertex. -/
def Touch (m : Mesh K) (c c' : Nat) : Prop := ∃ i ≤ m.dim, ∃ j ≤ m.dim, m.cells c i = m.cells c' j

theorem mem_around {m : Mesh K} (hm : Valid m) {f : Finder K} {map : FaceMap} (hb : Built m f map) {cand : List Nat}
    (hc : ∀ c ∈ cand, c < m.numCells) (c : Nat) : c ∈ around f cand ↔ c < m.numCells ∧ ∃ c' ∈ cand, Touch m c c' := by
  unfold around
  rw [List.mem_dedup, hb.mesh]
  simp only [List.mem_flatMap, List.mem_range]
  constructor
  · rintro ⟨c', h1, i, h2, h3⟩
    obtain ⟨h4, j, h5, h6⟩ := (hb.v2c _ (hm.cell c' (hc c' h1) i (by omega)) c).mp h3
    exact ⟨h4, c', h1, j, h5, i, by omega, h6⟩
  · rintro ⟨h1, c', h2, j, h3, i, h4, h5⟩
    exact ⟨c', h2, i, by omega, (hb.v2c _ (hm.cell c' (hc c' h2) i h4) c).mpr ⟨h1, j, h3, h5⟩⟩

theorem removeAll_spec : ∀ (cs s : List Nat), cs.Nodup → s.Nodup → (∀ c ∈ cs, c ∈ s) →
    ∃ t, removeAll cs s = some t ∧ ∀ c, c ∈ t ↔ c ∈ s ∧ c ∉ cs := by
  intro cs
  induction cs with
  | nil => intro s _ _ _; exact ⟨s, rfl, by simp⟩
  | cons a cs ih =>
    intro s h1 h2 h3
    rw [List.nodup_cons] at h1
    obtain ⟨t, e1, e2⟩ := ih (s.erase a) h1.2 (h2.erase a) (by
      intro c hc
      rw [h2.mem_erase_iff]
      exact ⟨fun e => h1.1 (e ▸ hc), h3 c (List.mem_cons_of_mem _ hc)⟩)
    refine ⟨t, by rw [removeAll, if_pos (h3 a List.mem_cons_self), e1], fun c => ?_⟩
    rw [e2, h2.mem_erase_iff, List.mem_cons]
    tauto

/-- Candidates and their neighbours. -/
def Tried (m : Mesh K) (L : Nat) (x : Nat → K) (c : Nat) : Prop := c < m.numCells ∧ ∃ c', Near m L x c' ∧ Touch m c c'

theorem near_tried {m : Mesh K} {L : Nat} {x : Nat → K} {c : Nat} (h : Near m L x c) : Tried m L x c :=
  ⟨h.1, c, h, 0, Nat.zero_le _, 0, Nat.zero_le _, rfl⟩

/-- Result of the search. -/
theorem findCell_spec {m : Mesh K} (hm : Valid m) {f : Finder K} {map : FaceMap} (hb : Built m f map)
    {order : List Nat → List Nat} (hord : ∀ l, (order l).Perm l) {x : Nat → K} {cand : List Nat} (hc : candidates f x = some cand) :
    (∃ c, findCell order f x = some (some (c, m.bary c x)) ∧ Tried m f.L x c ∧
      (m.inCell c x 0 = true ∨
        (m.inCell c x (1 / 10 ^ 15) = true ∧ ∀ c', Tried m f.L x c' → m.inCell c' x 0 = false))) ∨
    (findCell order f x = some none ∧ ∀ c', Tried m f.L x c' → m.inCell c' x 0 = false ∧ m.inCell c' x (1 / 10 ^ 15) = false) := by
  obtain ⟨h1, h2, h3⟩ := candidates_some hm hb hc
  have hlt : ∀ c ∈ cand, c < m.numCells := fun c h => ((h3 c).mp h).1
  obtain ⟨t, e1, e2⟩ := removeAll_spec cand (around f cand) h1 (List.nodup_dedup _) (by
    intro c h
    exact (mem_around hm hb hlt c).mpr ⟨hlt c h, c, h, 0, Nat.zero_le _, 0, Nat.zero_le _, rfl⟩)
  have hmem : ∀ c, Tried m f.L x c ↔ c ∈ cand ∨ c ∈ order t := by
    intro c
    rw [(hord t).mem_iff, e2, mem_around hm hb hlt]
    constructor
    · rintro ⟨g1, c', g2, g3⟩
      by_cases hcc : c ∈ cand
      · exact Or.inl hcc
      · exact Or.inr ⟨⟨g1, c', (h3 c').mpr g2, g3⟩, hcc⟩
    · rintro (g | ⟨⟨g1, c', g2, g3⟩, _⟩)
      · exact near_tried ((h3 c).mp g)
      · exact ⟨g1, c', (h3 c').mp g2, g3⟩
  unfold findCell
  simp only [hc, if_neg (Nat.not_lt.mpr h2), e1, hb.mesh]
  cases f1 : cand.find? fun c => m.inCell c x 0 with
  | some c =>
    left
    exact ⟨c, rfl, (hmem c).mpr (Or.inl (List.mem_of_find?_eq_some f1)), Or.inl (List.find?_some (p := fun c => m.inCell c x 0) f1)⟩
  | none =>
    cases f2 : (order t).find? fun c => m.inCell c x 0 with
    | some c =>
      left
      exact ⟨c, rfl, (hmem c).mpr (Or.inr (List.mem_of_find?_eq_some f2)), Or.inl (List.find?_some (p := fun c => m.inCell c x 0) f2)⟩
    | none =>
      rw [List.find?_eq_none] at f1 f2
      have hz : ∀ c', Tried m f.L x c' → m.inCell c' x 0 = false := by
        intro c' h
        rcases (hmem c').mp h with h | h
        · exact Bool.eq_false_iff.mpr (f1 c' h)
        · exact Bool.eq_false_iff.mpr (f2 c' h)
      cases f3 : cand.find? fun c => m.inCell c x (1 / 10 ^ 15) with
      | some c =>
        left
        exact ⟨c, rfl, (hmem c).mpr (Or.inl (List.mem_of_find?_eq_some f3)),
          Or.inr ⟨List.find?_some (p := fun c => m.inCell c x (1 / 10 ^ 15)) f3, hz⟩⟩
      | none =>
        cases f4 : (order t).find? fun c => m.inCell c x (1 / 10 ^ 15) with
        | some c =>
          left
          exact ⟨c, rfl, (hmem c).mpr (Or.inr (List.mem_of_find?_eq_some f4)),
            Or.inr ⟨List.find?_some (p := fun c => m.inCell c x (1 / 10 ^ 15)) f4, hz⟩⟩
        | none =>
          right
          rw [List.find?_eq_none] at f3 f4
          refine ⟨rfl, fun c' h => ⟨hz c' h, ?_⟩⟩
          rcases (hmem c').mp h with h | h
          · exact Bool.eq_false_iff.mpr (f3 c' h)
          · exact Bool.eq_false_iff.mpr (f4 c' h)

end PyNucleus.CellFinder
