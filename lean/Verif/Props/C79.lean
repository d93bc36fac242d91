import Mathlib.Data.List.Perm.Subperm
import Verif.Proof.FaceVals

/-!
# C79 `faceVals` behaves as a finite map
-/

namespace PyNucleus.Props.C79

open PyNucleus.FaceVals PyNucleus.Spec

/-- For every history of calls on existing rows in which no more than 255 keys have the same first number, no call touches memory
outside of the allocation, every returned value is the one of the abstract map, and `nnz` counts the keys. -/
theorem refines_map_partial (n initialLength lengthInc : Nat) (deleteHits : Bool) (hi : initialLength < 256) (hinc : 0 < lengthInc)
    (ops : List Op) (hrow : ∀ op ∈ ops, 0 ≤ faceRow op ∧ faceRow op < n)
    (hfit : ∀ pre, pre <+: ops → FaceFits (faceRun deleteHits (fun _ => none) pre).1) :
    ∃ d, run (init n initialLength lengthInc deleteHits) ops = some (d, (faceRun deleteHits (fun _ => none) ops).2) ∧
      ∃ L, items d (L.length + 1) = some L ∧ d.nnz = L.length ∧ L.Pairwise KeyLess ∧
        ∀ k v, (k, v) ∈ L ↔ (faceRun deleteHits (fun _ => none) ops).1 k = some v := by
  obtain ⟨d, h1, h2, _⟩ := run_rel ops _ _ (rel_init n initialLength lengthInc deleteHits hi hinc) hrow hfit
  refine ⟨d, h1, itemsFrom d.rows 0, ?_, ?_, ?_, ?_⟩
  · obtain ⟨s1, s2⟩ := skipEmpty_spec d.rows _ 0 rfl
    unfold items
    rw [iterate_spec d ?_ _ _ _ s2 (fun _ => rfl) (by rw [← s1]; omega), List.drop_zero, ← s1]
    intro i h
    obtain ⟨l, hl, _⟩ := h2.row i h
    exact hl.le
  · rw [h2.nnz, itemsFrom_length h2 _ 0 rfl, List.drop_zero]
  · exact (itemsFrom_spec h2 _ 0 rfl).1
  · rintro ⟨I, J, K⟩ v
    rw [(itemsFrom_spec h2 _ 0 rfl).2 I J K v]
    constructor
    · exact fun h => h.2
    · intro h
      refine ⟨?_, h⟩
      by_contra hneg
      have := h2.out I (J, K) (Or.inl (by push_cast at hneg; omega))
      exact absurd (this.symm.trans h) (by simp)

/-- With `deleteHits` a key entered once is listed, entered twice it is not: this finds the faces with one cell. -/
theorem delete_twice (m : FaceMap) (I J K v w : Int) (h : m (I, J, K) = none) :
    (faceRun true m [.enter I J K v, .enter I J K w]).1 (I, J, K) = none ∧
      (faceRun true m [.enter I J K v]).1 (I, J, K) = some v ∧
      (faceRun true m [.enter I J K v, .enter I J K w]).2 = [v, v] := by
  simp [faceRun, faceStep, h, FaceMap.put]

/-- Entering distinct keys gives a map with these keys. -/
theorem enter_distinct (deleteHits : Bool) (I : Int) : ∀ (ks : List (Int × Int)), ks.Nodup → ∀ m : FaceMap,
    (∀ k ∈ ks, m (I, k) = none) →
    ∀ k', (faceRun deleteHits m (ks.map fun k => Op.enter I k.1 k.2 0)).1 k' =
      if k'.1 = I ∧ k'.2 ∈ ks then some 0 else m k' := by
  intro ks
  induction ks with
  | nil => intro _ m _ k'; simp [faceRun]
  | cons k ks ih =>
    intro hn m hm k'
    rw [List.nodup_cons] at hn
    have h0 := hm k List.mem_cons_self
    have hstep : (faceStep deleteHits m (.enter I k.1 k.2 0)).1 = m.put (I, k) (some 0) := by
      simp only [faceStep]
      rw [show m (I, k.1, k.2) = none from h0]
    simp only [List.map_cons, faceRun]
    rw [hstep, ih hn.2 _ ?_ k']
    · obtain ⟨I', k'⟩ := k'
      simp only [FaceMap.put, List.mem_cons, Prod.mk.injEq]
      by_cases h1 : I' = I <;> by_cases h2 : k' ∈ ks <;> by_cases h3 : k' = k <;> simp [h1, h2, h3]
    · intro k2 hk2
      have : k2 ≠ k := fun e => hn.1 (e ▸ hk2)
      simp only [FaceMap.put, Prod.mk.injEq, this, and_false, if_false]
      exact hm k2 (List.mem_cons_of_mem _ hk2)

theorem run_append (d : Dict) (a b : List Op) : run d (a ++ b) =
    (run d a).bind fun p => (run p.1 b).map fun q => (q.1, p.2 ++ q.2) := by
  induction a generalizing d with
  | nil =>
    simp only [List.nil_append, run, Option.bind_some]
    cases run d b <;> simp
  | cons o a ih =>
    simp only [List.cons_append, run]
    cases h1 : step d o with
    | none => rfl
    | some p =>
      obtain ⟨d1, o1⟩ := p
      simp only [ih]
      cases h2 : run d1 a with
      | none => rfl
      | some q =>
        obtain ⟨d2, o2⟩ := q
        simp only [Option.bind_some]
        cases run d2 b <;> simp

/-! ### Cases -/

/-- The hypotheses hold for histories with few calls. -/
theorem fits_of_length (deleteHits : Bool) : ∀ (ops : List Op) (m : FaceMap) (S : List (Int × Int × Int)),
    (∀ k, m k ≠ none → k ∈ S) → S.length + ops.length ≤ 255 → FaceFits (faceRun deleteHits m ops).1 := by
  intro ops
  induction ops with
  | nil =>
    intro m S hS hl I l hn hk
    simp only [faceRun] at hk
    have hnd : (l.map fun k => (I, k)).Nodup := hn.map fun a b h => (Prod.mk.inj h).2
    have := (List.Nodup.subperm hnd fun k hk' => by
      obtain ⟨k0, h0, rfl⟩ := List.mem_map.mp hk'
      exact hS _ (hk k0 h0)).length_le
    simp only [List.length_map, List.length_nil] at this hl
    omega
  | cons op ops ih =>
    intro m S hS hl
    simp only [faceRun, List.length_cons] at hl ⊢
    cases op with
    | enter I J K v =>
      refine ih _ ((I, J, K) :: S) ?_ (by simp only [List.length_cons]; omega)
      intro k hk
      by_cases he : k = (I, J, K)
      · rw [he]
        exact List.mem_cons_self
      · refine List.mem_cons_of_mem _ (hS k ?_)
        intro h0
        apply hk
        simp only [faceStep]
        split
        · simp [FaceMap.put, he, h0]
        · split
          · simp [FaceMap.put, he, h0]
          · exact h0
    | get I J K => exact ih _ S hS (by omega)

example : (run (init 3 0 3 true) [.enter 1 5 7 10, .enter 1 2 9 11, .enter 0 4 4 12, .enter 1 5 7 13, .get 1 5 7, .get 1 2 9]).map
    Prod.snd = some [10, 11, 12, 10, -1, 11] := by decide +kernel

example : ∀ pre, pre <+: [Op.enter 1 5 7 10, .enter 1 2 9 11] → FaceFits (faceRun true (fun _ => none) pre).1 := by
  intro pre hpre
  refine fits_of_length true pre _ [] (fun _ h => absurd rfl h) ?_
  have := hpre.length_le
  simp only [List.length_cons, List.length_nil] at this ⊢
  omega

/-! ### Defects -/

/-- After 256 different keys with the same first number have been entered, none of them is found: the counter of the row has
wrapped around to 0. -/
theorem overflow_fails (n : Nat) (lengthInc : Nat) (hinc : 0 < lengthInc) (deleteHits : Bool) (I : Int) (h0 : 0 ≤ I)
    (hI : I < n) (ks : List (Int × Int)) (hks : ks.Nodup) (hl : ks.length = 256) :
    ∃ d outs, run (init n 0 lengthInc deleteHits) (ks.map fun k => Op.enter I k.1 k.2 0) = some (d, outs) ∧
      ∀ k ∈ ks, getValue d I k.1 k.2 = some (-1) := by
  obtain ⟨ks', k, rfl⟩ : ∃ ks' k, ks = ks' ++ [k] := by
    rcases List.eq_nil_or_concat ks with h | ⟨a, b, h⟩
    · rw [h] at hl
      exact absurd hl (by simp)
    · exact ⟨a, b, by rw [h, List.concat_eq_append]⟩
  have hl' : ks'.length = 255 := by
    simp only [List.length_append, List.length_cons, List.length_nil] at hl
    omega
  have hks' : ks'.Nodup := (List.nodup_append.mp hks).1
  have hk' : k ∉ ks' := fun hmem => (List.nodup_append.mp hks).2.2 k hmem k (by simp) rfl
  obtain ⟨d, h1, h2, h3⟩ := run_rel (ks'.map fun k => Op.enter I k.1 k.2 0) _ _ (rel_init n 0 lengthInc deleteHits (by omega) hinc)
    (by
      intro op hop
      obtain ⟨k, _, rfl⟩ := List.mem_map.mp hop
      exact ⟨h0, hI⟩)
    (by
      intro pre hpre
      have := hpre.length_le
      exact fits_of_length _ pre _ [] (fun _ h => absurd rfl h) (by simp only [List.length_map, List.length_nil] at this ⊢; omega))
  have hm := enter_distinct (init n 0 lengthInc deleteHits).deleteHits I ks' hks' (fun _ => none) (fun _ _ => rfl)
  obtain ⟨hi, r1, r2⟩ := row?_spec h2 h0 hI
  obtain ⟨l, hl1, ha⟩ := h2.row _ hi
  rw [r2] at ha
  have hno : ∀ e ∈ l, ¬(e.1 = k.1 ∧ e.2.1 = k.2) := by
    rintro ⟨a, b, c⟩ he ⟨e1, e2⟩
    simp only at e1 e2
    subst e1 e2
    have := (ha _ _ _).mp he
    simp only [hm] at this
    rw [if_neg (by rintro ⟨_, h⟩; exact hk' h)] at this
    exact absurd this (by simp)
  have hcount : d.rows[I.toNat].count = 255 := by
    rw [← hl1.len]
    have hnd : (l.map fun e => (e.1, e.2.1)).Nodup := by
      rw [List.Nodup, List.pairwise_map]
      exact hl1.sorted.imp fun hab => hab.ne
    have hsub1 : ∀ k2, k2 ∈ ks' ↔ k2 ∈ l.map fun e => (e.1, e.2.1) := by
      intro k2
      constructor
      · intro hmem
        refine List.mem_map.mpr ⟨(k2.1, k2.2, 0), (ha k2.1 k2.2 0).mpr ?_, rfl⟩
        exact (hm (I, k2)).trans (if_pos ⟨rfl, hmem⟩)
      · intro hmem
        obtain ⟨⟨a, b, c⟩, he, rfl⟩ := List.mem_map.mp hmem
        have := (ha _ _ _).mp he
        simp only [hm] at this
        by_contra hnot
        rw [if_neg (by rintro ⟨_, h⟩; exact hnot h)] at this
        exact absurd this (by simp)
    have h5 := (List.Nodup.subperm hks' fun k2 h => (hsub1 k2).mp h).length_le
    have h6 := (List.Nodup.subperm hnd fun k2 h => (hsub1 k2).mpr h).length_le
    rw [List.length_map] at h5 h6
    omega
  obtain ⟨r', e1, e2, _⟩ := insertRow_spec hl1 ha h2.inc 0 hno
  have hstep : enterValue d I k.1 k.2 0 = some ({ d with rows := d.rows.set I.toNat r', nnz := d.nnz + 1 }, 0) := by
    unfold enterValue
    rw [r1]
    have hfi : l.findIdx? (isKey k.1 k.2) = none := by
      rw [List.findIdx?_eq_none_iff]
      intro e he
      simpa [isKey] using hno e he
    simp only [enterRow, hl1.scan, hfi, e1]
  refine ⟨{ d with rows := d.rows.set I.toNat r', nnz := d.nnz + 1 },
    (faceRun deleteHits (fun _ => none) (ks'.map fun k => Op.enter I k.1 k.2 0)).2 ++ [0], ?_, ?_⟩
  · rw [List.map_append, run_append, h1]
    simp only [List.map_cons, List.map_nil, Option.bind_some, run, step, hstep, Option.map_some]
    exact rfl
  · intro k2 _
    have hc0 : r'.count = 0 := by rw [e2, hcount]
    unfold getValue row?
    rw [if_pos h0]
    simp only [List.getElem?_set_self hi, getRow, hc0, scan]

end PyNucleus.Props.C79
