import Verif.Model.AssemblyPattern
import Verif.Props.C01
import Verif.Props.C18
import Verif.Props.C38
import Verif.Proof.Loops

/-!
# C40: patterns of finite element matrices

Full statement: `buildSparsityPattern` has an entry `(I, J)` iff a cell contains both dofs; the symmetric variant stores exactly the
strictly lower part; rows are strictly increasing.  With `reorder=True` this holds for the new numbers.
-/

namespace PyNucleus.Props.C40

open PyNucleus.AssemblyPattern PyNucleus.SparsityPattern PyNucleus.Spec PyNucleus.Loops

/-- A cell in the range contains the interior dofs `I` and `J`. -/
def Coupled (dofsI dofsJ : List (List Int)) (start stop : Nat) (I J : Int) : Prop :=
  ∃ i, start ≤ i ∧ i < stop ∧ I ∈ dofsI.getD i [] ∧ J ∈ dofsJ.getD i []

/-- Numbers of rows are below `numDofs`, and no dof is coupled to more than 65527 others: the limit of the counters of the pattern. -/
structure Sane (dofsI dofsJ : List (List Int)) (numDofs start stop : Nat) : Prop where
  range : ∀ i, start ≤ i → i < stop → ∀ I ∈ dofsI.getD i [], I < numDofs
  few : ∀ (I : Int) (l : List Int), 0 ≤ I → l.Nodup → (∀ J ∈ l, 0 ≤ J ∧ Coupled dofsI dofsJ start stop I J) → l.length + 9 ≤ 65536

/-- The pattern is a valid array of row pointers with strictly increasing rows, and its entries are given by `P`. -/
structure IsPattern (n : Nat) (p : List Nat × List Int) (P : Nat → Int → Prop) : Prop where
  indptr : ValidIndptr p.1 n p.2.length
  sorted : ∀ I, I < n → (csrRow p.1 p.2 I).Pairwise (· < ·)
  entries : ∀ I, I < n → ∀ J, J ∈ csrRow p.1 p.2 I ↔ P I J

theorem mem_calls (symmetric : Bool) (dofsI dofsJ : List (List Int)) (start stop : Nat) (I : Nat) (J : Int) :
    (I, J) ∈ calls symmetric dofsI dofsJ start stop ↔ Coupled dofsI dofsJ start stop I J ∧ 0 ≤ J ∧ (symmetric = true → J < I) := by
  unfold calls cellCalls Coupled
  simp only [List.mem_flatMap, List.mem_range'_1]
  constructor
  · rintro ⟨i, hi, I', hI', h⟩
    split at h
    · cases h
    · obtain ⟨J', hJ', h⟩ := List.mem_flatMap.1 h
      split at h
      · cases h
      · rename_i h1 h2
        obtain ⟨rfl, rfl⟩ := Prod.mk.inj (List.mem_singleton.1 h)
        rw [not_or] at h2
        rw [show ((I'.toNat : Nat) : Int) = I' by omega]
        refine ⟨⟨i, by omega, by omega, hI', hJ'⟩, by omega, fun hs => ?_⟩
        have := h2.2
        rw [not_and] at this
        have := this hs
        omega
  · rintro ⟨⟨i, h1, h2, h3, h4⟩, h5, h6⟩
    refine ⟨i, by omega, I, h3, ?_⟩
    rw [if_neg (by omega)]
    refine List.mem_flatMap.2 ⟨J, h4, ?_⟩
    rw [if_neg]
    · simp
    · rintro (h | ⟨hs, h⟩)
      · omega
      · have := h6 hs; omega

theorem pattern_spec (n : Nat) (cs : List (Nat × Int)) (hr : ∀ c ∈ cs, c.1 < n)
    (hcap : ∀ (I : Nat) (l : List Int), l.Nodup → (∀ J ∈ l, (I, J) ∈ cs) → l.length + 9 ≤ 65536) :
    ∃ p, pattern n cs = some p ∧ IsPattern n p fun I J => (I, J) ∈ cs := by
  obtain ⟨s, h1, h2, -, h4⟩ := C01.pattern_is_sorted_set n 9 cs ⟨by decide, hr, hcap⟩
  refine ⟨s.freeze, by unfold pattern; rw [h1]; rfl, h2, fun I hI => (h4 I hI).1, fun I hI J => (h4 I hI).2 J⟩

/-- Without reordering. -/
theorem pattern_of_cells (dofs : List (List Int)) (numDofs start stop : Nat) (symmetric : Bool) (h : Sane dofs dofs numDofs start stop)
    (perm : CSR.Graph → List Nat) (iperm : List Nat) :
    ∃ p, build dofs numDofs start stop symmetric false perm iperm = some (p, dofs) ∧
      IsPattern numDofs p fun I J => Coupled dofs dofs start stop I J ∧ 0 ≤ J ∧ (symmetric = true → J < I) := by
  obtain ⟨p, h1, h2⟩ := pattern_spec numDofs (calls symmetric dofs dofs start stop) (fun c hc => by
      obtain ⟨⟨i, q1, q2, q3, -⟩, -, -⟩ := (mem_calls symmetric dofs dofs start stop c.1 c.2).1 hc
      have := h.range i q1 q2 _ q3
      omega)
    (fun I l hl hJ => h.few I l (by omega) hl fun J hj => by
      have := (mem_calls symmetric dofs dofs start stop I J).1 (hJ J hj)
      exact ⟨this.2.1, this.1⟩)
  refine ⟨p, ?_, h2.indptr, h2.sorted, fun I hI J => (h2.entries I hI J).trans (mem_calls symmetric dofs dofs start stop I J)⟩
  unfold build
  rw [if_neg (by simp), h1]
  rfl

/-- Two maps. -/
theorem nonsymmetric_pattern (dofs dofsOther : List (List Int)) (numDofs start stop : Nat) (h : Sane dofs dofsOther numDofs start stop) :
    ∃ p, buildNonSymmetric dofs dofsOther numDofs start stop = some p ∧ IsPattern numDofs p fun I J => Coupled dofs dofsOther start stop I J ∧ 0 ≤ J := by
  obtain ⟨p, h1, h2⟩ := pattern_spec numDofs (calls false dofs dofsOther start stop) (fun c hc => by
      obtain ⟨⟨i, q1, q2, q3, -⟩, -, -⟩ := (mem_calls false dofs dofsOther start stop c.1 c.2).1 hc
      have := h.range i q1 q2 _ q3
      omega)
    (fun I l hl hJ => h.few I l (by omega) hl fun J hj => by
      have := (mem_calls false dofs dofsOther start stop I J).1 (hJ J hj)
      exact ⟨this.2.1, this.1⟩)
  refine ⟨p, h1, h2.indptr, h2.sorted, fun I hI J => ((h2.entries I hI J).trans (mem_calls false dofs dofsOther start stop I J)).trans ?_⟩
  simp

theorem inverse_spec (n : Nat) (perm iperm : List Nat) (hp : perm.Perm (List.range n)) (hi : iperm.length = n) :
    (inverse perm iperm).length = n ∧ (∀ i, i < n → (inverse perm iperm).getD (perm.getD i 0) 0 = i) ∧
      ∀ k, k < n → (inverse perm iperm).getD k 0 < n ∧ perm.getD ((inverse perm iperm).getD k 0) 0 = k := by
  have hlen : perm.length = n := by rw [hp.length_eq, List.length_range]
  have hnd : perm.Nodup := hp.nodup_iff.2 List.nodup_range
  have hlt : ∀ i, i < n → perm.getD i 0 < n := fun i h => by
    rw [List.getD_eq_getElem _ _ (by omega)]
    exact List.mem_range.1 (hp.mem_iff.1 (List.getElem_mem _))
  have hinj : ∀ i j, i < n → j < n → perm.getD i 0 = perm.getD j 0 → i = j := fun i j h1 h2 h => by
    rw [List.getD_eq_getElem _ _ (by omega), List.getD_eq_getElem _ _ (by omega)] at h
    exact (List.Nodup.getElem_inj_iff hnd).1 h
  have key : ∀ m, m ≤ n → (forRange 0 m iperm fun iperm i => iperm.set (perm.getD i 0) i).length = n ∧
      ∀ i, i < m → (forRange 0 m iperm fun iperm i => iperm.set (perm.getD i 0) i).getD (perm.getD i 0) 0 = i := by
    intro m
    induction m with
    | zero => intro _; rw [forRange_zero]; exact ⟨hi, fun i h => by omega⟩
    | succ m ih =>
      intro hm
      obtain ⟨i1, i2⟩ := ih (by omega)
      rw [forRange_succ]
      refine ⟨by rw [List.length_set]; exact i1, fun i him => ?_⟩
      rw [getD_set]
      by_cases q : i = m
      · subst q
        rw [if_pos ⟨rfl, by rw [i1]; exact hlt i (by omega)⟩]
      · rw [if_neg (fun e => q (hinj i m (by omega) (by omega) e.1.symm))]
        exact i2 i (by omega)
  obtain ⟨k1, k2⟩ := key n le_rfl
  have hdef : inverse perm iperm = forRange 0 n iperm fun iperm i => iperm.set (perm.getD i 0) i := by unfold inverse; rw [hlen]
  rw [hdef]
  refine ⟨k1, k2, fun k hk => ?_⟩
  obtain ⟨i, hi, e⟩ := List.getElem_of_mem (hp.mem_iff.2 (List.mem_range.2 hk))
  have e' : perm.getD i 0 = k := by rw [List.getD_eq_getElem _ _ hi, e]
  have := k2 i (by omega)
  rw [e'] at this
  rw [this]
  exact ⟨by omega, e'⟩

/-- With reordering by any permutation: the pattern belongs to the new numbers of the dofs. -/
theorem reordered_pattern (dofs : List (List Int)) (numDofs start stop : Nat) (symmetric : Bool) (h : Sane dofs dofs numDofs start stop)
    (perm : CSR.Graph → List Nat) (hperm : ∀ G, C18.WellFormed G → G.numRows = numDofs → (perm G).Perm (List.range numDofs)) (iperm : List Nat) (hi : iperm.length = numDofs) :
    ∃ p dofs', build dofs numDofs start stop symmetric true perm iperm = some (p, dofs') ∧
      (∃ q : List Int, q.Perm ((List.range numDofs).map fun k : Nat => (k : Int)) ∧ dofs' = DoFMap.reorder dofs q) ∧
      IsPattern numDofs p fun I J => Coupled dofs' dofs' start stop I J ∧ 0 ≤ J ∧ (symmetric = true → J < I) := by
  obtain ⟨p0, h1, h2⟩ := pattern_spec numDofs (calls false dofs dofs start stop) (fun c hc => by
      obtain ⟨⟨i, q1, q2, q3, -⟩, -, -⟩ := (mem_calls false dofs dofs start stop c.1 c.2).1 hc
      have := h.range i q1 q2 _ q3
      omega)
    (fun I l hl hJ => h.few I l (by omega) hl fun J hj => by
      have := (mem_calls false dofs dofs start stop I J).1 (hJ J hj)
      exact ⟨this.2.1, this.1⟩)
  have hent : ∀ I, I < numDofs → ∀ J, J ∈ csrRow p0.1 p0.2 I ↔ Coupled dofs dofs start stop I J ∧ 0 ≤ J := fun I hI J =>
    ((h2.entries I hI J).trans (mem_calls false dofs dofs start stop I J)).trans (by simp)
  have hlt : ∀ I, I < numDofs → ∀ J ∈ csrRow p0.1 p0.2 I, 0 ≤ J ∧ J < numDofs := by
    intro I hI J hJ
    obtain ⟨⟨i, q1, q2, -, q3⟩, h0⟩ := (hent I hI J).1 hJ
    exact ⟨h0, h.range i q1 q2 J q3⟩
  have hall : ∀ J ∈ p0.2, 0 ≤ J ∧ J < numDofs := by
    intro J hJ
    rw [← CSR.flatMap_csrRow _ _ _ h2.indptr] at hJ
    obtain ⟨I, hI, hJ⟩ := List.mem_flatMap.1 hJ
    exact hlt I (List.mem_range.1 hI) J hJ
  have hwf : C18.WellFormed (graph p0) := by
    have hl := h2.indptr.length
    refine ⟨?_, ?_⟩
    · show ValidIndptr p0.1 (p0.1.length - 1) (p0.2.map Int.toNat).length
      rw [hl, List.length_map]
      exact h2.indptr
    · show ∀ j ∈ p0.2.map Int.toNat, j < p0.1.length - 1
      intro j hj
      obtain ⟨J, hJ, rfl⟩ := List.mem_map.1 hj
      have := hall J hJ
      omega
  have hp := hperm (graph p0) hwf (by show p0.1.length - 1 = numDofs; rw [h2.indptr.length]; omega)
  generalize hpm : perm (graph p0) = pm at hp
  obtain ⟨v1, v2, v3⟩ := inverse_spec numDofs pm iperm hp hi
  have hpl : pm.length = numDofs := by rw [hp.length_eq, List.length_range]
  generalize hip : inverse pm iperm = ip at v1 v2 v3
  have hpmlt : ∀ i, i < numDofs → pm.getD i 0 < numDofs := fun i hi => by
    rw [List.getD_eq_getElem _ _ (by omega)]
    exact List.mem_range.1 (hp.mem_iff.1 (List.getElem_mem _))
  have hcs : ∀ (I : Nat) (J : Int), (I, J) ∈ reorderCalls symmetric pm ip p0 ↔
      I < numDofs ∧ 0 ≤ J ∧ J < numDofs ∧ (Coupled dofs dofs start stop (pm.getD I 0 : Nat) (pm.getD J.toNat 0 : Nat)) ∧ (symmetric = true → J < I) := by
    have hsym : ∀ a b, Coupled dofs dofs start stop a b → Coupled dofs dofs start stop b a := fun a b ⟨i, q1, q2, q3, q4⟩ => ⟨i, q1, q2, q4, q3⟩
    intro I J
    unfold reorderCalls
    simp only [List.mem_flatMap, List.mem_range]
    constructor
    · rintro ⟨i, hi, J', hJ', hm⟩
      rw [hpl] at hi
      have hb := hlt _ (hpmlt i hi) J' hJ'
      have hc := ((hent _ (hpmlt i hi) J').1 hJ').1
      have hv := v3 J'.toNat (by omega)
      have e : (J' : Int) = ((pm.getD (ip.getD J'.toNat 0) 0 : Nat) : Int) := by rw [hv.2]; omega
      rw [e] at hc
      cases symmetric with
      | false =>
        simp only [Bool.false_eq_true, if_false, List.mem_singleton, Prod.mk.injEq] at hm
        obtain ⟨rfl, rfl⟩ := hm
        rw [Int.toNat_natCast]
        exact ⟨hi, by omega, by omega, hc, by simp⟩
      | true =>
        simp only [if_true] at hm
        split at hm
        · rename_i hji
          obtain ⟨rfl, rfl⟩ := Prod.mk.inj (List.mem_singleton.1 hm)
          rw [Int.toNat_natCast]
          exact ⟨hi, by omega, by omega, hc, fun _ => by omega⟩
        · split at hm
          · rename_i hij
            obtain ⟨rfl, rfl⟩ := Prod.mk.inj (List.mem_singleton.1 hm)
            rw [Int.toNat_natCast]
            exact ⟨hv.1, by omega, by omega, hsym _ _ hc, fun _ => by omega⟩
          · cases hm
    · rintro ⟨h3, h4, h5, h6, h7⟩
      have hJ : J.toNat < numDofs := by omega
      refine ⟨I, by omega, (pm.getD J.toNat 0 : Nat), (hent _ (hpmlt I h3) _).2 ⟨h6, by omega⟩, ?_⟩
      rw [Int.toNat_natCast, v2 _ hJ]
      cases symmetric with
      | false => simp only [Bool.false_eq_true, if_false, List.mem_singleton, Prod.mk.injEq, true_and]; omega
      | true =>
        have := h7 rfl
        simp only [if_true]
        rw [if_pos (by omega)]
        simp only [List.mem_singleton, Prod.mk.injEq, true_and]
        omega
  have hmapq : ∀ d : Int, d < numDofs → 0 ≤ d → (ip.map fun k : Nat => (k : Int)).getD d.toNat 0 = (ip.getD d.toNat 0 : Nat) := by
    intro d hd h0
    rw [List.getD_eq_getElem _ _ (by rw [List.length_map]; omega), List.getElem_map, List.getD_eq_getElem _ _ (by omega)]
  have hgetrow : ∀ i, (DoFMap.reorder dofs (ip.map fun k : Nat => (k : Int))).getD i [] =
      (dofs.getD i []).map fun dof => if 0 ≤ dof then (ip.map fun k : Nat => (k : Int)).getD dof.toNat 0 else dof := by
    intro i
    unfold DoFMap.reorder
    by_cases hi : i < dofs.length
    · rw [List.getD_eq_getElem _ _ (by rw [List.length_map]; exact hi), List.getElem_map, List.getD_eq_getElem _ _ hi]
    · rw [List.getD_eq_default _ _ (by rw [List.length_map]; omega), List.getD_eq_default _ _ (by omega)]
      rfl
  have hmem : ∀ i, start ≤ i → i < stop → ∀ d : Int, 0 ≤ d → (d ∈ (DoFMap.reorder dofs (ip.map fun k : Nat => (k : Int))).getD i [] ↔
      d < numDofs ∧ ((pm.getD d.toNat 0 : Nat) : Int) ∈ dofs.getD i []) := by
    intro i q1 q2 d h0
    rw [hgetrow, List.mem_map]
    constructor
    · rintro ⟨e, he, rfl⟩
      have hlt := h.range i q1 q2 e he
      by_cases hc : 0 ≤ e
      · rw [if_pos hc, hmapq e hlt hc, Int.toNat_natCast]
        have := v3 e.toNat (by omega)
        rw [this.2, Int.toNat_of_nonneg hc]
        exact ⟨by omega, he⟩
      · rw [if_neg hc] at h0; omega
    · rintro ⟨h3, h4⟩
      refine ⟨_, h4, ?_⟩
      rw [if_pos (by omega), hmapq _ (by have := hpmlt d.toNat (by omega); omega) (by omega), Int.toNat_natCast, v2 _ (by omega)]
      omega
  have hcoup : ∀ (I J : Int), 0 ≤ I → 0 ≤ J → I < numDofs → J < numDofs →
      (Coupled (DoFMap.reorder dofs (ip.map fun k : Nat => (k : Int))) (DoFMap.reorder dofs (ip.map fun k : Nat => (k : Int))) start stop I J ↔
        Coupled dofs dofs start stop (pm.getD I.toNat 0 : Nat) (pm.getD J.toNat 0 : Nat)) := by
    intro I J hI hJ hI' hJ'
    constructor
    · rintro ⟨i, q1, q2, q3, q4⟩
      exact ⟨i, q1, q2, ((hmem i q1 q2 I hI).1 q3).2, ((hmem i q1 q2 J hJ).1 q4).2⟩
    · rintro ⟨i, q1, q2, q3, q4⟩
      exact ⟨i, q1, q2, (hmem i q1 q2 I hI).2 ⟨hI', q3⟩, (hmem i q1 q2 J hJ).2 ⟨hJ', q4⟩⟩
  obtain ⟨p, h3, h4⟩ := pattern_spec numDofs (reorderCalls symmetric pm ip p0) (fun c hc => ((hcs c.1 c.2).1 hc).1) (fun I l hl hJ => by
    have := h.few (pm.getD I 0 : Nat) (l.map fun J => ((pm.getD J.toNat 0 : Nat) : Int)) (by omega)
      (by
        refine (List.nodup_map_iff_inj_on hl).2 fun J hJl J' hJl' e => ?_
        have a := (hcs I J).1 (hJ J hJl)
        have b := (hcs I J').1 (hJ J' hJl')
        have e : pm.getD J.toNat 0 = pm.getD J'.toNat 0 := by omega
        have a' := v2 J.toNat (by omega)
        have b' := v2 J'.toNat (by omega)
        rw [e] at a'
        omega)
      (fun J hJl => by
        obtain ⟨J', hJ', rfl⟩ := List.mem_map.1 hJl
        have a := (hcs I J').1 (hJ J' hJ')
        exact ⟨by omega, a.2.2.2.1⟩)
    rwa [List.length_map] at this)
  refine ⟨p, DoFMap.reorder dofs (ip.map fun k : Nat => (k : Int)), ?_, ⟨_, ?_, rfl⟩, h4.indptr, h4.sorted, fun I hI J => (h4.entries I hI J).trans ((hcs I J).trans ?_)⟩
  · unfold build
    rw [if_pos rfl, h1, Option.bind_some]
    dsimp only
    rw [hpm, hip, h3]
    rfl
  · refine List.Perm.map _ ?_
    refine (List.perm_ext_iff_of_nodup ?_ List.nodup_range).2 fun k => ?_
    · rw [List.nodup_iff_injective_get]
      intro a b e
      simp only [List.get_eq_getElem] at e
      have ha := v3 a (by rw [← v1]; exact a.2)
      have hb := v3 b (by rw [← v1]; exact b.2)
      rw [List.getD_eq_getElem _ _ a.2] at ha
      rw [List.getD_eq_getElem _ _ b.2] at hb
      exact Fin.ext (by rw [← ha.2, ← hb.2, e])
    · rw [List.mem_range]
      constructor
      · intro hk
        obtain ⟨a, ha, rfl⟩ := List.getElem_of_mem hk
        have := (v3 a (by omega)).1
        rwa [List.getD_eq_getElem _ _ ha] at this
      · intro hk
        have := v2 k hk
        have hl := hpmlt k hk
        rw [List.getD_eq_getElem _ _ (show pm.getD k 0 < ip.length by omega)] at this
        rw [← this]
        exact List.getElem_mem _
  · constructor
    · rintro ⟨a, b, c, d, e⟩
      exact ⟨(hcoup I J (by omega) b (by omega) c).2 (by rwa [Int.toNat_natCast]), b, e⟩
    · rintro ⟨a, b, e⟩
      have hJn : J < numDofs := by
        obtain ⟨i, q1, q2, -, q4⟩ := a
        exact ((hmem i q1 q2 J b).1 q4).1
      have := (hcoup I J (by omega) b (by omega) hJn).1 a
      rw [Int.toNat_natCast] at this
      exact ⟨hI, b, hJn, this, e⟩

/-- With the reordering that the code uses (C18), for any way in which `argsort` breaks ties and any contents of uninitialised arrays. -/
theorem cuthill_pattern (dofs : List (List Int)) (numDofs start stop : Nat) (symmetric : Bool) (h : Sane dofs dofs numDofs start stop)
    (inds rev : CSR.Graph → List Nat) (h1 : ∀ G, ArgSort (C18.degreeList G) (inds G)) (h2 : ∀ G, ArgSort (inds G) (rev G))
    (order u iperm : List Nat) (ho : order.length = numDofs) (hu : u.length = numDofs) (hi : iperm.length = numDofs) (reverse : Bool) :
    ∃ p dofs', build dofs numDofs start stop symmetric true (fun G => Cuthill.cuthillMcKee G (inds G) (rev G) order u reverse) iperm = some (p, dofs') ∧
      (∃ q : List Int, q.Perm ((List.range numDofs).map fun k : Nat => (k : Int)) ∧ dofs' = DoFMap.reorder dofs q) ∧
      IsPattern numDofs p fun I J => Coupled dofs' dofs' start stop I J ∧ 0 ≤ J ∧ (symmetric = true → J < I) :=
  reordered_pattern dofs numDofs start stop symmetric h _ (fun G hG hn => by
    rw [← hn]
    exact C18.permutation G hG (inds G) (rev G) (h1 G) (h2 G) order u (by omega) (by omega) reverse) iperm hi

/-- Example: two triangles with a boundary vertex. -/
example : Sane [[0, -1, 1], [1, -1, 2]] [[0, -1, 1], [1, -1, 2]] 3 0 2 where
  range := by decide
  few := fun I l h0 hn h => by
    have hsub : l ⊆ [0, 1, 2] := fun J hJ => by
      obtain ⟨h1, i, -, hi, -, hJ⟩ := h J hJ
      have : i = 0 ∨ i = 1 := by omega
      rcases this with rfl | rfl <;> simp at hJ <;> simp <;> omega
    have := (hn.subperm hsub).length_le
    simp at this
    omega

/-- In this example, symmetric and reordered with the permutation 1, 2, 0. -/
example : build [[0, -1, 1], [1, -1, 2]] 3 0 2 true true (fun _ => [1, 2, 0]) [7, 7, 7] =
    some (([0, 0, 1, 2], [0, 0]), [[2, -1, 0], [0, -1, 1]]) := by decide +kernel

end PyNucleus.Props.C40
