import Verif.Proof.RestrictionMatrix

/-! # The entries are values of shape functions -/

namespace PyNucleus.Restriction

open PyNucleus.ShapeFunctions PyNucleus.Spec PyNucleus.CSR

variable {K : Type}

theorem weight_inj [Field K] (c : List Nat) (hn : c.Nodup) (nv : Nat) (hv : ∀ v ∈ c, v < nv) (lam mu : List K) (hl : lam.length = c.length) (hm : mu.length = c.length)
    (h : ∀ v, v < nv → weight unit c lam v = weight unit c mu v) : lam = mu := by
  apply List.ext_getElem (by omega)
  intro k h1 h2
  have hk : k < c.length := by omega
  have := h (c.getD k 0) (by rw [List.getD_eq_getElem _ _ hk]; exact hv _ (List.getElem_mem hk))
  rw [weight_getD c lam hn hl k hk, weight_getD c mu hn hm k hk, List.getD_eq_getElem _ _ h1, List.getD_eq_getElem _ _ h2] at this
  exact this

theorem subCells_length : ∀ t ∈ tables, ∀ k ∈ List.range 3, ∀ q ∈ List.range t.sub, ∀ l ∈ List.range (t.dim + 1),
    (((subCells t.dim t.sub k).getD q []).getD l []).length = t.dim + 1 := by decide +kernel

theorem weight_outer [Field K] (dim : Nat) (c : List Nat) (hl : c.length = dim + 1) (hn : c.Nodup) (s : List (List ℚ)) (hs : ∀ l, l < dim + 1 → (s.getD l []).length = dim + 1)
    (X : Nat → Nat → ℚ) (f : List Nat) (hf : f.length = dim + 1) (v : Nat) (h : ∀ l, l < dim + 1 → X (f.getD l 0) v = weight unit c (s.getD l []) v)
    (lam : List K) (hlam : lam.length = dim + 1) : weight X f lam v = weight unit c (outer dim s lam) v := by
  have e1 : weight X f lam v = ((List.range (dim + 1)).map fun l => lam.getD l 0 * ((weight unit c (s.getD l []) v : ℚ) : K)).sum := by
    unfold weight
    congr 1
    apply List.ext_getElem
    · simp; omega
    · intro i h1 h2
      simp only [List.length_map, List.length_zip, List.length_range] at h1 h2
      rw [List.getElem_map, List.getElem_zip, List.getElem_map, List.getElem_range]
      have := h i h2
      rw [List.getD_eq_getElem _ _ (show i < f.length by omega)] at this
      simp only [this]
      rw [List.getD_eq_getElem _ _ (show i < lam.length by omega)]
      rfl
  rw [e1]
  by_cases hm : v ∈ c
  · obtain ⟨k, hk, rfl⟩ := List.mem_iff_getElem.1 hm
    have e := weight_getD c (outer dim s lam) hn (by unfold outer; simp; omega) k hk
    rw [List.getD_eq_getElem _ _ hk] at e
    rw [e]
    unfold outer
    rw [List.getD_eq_getElem _ _ (by simp; omega), List.getElem_map, List.getElem_range]
    congr 1
    refine List.map_congr_left fun l hl' => ?_
    have hl' := List.mem_range.1 hl'
    have e := weight_getD c (s.getD l []) hn (by rw [hs l hl']; omega) k hk
    rw [List.getD_eq_getElem _ _ hk] at e
    rw [e]
  · rw [weight_not_mem c _ v hm]
    have : ∀ l : List Nat, (l.map fun l => lam.getD l 0 * ((weight unit c (s.getD l []) v : ℚ) : K)).sum = 0 := fun l => by
      induction l with
      | nil => rfl
      | cons a l ih => rw [List.map_cons, List.sum_cons, ih, weight_not_mem c _ v hm]; simp
    exact this _

theorem firsts : ∀ k ∈ List.range 3, ∀ q ∈ List.range 8, (((subCells 3 8 k).getD q []).getD 0 []).length = 4 := by decide +kernel

theorem first_eq : ∀ k ∈ List.range 3,
    ((((subCells 3 8 k).getD 4 []).getD 0 [] = ((subCells 3 8 k).getD 5 []).getD 0 []) ↔ k ≠ 2) ∧
    ((((subCells 3 8 k).getD 4 []).getD 0 [] = ((subCells 3 8 k).getD 6 []).getD 0 []) ↔ k = 0) := by decide +kernel

theorem mem_getD {α : Type} {l : List α} {i : Nat} {a : α} (h : i < l.length) : l.getD i a ∈ l := by
  rw [List.getD_eq_getElem _ _ h]; exact List.getElem_mem h

theorem lt_of_getD {l : List (List Nat)} {i : Nat} {n : Nat} (h : (l.getD i []).length = n + 1) : i < l.length := by
  by_contra hh
  rw [List.getD_eq_default _ _ (by omega)] at h
  simp at h

/-- The conditions find the diagonal. -/
theorem caseOf_eq (nv : Nat) (coarse fine : List (List Nat)) (X : Nat → Nat → ℚ) (hr : Refined 3 8 nv coarse fine X) (i : Nat) (hi : i < coarse.length) (k : Nat) (hk : k < 3)
    (h : ∀ q, q < 8 → (fine.getD (8 * i + q) []).length = 4 ∧ ∀ l, l < 4 → ∀ v, v < nv →
      X ((fine.getD (8 * i + q) []).getD l 0) v = weight unit (coarse.getD i []) (((subCells 3 8 k).getD q []).getD l []) v) : caseOf fine i = k := by
  obtain ⟨c1, c2, c3⟩ := hr.simplex _ (mem_getD (a := []) hi)
  have key : ∀ a b, a < 8 → b < 8 → ((fine.getD (8 * i + a) []).getD 0 0 = (fine.getD (8 * i + b) []).getD 0 0 ↔
      ((subCells 3 8 k).getD a []).getD 0 [] = ((subCells 3 8 k).getD b []).getD 0 []) := by
    intro a b ha hb
    constructor
    · intro e
      refine weight_inj (K := ℚ) _ c2 nv c3 _ _ (by rw [firsts k (List.mem_range.2 hk) a (List.mem_range.2 ha), c1]) (by rw [firsts k (List.mem_range.2 hk) b (List.mem_range.2 hb), c1]) fun v hv => ?_
      rw [← (h a ha).2 0 (by omega) v hv, ← (h b hb).2 0 (by omega) v hv, e]
    · intro e
      refine hr.distinct _ (mem_getD (lt_of_getD (h a ha).1)) _ (mem_getD (lt_of_getD (h b hb).1)) _ (mem_getD (by rw [(h a ha).1]; omega)) _ (mem_getD (by rw [(h b hb).1]; omega)) fun v hv => ?_
      rw [(h a ha).2 0 (by omega) v hv, (h b hb).2 0 (by omega) v hv, e]
  have f := first_eq k (List.mem_range.2 hk)
  unfold caseOf
  dsimp only
  rw [← key 4 5 (by omega) (by omega), ← key 4 6 (by omega) (by omega)] at f
  split
  · rename_i h1
    have := f.1.1 h1
    split
    · rename_i h2
      exact (f.2.1 h2).symm
    · rename_i h2
      have : k ≠ 0 := fun e => h2 (f.2.2 e)
      omega
  · rename_i h1
    have : ¬ k ≠ 2 := fun e => h1 (f.1.2 e)
    omega

theorem no_cases : ∀ t ∈ tables, (t.dim = 3 ∧ t.sub = 8) ∨ ∀ k ∈ List.range 3, ∀ k' ∈ List.range 3, t.dataOf k = t.dataOf k' ∧ subCells t.dim t.sub k = subCells t.dim t.sub k' := by decide +kernel

/-- The groups of a cell of a refined mesh are those of its diagonal. -/
theorem dataOf_case (t : Table) (ht : t ∈ tables) (nv : Nat) (coarse fine : List (List Nat)) (X : Nat → Nat → ℚ) (hr : Refined t.dim t.sub nv coarse fine X) (i : Nat)
    (hi : i < coarse.length) :
    ∀ q, q < t.sub → (fine.getD (t.sub * i + q) []).length = t.dim + 1 ∧ ∀ (L : Type) [Field L] (lam : List L), lam.length = t.dim + 1 → ∀ v, v < nv →
      weight X (fine.getD (t.sub * i + q) []) lam v = weight unit (coarse.getD i []) (outer t.dim ((subCells t.dim t.sub (caseOf fine i)).getD q []) lam) v := by
  obtain ⟨k, hk, h⟩ := hr.children i hi
  obtain ⟨c1, c2, c3⟩ := hr.simplex _ (mem_getD (a := []) hi)
  have hs : subCells t.dim t.sub (caseOf fine i) = subCells t.dim t.sub k := by
    rcases no_cases t ht with ⟨e1, e2⟩ | e
    · rw [e1, e2] at hr h
      rw [caseOf_eq nv coarse fine X hr i hi k hk h]
    · exact (e _ (List.mem_range.2 (caseOf_lt fine i)) k (List.mem_range.2 hk)).2
  intro q hq
  refine ⟨(h q hq).1, fun L _ lam hlam v hv => ?_⟩
  rw [hs]
  exact weight_outer t.dim _ c1 c2 _ (fun l hl => subCells_length t ht k (List.mem_range.2 hk) q (List.mem_range.2 hq) l (List.mem_range.2 hl)) X _ (h q hq).1 v
    (fun l hl => (h q hq).2 l hl v hv) lam hlam

section
variable (p dim nv : Nat) (h3 : p ≤ 3) (d1 : 1 ≤ dim) (d3 : dim ≤ 3) (c c' : List Nat) (hl : c.length = dim + 1) (hn : c.Nodup) (hv : ∀ v ∈ c, v < nv)
  (hl' : c'.length = dim + 1) (hn' : c'.Nodup) (hv' : ∀ v ∈ c', v < nv) (lam lam' : List ℚ) (hlam : lam.length = dim + 1) (hlam' : lam'.length = dim + 1)
  (hw : ∀ v, v < nv → weight unit c lam v = weight unit c' lam' v)
include h3 d1 d3 hl hn hv hl' hn' hv' hlam hlam' hw

theorem same_value (I I' : Nat) (hI : I < (nodes ℚ p dim).length) (hI' : I' < (nodes ℚ p dim).length)
    (hN : ∀ v, v < nv → weight unit c ((nodes ℚ p dim).getD I []) v = weight unit c' ((nodes ℚ p dim).getD I' []) v) :
    ((localShapeFunctions p dim).getD I .p0).eval lam = ((localShapeFunctions p dim).getD I' .p0).eval lam' := by
  rcases Nat.eq_zero_or_pos p with rfl | h1
  · have : ∀ I, (localShapeFunctions 0 dim).getD I .p0 = .p0 := fun I => by unfold localShapeFunctions; cases I <;> rfl
    rw [this, this]
    rfl
  · rw [eval_lagrange p dim nv h1 h3 d1 d3 c hl hn hv I hI lam hlam, eval_lagrange p dim nv h1 h3 d1 d3 c' hl' hn' hv' I' hI' lam' hlam']
    exact lagrange_congr _ _ _ _ _ _ hN hw

theorem nodes_zero : nodes ℚ 0 dim = [List.replicate (dim + 1) (1 / ((dim : ℚ) + 1))] := by
  clear * - d1 d3
  interval_cases dim <;> simp [nodes, List.replicate] <;> norm_num

theorem other_node (I' : Nat) (hI' : I' < (nodes ℚ p dim).length) (h0 : p = 0 → ∀ x ∈ lam', x ≠ 0)
    (h : ((localShapeFunctions p dim).getD I' .p0).eval lam' ≠ 0) :
    ∃ I, I < (nodes ℚ p dim).length ∧ ∀ v, v < nv → weight unit c ((nodes ℚ p dim).getD I []) v = weight unit c' ((nodes ℚ p dim).getD I' []) v := by
  have hmem : ∀ v, v < nv → weight unit c' lam' v ≠ 0 → v ∈ c := fun v hvn hne => by
    by_contra hm
    rw [← hw v hvn, weight_not_mem c _ v hm] at hne
    exact hne rfl
  rcases Nat.eq_zero_or_pos p with rfl | h1
  · have hz := nodes_zero 0 dim nv h3 d1 d3 c c' hl hn hv hl' hn' hv' lam lam' hlam hlam' hw
    have hsub : c' ⊆ c := fun v hvc => by
      obtain ⟨k, hk, rfl⟩ := List.mem_iff_getElem.1 hvc
      have e := weight_getD c' lam' hn' (by omega) k hk
      rw [List.getD_eq_getElem _ _ hk] at e
      refine hmem _ (hv' _ hvc) ?_
      rw [e, List.getD_eq_getElem _ _ (by omega)]
      exact h0 rfl _ (List.getElem_mem _)
    have hperm : ∀ v, v ∈ c ↔ v ∈ c' := fun v => ((hn'.subperm hsub).perm_of_length_le (by omega)).mem_iff.symm
    have hI0 : I' = 0 := by rw [hz] at hI'; simpa using hI'
    subst hI0
    refine ⟨0, hI', fun v hvn => ?_⟩
    have hwt : ∀ c : List Nat, c.length = dim + 1 → c.Nodup → weight unit c ((nodes ℚ 0 dim).getD 0 []) v = if v ∈ c then 1 / ((dim : ℚ) + 1) else 0 := fun c hl hn => by
      split
      · rename_i hm
        obtain ⟨k, hk, rfl⟩ := List.mem_iff_getElem.1 hm
        have e := weight_getD c ((nodes ℚ 0 dim).getD 0 []) hn (by rw [hz]; simp; omega) k hk
        rw [List.getD_eq_getElem _ _ hk] at e
        rw [e, hz, List.getD_cons_zero, List.getD_eq_getElem _ _ (by simp; omega), List.getElem_replicate]
      · rename_i hm
        exact weight_not_mem c _ v hm
    rw [hwt c hl hn, hwt c' hl' hn']
    simp only [hperm v]
  · refine node_exists p dim nv h1 h3 d1 d3 c hl hn hv c' hl' hn' hv' I' hI' fun v hvn hne => ?_
    rw [eval_lagrange p dim nv h1 h3 d1 d3 c' hl' hn' hv' I' hI' lam' hlam'] at h
    exact hmem v hvn (lagrange_support p dim nv h1 h3 d1 d3 c' hl' hn' hv' I' hI' _ h v hvn hne)

end

theorem at_length (t : Table) (k q J : Nat) : (t.at k q J).length = t.dim + 1 := by unfold Table.at outer; simp

theorem p0_nonzero : ∀ t ∈ tables, t.coarse = 0 → ∀ k ∈ List.range 3, ∀ q ∈ List.range t.sub, ∀ J ∈ List.range (nodes ℚ t.fine t.dim).length, ∀ x ∈ t.at k q J, x ≠ 0 := by
  decide +kernel

theorem node_length (t : Table) (ht : t ∈ tables) (J : Nat) (hJ : J < (nodes ℚ t.fine t.dim).length) : ((nodes ℚ t.fine t.dim).getD J []).length = t.dim + 1 := by
  obtain ⟨-, o2, o3, o4, -⟩ := orders t ht
  have := List.mem_range.1 o2
  have := List.mem_range.1 o3
  exact ((Props.C41.nodes_sum (K := ℚ) t.fine t.dim (by omega) o4 (by omega)).2 _ (mem_getD hJ)).1

/-- Hypotheses on a pair of meshes with dof maps. -/
structure Setting (t : Table) (nv : Nat) (coarse fine : List (List Nat)) (X : Nat → Nat → ℚ) (cdofs fdofs : List (List Int)) (nc nf : Nat) : Prop where
  table : t ∈ tables
  refined : Refined t.dim t.sub nv coarse fine X
  cnum : Numbers t.coarse t.dim nv unit coarse cdofs nc
  fnum : Numbers t.fine t.dim nv X fine fdofs nf

/-- The entry of a row and the column of a fine dof. -/
theorem written_value {t : Table} {nv : Nat} {coarse fine : List (List Nat)} {X : Nat → Nat → ℚ} {cdofs fdofs : List (List Int)} {nc nf : Nat}
    (S : Setting t nv coarse fine X cdofs fdofs nc nf) (i : Nat) (hi : i < coarse.length) (q : Nat) (hq : q < t.sub) (J : Nat) (hJ : J < (nodes ℚ t.fine t.dim).length)
    (hj : 0 ≤ cell2dof fdofs (t.sub * i + q) J) (lam : List ℚ) (hlam : lam.length = t.dim + 1)
    (hp : ∀ v, v < nv → weight unit (coarse.getD i []) lam v = weight X (fine.getD (t.sub * i + q) []) ((nodes ℚ t.fine t.dim).getD J []) v) (m : Nat) :
    ∃ r : ℚ, (∀ (K : Type) [Field K], written m (cell2dof fdofs (t.sub * i + q) J).toNat (0 : K) ((List.range coarse.length).flatMap (writes t fine cdofs fdofs)) = (r : K)) ∧
      (∀ I, I < (nodes ℚ t.coarse t.dim).length → cell2dof cdofs i I = m → |r - (t.shape I).eval lam| ≤ t.tol) ∧
      ((∀ I, I < (nodes ℚ t.coarse t.dim).length → cell2dof cdofs i I ≠ m) → |r| ≤ t.tol) := by
  obtain ⟨ht, hr, hc, hf⟩ := S
  obtain ⟨o1, -, o3, o4, -⟩ := orders t ht
  have o1 := List.mem_range.1 o1
  have o3 := List.mem_range.1 o3
  have htol : 0 ≤ t.tol := by unfold Table.tol; split <;> norm_num
  obtain ⟨c1, c2, c3⟩ := hr.simplex _ (mem_getD (a := []) hi)
  have hfin : ∀ i, i < coarse.length → ∀ q, q < t.sub → t.sub * i + q < fine.length := fun i hi q hq => lt_of_getD (dataOf_case t ht nv coarse fine X hr i hi q hq).1
  have hat : ∀ i, i < coarse.length → ∀ q, q < t.sub → ∀ J, J < (nodes ℚ t.fine t.dim).length → ∀ v, v < nv →
      weight X (fine.getD (t.sub * i + q) []) ((nodes ℚ t.fine t.dim).getD J []) v = weight unit (coarse.getD i []) (t.at (caseOf fine i) q J) v :=
    fun i hi q hq J hJ v hv => (dataOf_case t ht nv coarse fine X hr i hi q hq).2 ℚ _ (node_length t ht J hJ) v hv
  have hlat : lam = t.at (caseOf fine i) q J := weight_inj _ c2 nv c3 _ _ (by omega) (by rw [at_length]; omega) fun v hv => by
    rw [hp v hv, hat i hi q hq J hJ v hv]
  rcases written_or (K := ℚ) m (cell2dof fdofs (t.sub * i + q) J).toNat ((List.range coarse.length).flatMap (writes t fine cdofs fdofs)) with ⟨w, hw, w1, w2, -⟩ | ⟨h1, -⟩
  swap
  · refine ⟨0, fun K _ => ?_, fun I hI hd => ?_, fun _ => by simpa using htol⟩
    · rcases written_or (K := K) m (cell2dof fdofs (t.sub * i + q) J).toNat ((List.range coarse.length).flatMap (writes t fine cdofs fdofs)) with ⟨w, hw, w1, w2, -⟩ | ⟨-, h2⟩
      · exact absurd ⟨w1, w2⟩ (h1 w hw)
      · rw [h2]; simp
    · have : (t.shape I).eval lam = 0 := by
        by_contra hne
        rw [hlat] at hne
        obtain ⟨g, hg, rfl, e, he, hea⟩ := data_complete t ht _ (caseOf_lt fine i) q J I hq hJ hI hne
        obtain ⟨s1, s2, s3, -⟩ := data_spec t ht _ (caseOf_lt fine i) g hg e he
        have hsame : cell2dof fdofs (t.sub * i + q) J = cell2dof fdofs (t.sub * i + e.1) e.2.1 :=
          (hf.same _ (hfin i hi q hq) J hJ _ (hfin i hi e.1 s2) e.2.1 s3 hj).2 fun v hv => by
            rw [hat i hi q hq J hJ v hv, hat i hi e.1 s2 e.2.1 s3 v hv, hea]
        refine h1 (m, cell2dof fdofs (t.sub * i + q) J, (e.2.2 : ℚ) / 10 ^ t.digits) (List.mem_flatMap.2 ⟨i, List.mem_range.2 hi, (mem_writes ..).2 ?_⟩) ⟨rfl, rfl⟩
        exact ⟨g, hg, by omega, by rw [hd]; rfl, e, he, hsame.symm, hj, rfl⟩
      rw [this]
      simpa using htol
  · -- all writes at this position: same bound, and the last one counts
    have hval : ∀ w ∈ (List.range coarse.length).flatMap (writes t fine cdofs fdofs), w.1 = m → w.2.1.toNat = (cell2dof fdofs (t.sub * i + q) J).toNat →
        (∀ I, I < (nodes ℚ t.coarse t.dim).length → cell2dof cdofs i I = m → |w.2.2 - (t.shape I).eval lam| ≤ t.tol) ∧
        ((∀ I, I < (nodes ℚ t.coarse t.dim).length → cell2dof cdofs i I ≠ m) → |w.2.2| ≤ t.tol) := by
      intro w hw w1 w2
      obtain ⟨i', hi', hw'⟩ := List.mem_flatMap.1 hw
      have hi' := List.mem_range.1 hi'
      obtain ⟨g, hg, g0, g1, e, he, e1, e2, e3⟩ := (mem_writes ..).1 hw'
      obtain ⟨s1, s2, s3, s4⟩ := data_spec t ht _ (caseOf_lt fine i') g hg e he
      obtain ⟨c1', c2', c3'⟩ := hr.simplex _ (mem_getD (a := []) hi')
      have hsame := (hf.same _ (hfin i hi q hq) J hJ _ (hfin i' hi' e.1 s2) e.2.1 s3 hj).1 (by
        show cell2dof _ _ _ = cell2dof _ _ _
        omega)
      have hw : ∀ v, v < nv → weight unit (coarse.getD i []) lam v = weight unit (coarse.getD i' []) (t.at (caseOf fine i') e.1 e.2.1) v := fun v hv => by
        rw [hp v hv, hsame v hv, hat i' hi' e.1 s2 e.2.1 s3 v hv]
      rw [← e3] at s4
      constructor
      · intro I hI hd
        have hnode := (hc.same i hi I hI i' hi' g.1 s1 (by show 0 ≤ cell2dof _ _ _; omega)).1 (by show cell2dof _ _ _ = cell2dof _ _ _; omega)
        have := same_value t.coarse t.dim nv (by omega) o4 (by omega) _ _ c1 c2 c3 c1' c2' c3' _ _ hlam (at_length ..) hw I g.1 hI s1 hnode
        unfold Table.shape at s4 ⊢
        rw [this]
        exact s4
      · intro hno
        have hz : (t.shape g.1).eval (t.at (caseOf fine i') e.1 e.2.1) = 0 := by
          by_contra hne
          obtain ⟨I, hI, hnode⟩ := other_node t.coarse t.dim nv (by omega) o4 (by omega) _ _ c1 c2 c3 c1' c2' c3' _ _ hlam (at_length ..) hw g.1 s1
            (fun h0 => p0_nonzero t ht h0 _ (List.mem_range.2 (caseOf_lt fine i')) e.1 (List.mem_range.2 s2) e.2.1 (List.mem_range.2 s3)) hne
          have := (hc.same i' hi' g.1 s1 i hi I hI g0).2 fun v hv => (hnode v hv).symm
          refine hno I hI ?_
          show cell2dof _ _ _ = _
          have h2 : cell2dof cdofs i' g.1 = cell2dof cdofs i I := this
          omega
        rw [hz, sub_zero] at s4
        exact s4
    -- the last write does not depend on the field
    have hlast : ∀ W : List (Nat × Int × ℚ), (∃ w ∈ W, w.1 = m ∧ w.2.1.toNat = (cell2dof fdofs (t.sub * i + q) J).toNat) →
        ∃ w ∈ W, w.1 = m ∧ w.2.1.toNat = (cell2dof fdofs (t.sub * i + q) J).toNat ∧
          ∀ (K : Type) [Field K] (a : K), written m (cell2dof fdofs (t.sub * i + q) J).toNat a W = (w.2.2 : K) := by
      intro W
      induction W with
      | nil => rintro ⟨w, hw, -⟩; cases hw
      | cons w W ih =>
        intro h
        by_cases hex : ∃ w ∈ W, w.1 = m ∧ w.2.1.toNat = (cell2dof fdofs (t.sub * i + q) J).toNat
        · obtain ⟨w', a1, a2, a3, a4⟩ := ih hex
          exact ⟨w', List.mem_cons_of_mem _ a1, a2, a3, fun K _ a => a4 K _⟩
        · obtain ⟨w', a1, a2, a3⟩ := h
          rcases List.mem_cons.1 a1 with rfl | a1
          · refine ⟨w', List.mem_cons_self, a2, a3, fun K _ a => ?_⟩
            show written _ _ (if _ then _ else _) W = _
            rw [if_pos ⟨a2.symm, a3.symm⟩]
            rcases written_or (K := K) m (cell2dof fdofs (t.sub * i + q) J).toNat W with ⟨w, hw, w1, w2, -⟩ | ⟨-, h2⟩
            · exact absurd ⟨w, hw, w1, w2⟩ hex
            · exact h2 _
          · exact absurd ⟨w', a1, a2, a3⟩ hex
    obtain ⟨w', a1, a2, a3, a4⟩ := hlast _ ⟨w, hw, w1, w2⟩
    exact ⟨w'.2.2, fun K _ => a4 K 0, hval w' a1 a2 a3⟩

end PyNucleus.Restriction
