import Verif.Proof.RestrictionEntries
import Verif.Props.C08
import Mathlib.Algebra.MvPolynomial.CommRing

/-! # Prolongation is exact -/

namespace PyNucleus.Restriction

open PyNucleus.ShapeFunctions PyNucleus.Spec PyNucleus.CSR MvPolynomial

variable {K : Type} [Field K] [CharZero K]

theorem getD_cast (lam : List ℚ) (v : Nat) : (lam.map fun x : ℚ => (x : K)).getD v 0 = ((lam.getD v 0 : ℚ) : K) := by
  rw [show (0 : K) = ((0 : ℚ) : K) by simp]
  exact getD_map' (fun x : ℚ => (x : K)) lam v 0

theorem eval_cast (φ : Shape) (lam : List ℚ) : φ.eval (lam.map fun x : ℚ => (x : K)) = ((φ.eval lam : ℚ) : K) := by
  cases φ <;> simp only [Shape.eval, getD_cast] <;> push_cast <;> rfl

theorem nodes_cast (p dim : Nat) (h3 : p ≤ 3) (d1 : 1 ≤ dim) (d3 : dim ≤ 3) : nodes K p dim = (nodes ℚ p dim).map fun l => l.map fun x : ℚ => (x : K) := by
  interval_cases p <;> interval_cases dim <;> simp [nodes, List.range_succ]

omit [CharZero K] in
theorem sum_range (n : Nat) (f : Nat → K) : ((List.range n).map f).sum = ∑ i ∈ Finset.range n, f i := rfl

theorem outer_cast (dim : Nat) (s : List (List ℚ)) (lam : List ℚ) : outer dim s (lam.map fun x : ℚ => (x : K)) = (outer dim s lam).map fun x : ℚ => (x : K) := by
  unfold outer
  rw [List.map_map]
  refine List.map_congr_left fun k _ => ?_
  simp only [Function.comp, getD_cast]
  rw [sum_range, sum_range]
  push_cast
  rfl

omit [CharZero K] in
theorem outer_getD (dim : Nat) (s : List (List ℚ)) (lam : List K) (k : Nat) :
    (outer dim s lam).getD k 0 = if k < dim + 1 then ∑ i ∈ Finset.range (dim + 1), lam.getD i 0 * (((s.getD i []).getD k 0 : ℚ) : K) else 0 := by
  unfold outer
  split
  · rename_i h
    rw [List.getD_eq_getElem _ _ (by simpa using h), List.getElem_map, List.getElem_range]
    rfl
  · rename_i h
    rw [List.getD_eq_default _ _ (by simpa using h)]

theorem evalFun_sum (p dim : Nat) (U lam : List K) (h : U.length = (localShapeFunctions p dim).length) :
    evalFun p dim U lam = ∑ I ∈ Finset.range U.length, ((localShapeFunctions p dim).getD I .p0).eval lam * U.getD I 0 := by
  unfold evalFun
  rw [ShapeFunctions.foldl_add, zero_add, ← sum_range]
  congr 1
  apply List.ext_getElem
  · simp; omega
  · intro i h1 h2
    simp only [List.length_map, List.length_range] at h2
    rw [List.getElem_zipWith, List.getElem_map, List.getElem_range, List.getD_eq_getElem _ _ (by omega), List.getD_eq_getElem _ _ h2]

/-- Shape functions as polynomials in linear forms. -/
noncomputable def shapePoly {n : Nat} (L : Nat → MvPolynomial (Fin n) K) : Shape → MvPolynomial (Fin n) K
  | .p0 => 1
  | .p1 v => L v
  | .p2v v => L v * (C 2 * L v - C 1)
  | .p2e v1 v2 => C 4 * L v1 * L v2
  | .p3v v => C (9 / 2) * L v * (L v - C (1 / 3)) * (L v - C (2 / 3))
  | .p3e v1 v2 => C (27 / 2) * L v1 * L v2 * (L v1 - C (1 / 3))
  | .p3f v1 v2 v3 => C 27 * L v1 * L v2 * L v3

def order : Shape → Nat
  | .p0 => 0
  | .p1 _ => 1
  | .p2v _ => 2
  | .p2e _ _ => 2
  | .p3v _ => 3
  | .p3e _ _ => 3
  | .p3f _ _ _ => 3

theorem order_le (p dim : Nat) (h3 : p ≤ 3) (d1 : 1 ≤ dim) (d3 : dim ≤ 3) : ∀ φ ∈ localShapeFunctions p dim, order φ ≤ p := by
  interval_cases p <;> interval_cases dim <;> decide

omit [CharZero K] in
theorem degree_mul {n : Nat} {f g : MvPolynomial (Fin n) K} {a b : Nat} (hf : f.totalDegree ≤ a) (hg : g.totalDegree ≤ b) : (f * g).totalDegree ≤ a + b :=
  (totalDegree_mul f g).trans (by omega)

omit [CharZero K] in
theorem degree_sub_C {n : Nat} {f : MvPolynomial (Fin n) K} (c : K) (hf : f.totalDegree ≤ 1) : (f - C c).totalDegree ≤ 1 :=
  (totalDegree_sub f (C c)).trans (by rw [totalDegree_C]; omega)

omit [CharZero K] in
theorem degree_C_mul {n : Nat} {f : MvPolynomial (Fin n) K} {a : Nat} (c : K) (hf : f.totalDegree ≤ a) : (C c * f).totalDegree ≤ a :=
  (totalDegree_mul _ f).trans (by rw [totalDegree_C]; omega)

omit [CharZero K] in
theorem shapePoly_degree {n : Nat} (L : Nat → MvPolynomial (Fin n) K) (hL : ∀ v, (L v).totalDegree ≤ 1) (φ : Shape) : (shapePoly L φ).totalDegree ≤ order φ := by
  cases φ with
  | p0 => exact (totalDegree_one).le
  | p1 v => exact hL v
  | p2v v => exact degree_mul (hL v) (degree_sub_C _ (degree_C_mul _ (hL v)))
  | p2e v1 v2 => exact degree_mul (degree_C_mul _ (hL v1)) (hL v2)
  | p3v v => exact degree_mul (degree_mul (degree_C_mul _ (hL v)) (degree_sub_C _ (hL v))) (degree_sub_C _ (hL v))
  | p3e v1 v2 => exact degree_mul (degree_mul (degree_C_mul _ (hL v1)) (hL v2)) (degree_sub_C _ (hL v1))
  | p3f v1 v2 v3 => exact degree_mul (degree_mul (degree_C_mul _ (hL v1)) (hL v2)) (hL v3)

omit [CharZero K] in
theorem shapePoly_eval {n : Nat} (L : Nat → MvPolynomial (Fin n) K) (x : Fin n → K) (mu : List K) (h : ∀ v, eval x (L v) = mu.getD v 0) (φ : Shape) :
    eval x (shapePoly L φ) = φ.eval mu := by
  cases φ <;> simp [shapePoly, Shape.eval, h]

/-- The linear forms of `outer`. -/
noncomputable def form (dim : Nat) (s : List (List ℚ)) (k : Nat) : MvPolynomial (Fin (dim + 1)) K :=
  if k < dim + 1 then ∑ i : Fin (dim + 1), C (((s.getD i []).getD k 0 : ℚ) : K) * MvPolynomial.X i else 0

omit [CharZero K] in
theorem form_degree (dim : Nat) (s : List (List ℚ)) (k : Nat) : (form (K := K) dim s k).totalDegree ≤ 1 := by
  unfold form
  split
  · refine totalDegree_finsetSum_le fun i _ => degree_C_mul _ ?_
    rw [totalDegree_X]
  · simp

omit [CharZero K] in
theorem form_eval (dim : Nat) (s : List (List ℚ)) (lam : List K) (k : Nat) :
    eval (fun i : Fin (dim + 1) => lam.getD i 0) (form dim s k) = (outer dim s lam).getD k 0 := by
  rw [outer_getD]
  unfold form
  split
  · rw [map_sum, ← Fin.sum_univ_eq_sum_range (fun i => lam.getD i 0 * (((s.getD i []).getD k 0 : ℚ) : K))]
    refine Finset.sum_congr rfl fun i _ => ?_
    rw [map_mul, eval_C, eval_X]
    ring
  · simp

/-- A function of order `pc`, interpolated by functions of order `pf` on a sub-simplex, is reproduced. -/
theorem interpolate_outer (pc pf dim : Nat) (hle : pc ≤ pf) (h3 : pf ≤ 3) (d1 : 1 ≤ dim) (d3 : dim ≤ 3) (s : List (List ℚ)) (U : List K)
    (hU : U.length = (localShapeFunctions pc dim).length) (lam : List K) (hl : lam.length = dim + 1) (hs : lam.sum = 1) :
    evalFun pf dim (interpolate pf dim fun lam => evalFun pc dim U (outer dim s lam)) lam = evalFun pc dim U (outer dim s lam) := by
  set f : MvPolynomial (Fin (dim + 1)) K := ∑ I ∈ Finset.range U.length, C (U.getD I 0) * shapePoly (form dim s) ((localShapeFunctions pc dim).getD I .p0) with hf
  have hd : f.totalDegree ≤ pf := totalDegree_finsetSum_le fun I hI => degree_C_mul _ (by
    refine (shapePoly_degree _ (form_degree dim s) _).trans ((order_le pc dim (by omega) d1 d3 _ (mem_getD ?_)).trans hle)
    have := Finset.mem_range.1 hI
    omega)
  have hv : ∀ lam : List K, evalFun pc dim U (outer dim s lam) = Props.C41.value f lam := fun lam => by
    rw [evalFun_sum pc dim U _ hU]
    unfold Props.C41.value
    rw [hf, map_sum]
    refine Finset.sum_congr rfl fun I _ => ?_
    rw [map_mul, eval_C, shapePoly_eval _ _ (outer dim s lam) (form_eval dim s lam)]
    ring
  have := Props.C41.reproduces pf dim h3 d1 d3 f hd lam hl hs
  rw [hv lam]
  unfold interpolate at this ⊢
  simp only [hv]
  exact this

omit [CharZero K] in
theorem localValues_getD (p dim : Nat) (dofs : List (List Int)) (u : Nat → K) (i I : Nat) (hI : I < (nodes ℚ p dim).length) :
    (localValues p dim dofs u i).getD I 0 = if 0 ≤ cell2dof dofs i I then u (cell2dof dofs i I).toNat else 0 := by
  unfold localValues
  rw [List.getD_eq_getElem _ _ (by simpa using hI), List.getElem_map, List.getElem_range]
  rfl

omit [CharZero K] in
theorem localValues_length (p dim : Nat) (dofs : List (List Int)) (u : Nat → K) (i : Nat) : (localValues p dim dofs u i).length = (nodes ℚ p dim).length := by
  unfold localValues; simp

/-- The coefficients of the prolongation are the values of the coarse function at the fine nodes. -/
theorem node_value {t : Table} {nv : Nat} {coarse fine : List (List Nat)} {X : Nat → Nat → ℚ} {cdofs fdofs : List (List Int)} {nc nf : Nat}
    (S : Setting t nv coarse fine X cdofs fdofs nc nf) (htol : t.tol = 0) (i : Nat) (hi : i < coarse.length) (q : Nat) (hq : q < t.sub) (J : Nat)
    (hJ : J < (nodes ℚ t.fine t.dim).length) (hj : 0 ≤ cell2dof fdofs (t.sub * i + q) J) (u : Nat → K) :
    (∑ m ∈ Finset.range nc, written m (cell2dof fdofs (t.sub * i + q) J).toNat (0 : K) ((List.range coarse.length).flatMap (writes t fine cdofs fdofs)) * u m) =
      evalFun t.coarse t.dim (localValues t.coarse t.dim cdofs u i) (outer t.dim ((subCells t.dim t.sub (caseOf fine i)).getD q []) ((nodes K t.fine t.dim).getD J [])) := by
  have ht := S.table
  obtain ⟨o1, o2, o3, o4, -⟩ := orders t ht
  have o1 := List.mem_range.1 o1
  have o2 := List.mem_range.1 o2
  have o3 := List.mem_range.1 o3
  have hnode : outer t.dim ((subCells t.dim t.sub (caseOf fine i)).getD q []) ((nodes K t.fine t.dim).getD J []) =
      (t.at (caseOf fine i) q J).map fun x : ℚ => (x : K) := by
    rw [nodes_cast t.fine t.dim (by omega) o4 (by omega), show ([] : List K) = ([] : List ℚ).map fun x : ℚ => (x : K) from rfl, getD_map' (fun l : List ℚ => l.map fun x : ℚ => (x : K)),
      outer_cast]
    rfl
  obtain ⟨c1, c2, c3⟩ := S.refined.simplex _ (mem_getD (a := []) hi)
  rw [hnode, evalFun_sum _ _ _ _ (by rw [localValues_length, (nodeN_length t ht).2.2]), localValues_length]
  have hterm : ∀ m, m ∈ Finset.range nc → written m (cell2dof fdofs (t.sub * i + q) J).toNat (0 : K) ((List.range coarse.length).flatMap (writes t fine cdofs fdofs)) * u m =
      ∑ I ∈ Finset.range (nodes ℚ t.coarse t.dim).length, if cell2dof cdofs i I = m then (((t.shape I).eval (t.at (caseOf fine i) q J) : ℚ) : K) * u m else 0 := by
    intro m _
    obtain ⟨r, r1, r2, r3⟩ := written_value S i hi q hq J hJ hj (t.at (caseOf fine i) q J) (at_length ..)
      (fun v hv => ((dataOf_case t ht nv coarse fine X S.refined i hi q hq).2 ℚ _ (node_length t ht J hJ) v hv).symm) m
    rw [r1 K]
    rw [htol] at r2 r3
    by_cases hex : ∃ I, I < (nodes ℚ t.coarse t.dim).length ∧ cell2dof cdofs i I = m
    · obtain ⟨I, hI, hd⟩ := hex
      rw [Finset.sum_eq_single I]
      · rw [if_pos hd, sub_eq_zero.1 (abs_nonpos_iff.1 (r2 I hI hd))]
      · intro I' hI' hne
        refine if_neg fun hd' => hne ?_
        have hI' := Finset.mem_range.1 hI'
        have hw := (S.cnum.same i hi I' hI' i hi I hI (by show 0 ≤ cell2dof _ _ _; omega)).1 (by show cell2dof _ _ _ = cell2dof _ _ _; omega)
        have hnl := (Props.C41.nodes_sum (K := ℚ) t.coarse t.dim (by omega) o4 (by omega)).2
        have e := weight_inj (K := ℚ) _ c2 nv c3 _ _ (by rw [(hnl _ (mem_getD hI')).1, c1]) (by rw [(hnl _ (mem_getD hI)).1, c1]) hw
        rw [List.getD_eq_getElem _ _ hI', List.getD_eq_getElem _ _ hI] at e
        have hn1 := Props.C41.nodal (K := ℚ) t.coarse t.dim (by omega) o4 (by omega) I I' (by rw [(nodeN_length t ht).2.2]; exact hI) hI'
        have hn2 := Props.C41.nodal (K := ℚ) t.coarse t.dim (by omega) o4 (by omega) I I (by rw [(nodeN_length t ht).2.2]; exact hI) hI
        rw [e, hn2, if_pos rfl] at hn1
        by_contra hne
        rw [if_neg (Ne.symm hne)] at hn1
        exact one_ne_zero hn1
      · intro h; exact absurd (Finset.mem_range.2 hI) h
    · have : r = 0 := abs_nonpos_iff.1 (r3 fun I hI hd => hex ⟨I, hI, hd⟩)
      rw [this, Finset.sum_eq_zero]
      · simp
      · intro I hI
        exact if_neg fun hd => hex ⟨I, Finset.mem_range.1 hI, hd⟩
  rw [Finset.sum_congr rfl hterm, Finset.sum_comm]
  refine Finset.sum_congr rfl fun I hI => ?_
  have hI := Finset.mem_range.1 hI
  rw [localValues_getD _ _ _ _ _ _ hI, eval_cast]
  by_cases h0 : 0 ≤ cell2dof cdofs i I
  · rw [if_pos h0, Finset.sum_eq_single (cell2dof cdofs i I).toNat]
    · rw [if_pos (by omega)]; rfl
    · intro m _ hne
      exact if_neg (by omega)
    · intro h
      have := S.cnum.below i hi I hI
      have h2 : cell2dof cdofs i I < nc := this
      exact absurd (Finset.mem_range.2 (by omega)) h
  · rw [if_neg h0, mul_zero, Finset.sum_eq_zero]
    intro m _
    exact if_neg (by omega)

/-- The coarse function vanishes at fine nodes on the boundary. -/
theorem boundary_value {t : Table} {nv : Nat} {coarse fine : List (List Nat)} {X : Nat → Nat → ℚ} {cdofs fdofs : List (List Int)} {nc nf : Nat}
    (S : Setting t nv coarse fine X cdofs fdofs nc nf) (hb : BoundaryInherited t.coarse t.fine t.dim t.sub nv coarse fine X cdofs fdofs)
    (i : Nat) (hi : i < coarse.length) (q : Nat) (hq : q < t.sub) (J : Nat)
    (hJ : J < (nodes ℚ t.fine t.dim).length) (hj : cell2dof fdofs (t.sub * i + q) J < 0) (u : Nat → K) :
    evalFun t.coarse t.dim (localValues t.coarse t.dim cdofs u i) (outer t.dim ((subCells t.dim t.sub (caseOf fine i)).getD q []) ((nodes K t.fine t.dim).getD J [])) = 0 := by
  have ht := S.table
  obtain ⟨o1, o2, o3, o4, -⟩ := orders t ht
  have o1 := List.mem_range.1 o1
  have o2 := List.mem_range.1 o2
  have o3 := List.mem_range.1 o3
  have hnode : outer t.dim ((subCells t.dim t.sub (caseOf fine i)).getD q []) ((nodes K t.fine t.dim).getD J []) =
      (t.at (caseOf fine i) q J).map fun x : ℚ => (x : K) := by
    rw [nodes_cast t.fine t.dim (by omega) o4 (by omega), show ([] : List K) = ([] : List ℚ).map fun x : ℚ => (x : K) from rfl, getD_map' (fun l : List ℚ => l.map fun x : ℚ => (x : K)),
      outer_cast]
    rfl
  obtain ⟨c1, c2, c3⟩ := S.refined.simplex _ (mem_getD (a := []) hi)
  rw [hnode, evalFun_sum _ _ _ _ (by rw [localValues_length, (nodeN_length t ht).2.2]), localValues_length]
  refine Finset.sum_eq_zero fun I hI => ?_
  have hI := Finset.mem_range.1 hI
  rw [localValues_getD _ _ _ _ _ _ hI, eval_cast]
  by_cases h : ((localShapeFunctions t.coarse t.dim).getD I .p0).eval (t.at (caseOf fine i) q J) = 0
  · rw [h]; simp
  · rw [if_neg, mul_zero]
    have : cell2dof cdofs i I < 0 := hb i hi q hq J hJ hj I hI fun v hv hw => by
      rw [(dataOf_case t ht nv coarse fine X S.refined i hi q hq).2 ℚ _ (node_length t ht J hJ) v hv]
      show weight unit _ (t.at (caseOf fine i) q J) v ≠ 0
      rcases Nat.eq_zero_or_pos t.coarse with h0 | h1
      · have hm : v ∈ coarse.getD i [] := by by_contra hm; exact hw (weight_not_mem _ _ v hm)
        obtain ⟨k, hk, rfl⟩ := List.mem_iff_getElem.1 hm
        have e := weight_getD (coarse.getD i []) (t.at (caseOf fine i) q J) c2 (by rw [at_length, c1]) k hk
        rw [List.getD_eq_getElem _ _ hk] at e
        rw [e]
        have hk' : k < (t.at (caseOf fine i) q J).length := by rw [at_length]; omega
        exact p0_nonzero t ht h0 _ (List.mem_range.2 (caseOf_lt fine i)) q (List.mem_range.2 hq) J (List.mem_range.2 hJ) _ (mem_getD hk')
      · rw [eval_lagrange t.coarse t.dim nv h1 (by omega) o4 (by omega) _ c1 c2 c3 I hI _ (at_length ..)] at h
        exact lagrange_support t.coarse t.dim nv h1 (by omega) o4 (by omega) _ c1 c2 c3 I hI _ h v hv hw
    omega

end PyNucleus.Restriction
