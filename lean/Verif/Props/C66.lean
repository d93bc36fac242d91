import Verif.Proof.RestrictionExact

/-!
# C66: restriction and prolongation

`buildRestrictionProlongation` of two finite element spaces on a mesh and its uniform refinement (same order), or on one mesh (different orders).
-/

namespace PyNucleus.Props.C66

open PyNucleus.Restriction PyNucleus.ShapeFunctions PyNucleus.Spec PyNucleus.CSR

/-- The pairs of orders for which the matrices can be built. -/
def Supported (pc pf dim : Nat) : Prop := pc ≤ pf ∧ pf ≤ 3 ∧ (pc = 0 → pf = 0) ∧ 1 ≤ dim ∧ dim ≤ 3

/-- Fine cells per coarse cell: uniform refinement for equal orders, the same mesh otherwise. -/
def sub (pc pf dim : Nat) : Nat := if pc = pf then 2 ^ dim else 1

/-- Distance of the tabulated values from the exact ones: nine decimals for the two pairs with thirds in the tables that are not exact. -/
def bound (pc pf : Nat) : ℚ := if pf = 3 ∧ pc ≠ 3 then 1 / 2 / 10 ^ 9 else 0

/-- Two finite element spaces on a mesh and its refinement. -/
structure Spaces (pc pf dim nv : Nat) (coarse fine : List (List Nat)) (X : Nat → Nat → ℚ) (cdofs fdofs : List (List Int)) (nc nf : Nat) : Prop where
  supported : Supported pc pf dim
  refined : Refined dim (sub pc pf dim) nv coarse fine X
  coarseDofs : Numbers pc dim nv unit coarse cdofs nc
  fineDofs : Numbers pf dim nv X fine fdofs nf
  /-- Lists of column numbers have 16 bit lengths. -/
  capacity : ∀ m : Int, ((List.range coarse.length).filter fun i => (List.range (nodes ℚ pc dim).length).any fun I => (cdofs.getD i []).getD I 0 == m).length *
    (sub pc pf dim * (nodes ℚ pf dim).length) + 9 ≤ 65536

/-- Arrays that are not initialised have the required lengths. -/
def Lengths {α : Type} (data : Nat → List α) : Prop := ∀ n, (data n).length = n

theorem select_spec (pc pf dim : Nat) :
    (Supported pc pf dim → ∃ t, select pc pf dim = some t ∧ t ∈ tables ∧ t.coarse = pc ∧ t.fine = pf ∧ t.dim = dim ∧ t.sub = sub pc pf dim ∧ t.tol = bound pc pf) ∧
    (¬ Supported pc pf dim → select pc pf dim = none) := by
  have all : ∀ pc ∈ List.range 4, ∀ pf ∈ List.range 4, ∀ d ∈ List.range 3, pc ≤ pf → (pc = 0 → pf = 0) →
      ∃ t ∈ tables, select pc pf (d + 1) = some t ∧ t.coarse = pc ∧ t.fine = pf ∧ t.dim = d + 1 ∧ t.sub = sub pc pf (d + 1) ∧ t.tol = bound pc pf := by
    unfold sub bound Table.tol
    intro pc hpc pf hpf d hd hle h0
    have hpc := List.mem_range.1 hpc
    have hpf := List.mem_range.1 hpf
    have hd := List.mem_range.1 hd
    interval_cases pf <;> interval_cases pc <;> interval_cases d <;> first
      | omega
      | exact ⟨_, by unfold tables; simp only [List.mem_cons, true_or, or_true], rfl, rfl, rfl, rfl, rfl, rfl⟩
  constructor
  · rintro ⟨h1, h2, h3, h4, h5⟩
    obtain ⟨t, a1, a2, a3⟩ := all pc (List.mem_range.2 (by omega)) pf (List.mem_range.2 (by omega)) (dim - 1) (List.mem_range.2 (by omega)) h1 h3
    rw [show dim - 1 + 1 = dim by omega] at a2 a3
    exact ⟨t, a2, a1, a3⟩
  · intro h
    unfold select
    split <;> first
      | rfl
      | exact absurd ⟨by decide, by decide, by decide, by decide, by decide⟩ h

variable {K : Type} [Field K] [CharZero K]

section
variable {pc pf dim nv : Nat} {coarse fine : List (List Nat)} {X : Nat → Nat → ℚ} {cdofs fdofs : List (List Int)} {nc nf : Nat}

omit [CharZero K] in
theorem built (S : Spaces pc pf dim nv coarse fine X cdofs fdofs nc nf) (data newdata : Nat → List K) (newindices : Nat → List Nat)
    (hd : Lengths data) (hd' : Lengths newdata) (hi' : Lengths newindices) :
    ∃ t, Setting t nv coarse fine X cdofs fdofs nc nf ∧ t.coarse = pc ∧ t.fine = pf ∧ t.dim = dim ∧ t.sub = sub pc pf dim ∧ t.tol = bound pc pf ∧
    ∃ R P, restrictionProlongation pc pf dim coarse.length fine cdofs fdofs nc nf data newdata newindices = some (R, P) ∧ R.Valid ∧ R.Sorted ∧ R.numRows = nc ∧
      R.numCols = nf ∧ P.Valid ∧ P.numRows = nf ∧ P.numCols = nc ∧ (∀ i j, i < nc → j < nf → P.entry j i = R.entry i j) ∧
      ∀ i j, i < nc → R.entry i j = written i j (0 : K) ((List.range coarse.length).flatMap (writes t fine cdofs fdofs)) := by
  obtain ⟨hs, hr, hc, hf, hcap⟩ := S
  obtain ⟨t, e, ht, rfl, rfl, rfl, e1, e2⟩ := (select_spec pc pf dim).1 hs
  rw [← e1] at hr hcap
  have S' : Setting t nv coarse fine X cdofs fdofs nc nf := ⟨ht, hr, hc, hf⟩
  obtain ⟨R, r1, r2, r3, r4, r5, r6⟩ := restriction_spec (K := K) t ht coarse.length fine cdofs fdofs nc nf data hd hc.below
    (fun i hi q hq J hJ => hf.below _ (lt_of_getD (dataOf_case t ht nv coarse fine X hr i hi q hq).1) J hJ) hcap
  obtain ⟨p1, p2, p3, -, p5⟩ := Props.C09.transpose_correct R r2 (newindices R.indices.length) (newdata R.indices.length) (hi' _) (hd' _)
  refine ⟨t, S', rfl, rfl, rfl, e1, e2, R, _, ?_, r2, r3, r4, r5, p3, p1.trans r5, p2.trans r4, fun i j hi hj => p5 i j (by omega) (by omega), r6⟩
  unfold restrictionProlongation
  rw [e]
  simp only [Option.bind_some]
  rw [r1]
  rfl

omit [CharZero K] in
/-- The matrices exist and are valid, the prolongation is the transpose of the restriction, and the entry of a coarse dof `m` and a fine dof at a point `lam` of the
coarse cell `i` is the value of the basis function of `m` there: that of the local shape function if `m` is a dof of the cell and zero otherwise.  For orders 1, 3
and 2, 3 the values have an error of at most `5e-10`.  Uninitialised memory has no influence. -/
theorem restriction_values (S : Spaces pc pf dim nv coarse fine X cdofs fdofs nc nf) (data newdata : Nat → List K) (newindices : Nat → List Nat)
    (hd : Lengths data) (hd' : Lengths newdata) (hi' : Lengths newindices) :
    ∃ R P, restrictionProlongation pc pf dim coarse.length fine cdofs fdofs nc nf data newdata newindices = some (R, P) ∧
      R.Valid ∧ R.Sorted ∧ R.numRows = nc ∧ R.numCols = nf ∧ P.Valid ∧ P.numRows = nf ∧ P.numCols = nc ∧ (∀ i j, i < nc → j < nf → P.entry j i = R.entry i j) ∧
      ∀ i, i < coarse.length → ∀ q, q < sub pc pf dim → ∀ J, J < (nodes ℚ pf dim).length → ∀ j : Nat, (fdofs.getD (sub pc pf dim * i + q) []).getD J 0 = j →
        ∀ lam : List ℚ, lam.length = dim + 1 →
          (∀ v, v < nv → weight unit (coarse.getD i []) lam v = weight X (fine.getD (sub pc pf dim * i + q) []) ((nodes ℚ pf dim).getD J []) v) →
          ∀ m, m < nc → ∃ r : ℚ, R.entry m j = (r : K) ∧
            (∀ I, I < (nodes ℚ pc dim).length → (cdofs.getD i []).getD I 0 = m → |r - ((localShapeFunctions pc dim).getD I .p0).eval lam| ≤ bound pc pf) ∧
            ((∀ I, I < (nodes ℚ pc dim).length → (cdofs.getD i []).getD I 0 ≠ m) → |r| ≤ bound pc pf) := by
  obtain ⟨t, S', rfl, rfl, rfl, e1, e2, R, P, h1, h2, h3, h4, h5, h6, h7, h8, h9, h10⟩ := built S data newdata newindices hd hd' hi'
  refine ⟨R, P, h1, h2, h3, h4, h5, h6, h7, h8, h9, fun i hi q hq J hJ j hj lam hlam hp m hm => ?_⟩
  rw [← e1] at hq hj hp
  obtain ⟨r, r1, r2, r3⟩ := written_value S' i hi q hq J hJ (by show 0 ≤ (fdofs.getD _ []).getD _ 0; omega) lam hlam hp m
  have e : (cell2dof fdofs (t.sub * i + q) J).toNat = j := by show ((fdofs.getD _ []).getD _ 0).toNat = j; omega
  rw [e] at r1
  exact ⟨r, by rw [h10 m j hm, r1 K], by rw [← e2]; exact r2, by rw [← e2]; exact r3⟩

/-- The function of the fine space with coefficients `P x` is the function of the coarse space with coefficients `x`. -/
def Exact (pc pf dim nv : Nat) (coarse fine : List (List Nat)) (X : Nat → Nat → ℚ) (cdofs fdofs : List (List Int)) (P : CSR K) : Prop :=
  ∀ x y : List K, y.length = P.numRows → ∀ i, i < coarse.length → ∀ q, q < sub pc pf dim → ∀ lam mu : List K, lam.length = dim + 1 → lam.sum = 1 → mu.length = dim + 1 →
    (∀ v, v < nv → weight unit (coarse.getD i []) mu v = weight X (fine.getD (sub pc pf dim * i + q) []) lam v) →
    evalFun pf dim (localValues pf dim fdofs (fun j => (matvec false P x y).getD j 0) (sub pc pf dim * i + q)) lam =
      evalFun pc dim (localValues pc dim cdofs (fun m => x.getD m 0) i) mu

/-- Prolongation does not change the function, unless the orders are 1, 3 or 2, 3. -/
theorem prolongation_exact_partial (S : Spaces pc pf dim nv coarse fine X cdofs fdofs nc nf) (hb : BoundaryInherited pc pf dim (sub pc pf dim) nv coarse fine X cdofs fdofs)
    (hp : pf = 3 → pc = 3) (data newdata : Nat → List K) (newindices : Nat → List Nat) (hd : Lengths data) (hd' : Lengths newdata) (hi' : Lengths newindices) :
    ∃ R P, restrictionProlongation pc pf dim coarse.length fine cdofs fdofs nc nf data newdata newindices = some (R, P) ∧
      Exact pc pf dim nv coarse fine X cdofs fdofs P := by
  obtain ⟨t, S', rfl, rfl, rfl, e1, e2, R, P, h1, h2, h3, h4, h5, h6, h7, h8, h9, h10⟩ := built S data newdata newindices hd hd' hi'
  refine ⟨R, P, h1, ?_⟩
  rw [← e1] at hb
  have htol : t.tol = 0 := by rw [e2]; unfold bound; rw [if_neg]; rintro ⟨a, b⟩; exact b (hp a)
  intro x y hy i hi q hq lam mu hl hs hmu hw
  rw [← e1] at hq hw ⊢
  obtain ⟨o1, o2, o3, o4, o5, -⟩ := orders t S'.table
  have o1 := List.mem_range.1 o1
  have o2 := List.mem_range.1 o2
  have o3 := List.mem_range.1 o3
  obtain ⟨c1, c2, c3⟩ := S'.refined.simplex _ (mem_getD (a := []) hi)
  obtain ⟨f1, f2⟩ := dataOf_case t S'.table nv coarse fine X S'.refined i hi q hq
  have hmu' : mu = outer t.dim ((subCells t.dim t.sub (caseOf fine i)).getD q []) lam :=
    weight_inj _ c2 nv c3 _ _ (by rw [hmu, c1]) (by rw [c1]; unfold outer; rw [List.length_map, List.length_range]) fun v hv => by rw [hw v hv, f2 K lam hl v hv]
  rw [hmu', ← interpolate_outer t.coarse t.fine t.dim o5 (by omega) o4 (by omega) _ _ (by rw [localValues_length, (nodeN_length t S'.table).2.2]) lam hl hs]
  congr 1
  have hnl : (nodes K t.fine t.dim).length = (nodes ℚ t.fine t.dim).length := by rw [nodes_cast t.fine t.dim (by omega) o4 (by omega), List.length_map]
  obtain ⟨m1, m2⟩ := Props.C08.matvec_correct false P h6 x y hy
  apply List.ext_getElem
  · rw [localValues_length]; unfold interpolate; rw [List.length_map, hnl]
  · intro J hJ hJ'
    rw [localValues_length] at hJ
    have e := localValues_getD t.fine t.dim fdofs (fun j => (matvec false P x y).getD j 0) (t.sub * i + q) J hJ
    rw [List.getD_eq_getElem _ _ (by rw [localValues_length]; exact hJ)] at e
    rw [e]
    simp only [interpolate, List.getElem_map]
    rw [← List.getD_eq_getElem _ [] (by omega)]
    split
    · rename_i h0
      have hlt : cell2dof fdofs (t.sub * i + q) J < nf := S'.fnum.below _ (lt_of_getD f1) J hJ
      rw [m2 _ (by omega), ← node_value S' htol i hi q hq J hJ h0]
      unfold mulVec
      rw [h8]
      refine Finset.sum_congr rfl fun m hm => ?_
      rw [h9 _ _ (Finset.mem_range.1 hm) (by omega), h10 _ _ (Finset.mem_range.1 hm)]
    · rename_i h0
      rw [boundary_value S' hb i hi q hq J hJ (by omega)]

end

omit [CharZero K] in
/-- No other spaces. -/
theorem unsupported (pc pf dim : Nat) (h : ¬ Supported pc pf dim) (n : Nat) (fine : List (List Nat)) (cdofs fdofs : List (List Int)) (nc nf : Nat)
    (data newdata : Nat → List K) (newindices : Nat → List Nat) :
    restrictionProlongation pc pf dim n fine cdofs fdofs nc nf data newdata newindices = none := by
  unfold restrictionProlongation
  rw [(select_spec pc pf dim).2 h]
  rfl

set_option synthInstance.maxSize 2000
set_option synthInstance.maxHeartbeats 200000

/-- Weights from a table. -/
def ofTable (T : List (List ℚ)) (w v : Nat) : ℚ := (T.getD w []).getD v 0

section
/-! Two intervals and their refinement, boundary nodes without dofs: the hypotheses hold, and the matrices. -/

def coarse1 : List (List Nat) := [[0, 1], [1, 2]]
def fine1 : List (List Nat) := [[0, 3], [3, 1], [1, 4], [4, 2]]
def X1 : Nat → Nat → ℚ := ofTable [[1, 0, 0], [0, 1, 0], [0, 0, 1], [1/2, 1/2, 0], [0, 1/2, 1/2]]
def cdofs1 : List (List Int) := [[-1, 0], [0, -1]]
def fdofs1 : List (List Int) := [[-1, 1], [1, 0], [0, 2], [2, -1]]

theorem spaces1 : Spaces 1 1 1 3 coarse1 fine1 X1 cdofs1 fdofs1 1 3 where
  supported := by unfold Supported; decide
  refined := ⟨by decide +kernel, by decide +kernel, by decide +kernel⟩
  coarseDofs := ⟨by decide +kernel, by decide +kernel, by decide +kernel⟩
  fineDofs := ⟨by decide +kernel, by decide +kernel, by decide +kernel⟩
  capacity := fun m => by
    have h : ((List.range coarse1.length).filter fun i => (List.range (nodes ℚ 1 1).length).any fun I => (cdofs1.getD i []).getD I 0 == m).length ≤ 2 :=
      (List.length_filter_le _ _).trans (by decide)
    have e : sub 1 1 1 * (nodes ℚ 1 1).length = 4 := by decide +kernel
    rw [e]
    omega

example : BoundaryInherited 1 1 1 (sub 1 1 1) 3 coarse1 fine1 X1 cdofs1 fdofs1 := by unfold BoundaryInherited; decide +kernel

example : (restrictionProlongation (K := ℚ) 1 1 1 2 fine1 cdofs1 fdofs1 1 3 (fun n => List.replicate n 7) (fun n => List.replicate n 8) (fun n => List.replicate n 9)).map
    (fun r => (r.1.indptr, r.1.indices, r.1.data)) = some ([0, 3], [0, 1, 2], [1, 1/2, 1/2]) := by decide +kernel

/-! Two triangles, order two, all nodes with dofs. -/

def coarse2 : List (List Nat) := [[0, 1, 2], [1, 3, 2]]
def fine2 : List (List Nat) := [[0, 4, 6], [1, 5, 4], [2, 6, 5], [4, 5, 6], [1, 7, 5], [3, 8, 7], [2, 5, 8], [7, 8, 5]]
def X2 : Nat → Nat → ℚ := ofTable [[1, 0, 0, 0], [0, 1, 0, 0], [0, 0, 1, 0], [0, 0, 0, 1], [1/2, 1/2, 0, 0], [0, 1/2, 1/2, 0], [1/2, 0, 1/2, 0], [0, 1/2, 0, 1/2], [0, 0, 1/2, 1/2]]

example : Refined 2 (sub 2 2 2) 4 coarse2 fine2 X2 := ⟨by decide +kernel, by decide +kernel, by decide +kernel⟩
example : Numbers 2 2 4 unit coarse2 [[0, 1, 2, 4, 5, 6], [1, 3, 2, 7, 8, 5]] 9 := ⟨by decide +kernel, by decide +kernel, by decide +kernel⟩

/-! A tetrahedron with the second diagonal. -/

def fine3 : List (List Nat) := [[0, 4, 5, 6], [4, 1, 7, 8], [5, 7, 2, 9], [6, 8, 9, 3]] ++ (Refine.children3 1 0 1 2 3 4 5 6 7 8 9).drop 4
def X3 : Nat → Nat → ℚ := ofTable [[1, 0, 0, 0], [0, 1, 0, 0], [0, 0, 1, 0], [0, 0, 0, 1], [1/2, 1/2, 0, 0], [1/2, 0, 1/2, 0], [1/2, 0, 0, 1/2], [0, 1/2, 1/2, 0],
  [0, 1/2, 0, 1/2], [0, 0, 1/2, 1/2]]

example : Refined 3 (sub 1 1 3) 4 [[0, 1, 2, 3]] fine3 X3 := ⟨by decide +kernel, by decide +kernel, by decide +kernel⟩

end

section
/-! Orders 1 and 3 on one interval. -/

theorem spaces13 : Spaces 1 3 1 2 [[0, 1]] [[0, 1]] unit [[0, 1]] [[0, 1, 2, 3]] 2 4 where
  supported := by unfold Supported; decide
  refined := ⟨by decide +kernel, by decide +kernel, by decide +kernel⟩
  coarseDofs := ⟨by decide +kernel, by decide +kernel, by decide +kernel⟩
  fineDofs := ⟨by decide +kernel, by decide +kernel, by decide +kernel⟩
  capacity := fun m => by
    have h : ((List.range [[0, 1]].length).filter fun i => (List.range (nodes ℚ 1 1).length).any fun I => (([[0, 1]] : List (List Int)).getD i []).getD I 0 == m).length ≤ 1 :=
      (List.length_filter_le _ _).trans (by decide)
    have e : sub 1 3 1 * (nodes ℚ 3 1).length = 4 := by decide +kernel
    rw [e]
    omega

/-- With the orders 1 and 3 (and 2 and 3) prolongation changes the function: the tables contain `0.333333333` and `0.666666667`. -/
theorem prolongation_exact_fails : ∃ R P : CSR ℚ,
    restrictionProlongation 1 3 1 1 [[0, 1]] [[0, 1]] [[0, 1, 2, 3]] 2 4 (fun n => List.replicate n 0) (fun n => List.replicate n 0) (fun n => List.replicate n 0) = some (R, P) ∧
      ¬ Exact 1 3 1 2 [[0, 1]] [[0, 1]] unit [[0, 1]] [[0, 1, 2, 3]] P := by
  have h : ∀ RP : CSR ℚ × CSR ℚ, restrictionProlongation 1 3 1 1 [[0, 1]] [[0, 1]] [[0, 1, 2, 3]] 2 4 (fun n => List.replicate n 0) (fun n => List.replicate n 0) (fun n => List.replicate n 0) = some RP →
      RP.2.numRows = 4 ∧ evalFun 3 1 (localValues 3 1 [[0, 1, 2, 3]] (fun j => (matvec false RP.2 [1, 0] [0, 0, 0, 0]).getD j 0) 0) [2/3, 1/3] = (666666667/1000000000 : ℚ) := by
    have e : (restrictionProlongation (K := ℚ) 1 3 1 1 [[0, 1]] [[0, 1]] [[0, 1, 2, 3]] 2 4 (fun n => List.replicate n 0) (fun n => List.replicate n 0) (fun n => List.replicate n 0)).all fun RP =>
      RP.2.numRows == 4 && evalFun 3 1 (localValues 3 1 [[0, 1, 2, 3]] (fun j => (matvec false RP.2 [1, 0] [0, 0, 0, 0]).getD j 0) 0) [2/3, 1/3] == (666666667/1000000000 : ℚ) := by
      decide +kernel
    intro RP hRP
    rw [hRP] at e
    simpa using e
  obtain ⟨R, P, hRP, -⟩ := restriction_values (K := ℚ) spaces13 (fun n => List.replicate n 0) (fun n => List.replicate n 0) (fun n => List.replicate n 0)
    (fun n => List.length_replicate) (fun n => List.length_replicate) (fun n => List.length_replicate)
  refine ⟨R, P, hRP, fun he => ?_⟩
  obtain ⟨h1, h2⟩ := h (R, P) hRP
  have := he [1, 0] [0, 0, 0, 0] h1.symm 0 (by decide) 0 (by decide) [2/3, 1/3] [2/3, 1/3] rfl (by norm_num) rfl (fun v _ => rfl)
  rw [show sub 1 3 1 * 0 + 0 = 0 from rfl, h2] at this
  revert this
  decide +kernel

end

end PyNucleus.Props.C66
