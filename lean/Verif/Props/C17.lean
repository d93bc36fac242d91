import Verif.Proof.Direct3
import Mathlib.Algebra.Field.Rat

/-!
# C17 direct solves

Factors are stored by columns: `C.entry j i` is the matrix entry in row `i` and column `j`.
-/

namespace PyNucleus.Props.C17

open PyNucleus.Loops PyNucleus.Spec PyNucleus.CSR PyNucleus.Direct Finset

variable {K : Type}

/-- A square matrix stored by columns. -/
structure Square (C : CSR K) (n : Nat) : Prop where
  valid : C.Valid
  rows : C.numRows = n
  cols : C.numCols = n

/-- `x` solves `M x = b`. -/
def Solves [Field K] (n : Nat) (M : Nat → Nat → K) (x b : List K) : Prop :=
  x.length = n ∧ ∀ i, i < n → mulVec n M x i = b.getD i 0

/-- `forward_solve_csc` solves `L y = b`. -/
theorem forward_csc [Field K] (C : CSR K) (n : Nat) (hC : Square C n) (hd : DiagFirst C) (unit : Bool)
    (hdiag : ∀ j, j < n → if unit then C.entry j j = 1 else C.entry j j ≠ 0) (b : List K) (hb : b.length = n) :
    Solves n (fun i j => C.entry j i) (forwardCSC C b (List.replicate n 0) unit) b := by
  obtain ⟨h1, h2, h3⟩ := hC
  subst h2
  exact forwardCSC_eq C h1 h3 hd unit hdiag b _ hb (by simp) fun i => by
    rw [List.getD_eq_getElem?_getD, List.getElem?_replicate]; split <;> rfl

/-- `backward_solve_csc` solves `U y = b`. -/
theorem backward_csc [Field K] (C : CSR K) (n : Nat) (hC : Square C n) (hd : DiagLast C)
    (hdiag : ∀ j, j < n → C.entry j j ≠ 0) (b : List K) (hb : b.length = n) :
    Solves n (fun i j => C.entry j i) (backwardCSC C b (List.replicate n 0)) b := by
  obtain ⟨h1, h2, h3⟩ := hC
  subst h2
  exact backwardCSC_eq C h1 hd hdiag b _ hb (by simp) fun i => by
    rw [List.getD_eq_getElem?_getD, List.getElem?_replicate]; split <;> rfl

/-- `backward_solve_csr` in place, on the columns of `L`, solves `L^T x = y`. -/
theorem backward_csr [Field K] (C : CSR K) (n : Nat) (hC : Square C n) (hd : DiagFirst C)
    (hdiag : ∀ j, j < n → C.entry j j ≠ 0) (y : List K) (hy : y.length = n) :
    Solves n C.entry (backwardCSR C y) y := by
  obtain ⟨h1, h2, h3⟩ := hC
  subst h2
  exact backwardCSR_eq C h1 h3 hd hdiag y hy

/-- `solve_LU` with row and column permutations; `u` is uninitialised memory. -/
theorem lu [Field K] (L U : CSR K) (n : Nat) (hL : Square L n) (hU : Square U n) (hLd : DiagFirst L)
    (hUd : DiagLast U) (hL1 : ∀ j, j < n → L.entry j j = 1) (hU1 : ∀ j, j < n → U.entry j j ≠ 0)
    (permR permC : List Nat) (hpr : permR.Perm (List.range n)) (hpc : permC.Perm (List.range n))
    (b u : List K) (hb : b.length = n) (hu : u.length = n) (A : Nat → Nat → K)
    (hA : ∀ i j, i < n → j < n → A i j =
      ∑ m ∈ range n, L.entry m (permR.getD i 0) * U.entry (permC.getD j 0) m) :
    Solves n A (solveLU L U permR permC b u) b := by
  subst hb
  obtain ⟨p1, p2⟩ := scatterPerm_eq permR b u hpr hu
  obtain ⟨y1, y2⟩ := forward_csc L _ hL hLd true (fun j hj => by simpa using hL1 j hj) (scatterPerm permR b u) p1
  obtain ⟨z1, z2⟩ := backward_csc U _ hU hUd hU1 _ y1
  unfold solveLU
  simp only []
  generalize scatterPerm permR b u = t at *
  generalize forwardCSC L t (List.replicate b.length 0) true = y at *
  generalize backwardCSC U y (List.replicate b.length 0) = z at *
  have hx := forRange_set y b.length (le_of_eq y1.symm) fun i _ => z.getD (permC.getD i 0) 0
  generalize (forRange 0 b.length y fun t i => t.set i (z.getD (permC.getD i 0) 0)) = x at *
  refine ⟨by rw [hx.1, y1], fun i hi => ?_⟩
  have hpi := (perm_facts permR _ hpr).2.2 i hi
  rw [← p2 i hi, ← y2 _ hpi]
  unfold mulVec at *
  have e1 : ∀ j ∈ range b.length, A i j * x.getD j 0 =
      ∑ m ∈ range b.length, L.entry m (permR.getD i 0) * (U.entry (permC.getD j 0) m * z.getD (permC.getD j 0) 0) := by
    intro j hj
    rw [hx.2 j, if_pos (mem_range.1 hj), hA i j hi (mem_range.1 hj), sum_mul]
    exact sum_congr rfl fun m _ => by rw [mul_assoc]
  rw [sum_congr rfl e1, sum_comm]
  apply sum_congr rfl
  intro m hm
  rw [← mul_sum, perm_sum permC b.length hpc (fun c => U.entry c m * z.getD c 0), z2 m (mem_range.1 hm)]

/-- `solve_cholesky` for `A = L L^T`. -/
theorem cholesky [Field K] (L : CSR K) (n : Nat) (hL : Square L n) (hLd : DiagFirst L)
    (hdiag : ∀ j, j < n → L.entry j j ≠ 0) (b : List K) (hb : b.length = n) :
    Solves n (fun i j => ∑ m ∈ range n, L.entry m i * L.entry m j) (solveCholesky L b) b := by
  subst hb
  obtain ⟨y1, y2⟩ := forward_csc L _ hL hLd false (fun j hj => by simpa using hdiag j hj) b rfl
  obtain ⟨z1, z2⟩ := backward_csr L _ hL hLd hdiag _ y1
  unfold solveCholesky
  simp only []
  generalize forwardCSC L b (List.replicate b.length 0) false = y at *
  generalize backwardCSR L y = x at *
  refine ⟨z1, fun i hi => ?_⟩
  rw [← y2 i hi]
  unfold mulVec at *
  simp only [sum_mul]
  rw [sum_comm]
  apply sum_congr rfl
  intro m hm
  rw [← z2 m (mem_range.1 hm), mul_sum]
  exact sum_congr rfl fun j _ => by rw [mul_assoc]

/-- Strictly lower part plus diagonal. -/
def withDiag [Field K] (C : CSR K) (diag : Nat → K) (i j : Nat) : K :=
  if i = j then diag i else C.entry j i

private theorem mulVec_withDiag [Field K] (C : CSR K) (n : Nat) (hC : Square C n) (hs : StrictlyBelow C) (diag : Nat → K)
    (y : List K) (i : Nat) (hi : i < n) :
    mulVec n (withDiag C diag) y i = diag i * y.getD i 0 + ∑ j ∈ range n, C.entry j i * y.getD j 0 ∧
    mulVec n (fun i j => withDiag C diag j i) y i = diag i * y.getD i 0 + ∑ j ∈ range n, C.entry i j * y.getD j 0 := by
  have h0 := entry_strict C hs i i (by rw [hC.rows]; exact hi) (le_refl _)
  unfold mulVec withDiag
  constructor
  all_goals
    beta_reduce
    rw [← Finset.sum_ite_eq' (range n) i (fun j => diag j * y.getD j 0) |>.trans
      (if_pos (mem_range.2 hi)), ← sum_add_distrib]
    apply sum_congr rfl
    intro j _
    by_cases h : i = j
    · subst h; rw [if_pos rfl, if_pos rfl, h0, zero_mul, add_zero]
  · rw [if_neg h, if_neg (fun e => h e.symm), zero_add]
  · rw [if_neg (fun e => h e.symm), if_neg (fun e => h e.symm), zero_add]

/-- `forward_solve_sss`. -/
theorem forward_sss [Field K] (C : CSR K) (n : Nat) (hC : Square C n) (hs : StrictlyBelow C)
    (diag b : List K) (hb : b.length = n) (unit : Bool) (hdiag : unit = false → ∀ i, i < n → diag.getD i 0 ≠ 0) :
    Solves n (withDiag C fun i => if unit then 1 else diag.getD i 0)
      (forwardSSS C diag b (List.replicate n 0) unit) b := by
  have hh := hC
  obtain ⟨h1, h2, h3⟩ := hh
  subst h2
  obtain ⟨g1, g2⟩ := forwardSSS_eq C h1 h3 hs diag b (List.replicate C.numRows 0) unit hb (by simp) (fun i => by
    rw [List.getD_eq_getElem?_getD, List.getElem?_replicate]; split <;> rfl) hdiag
  exact ⟨g1, fun i hi => by rw [(mulVec_withDiag C _ hC hs _ _ i hi).1]; exact g2 i hi⟩

/-- `backward_solve_sss`; `y0` is the old content of the result. -/
theorem backward_sss [Field K] (C : CSR K) (n : Nat) (hC : Square C n) (hs : StrictlyBelow C)
    (diag b y0 : List K) (hb : b.length = n) (hy : y0.length = n) (hdiag : ∀ i, i < n → diag.getD i 0 ≠ 0) :
    Solves n (fun i j => withDiag C (fun i => diag.getD i 0) j i) (backwardSSS C diag b y0) b := by
  have hh := hC
  obtain ⟨h1, h2, h3⟩ := hh
  subst h2
  obtain ⟨g1, g2⟩ := backwardSSS_eq C h1 h3 hs diag b y0 hb hy hdiag
  exact ⟨g1, fun i hi => by rw [(mulVec_withDiag C _ hC hs _ _ i hi).2]; exact g2 i hi⟩

/-- The solve of `ichol_solver` for `A = L L^T`, `L` given by its strictly lower columns and the
inverse of its diagonal; `x` is the old content of the result. -/
theorem ichol_solve [Field K] (C : CSR K) (n : Nat) (hC : Square C n) (hs : StrictlyBelow C)
    (invDiag b x : List K) (hb : b.length = n) (hx : x.length = n) (hdiag : ∀ i, i < n → invDiag.getD i 0 ≠ 0) :
    Solves n (fun i j => ∑ m ∈ range n, withDiag C (fun i => (invDiag.getD i 0)⁻¹) i m *
        withDiag C (fun i => (invDiag.getD i 0)⁻¹) j m)
      (icholSolve C invDiag b x) b := by
  have hh := hC
  obtain ⟨h1, h2, h3⟩ := hh
  subst h2
  obtain ⟨y1, y2⟩ := forwardSSSInv_eq C h1 h3 hs invDiag b (List.replicate C.numRows 0) false hb (by simp) (fun i => by
    rw [List.getD_eq_getElem?_getD, List.getElem?_replicate]; split <;> rfl) (fun _ => hdiag)
  obtain ⟨z1, z2⟩ := backwardSSSInv_eq C h1 h3 hs invDiag _ x y1 hx hdiag
  unfold icholSolve
  rw [hb]
  simp only [Bool.false_eq_true, if_false] at y2 ⊢
  generalize forwardSSSInv C invDiag b (List.replicate C.numRows 0) false = y at *
  generalize backwardSSSInv C invDiag y x = x' at *
  refine ⟨z1, fun i hi => ?_⟩
  rw [← y2 i hi, ← (mulVec_withDiag C _ hC hs (fun i => (invDiag.getD i 0)⁻¹) _ i hi).1]
  unfold mulVec
  simp only [sum_mul]
  rw [sum_comm]
  apply sum_congr rfl
  intro m hm
  rw [← z2 m (mem_range.1 hm), ← (mulVec_withDiag C _ hC hs (fun i => (invDiag.getD i 0)⁻¹) _ m (mem_range.1 hm)).2]
  unfold mulVec
  rw [mul_sum]
  exact sum_congr rfl fun j _ => by rw [mul_assoc]

/-- The packed Cholesky solve on the factor packed by `setup`; `u`, `temp` and `x` hold arbitrary
values. -/
theorem cholesky_packed [Field K] (L : Nat → Nat → K) (n : Nat) (hlow : ∀ i j, i < j → L i j = 0)
    (hdiag : ∀ i, i < n → L i i ≠ 0) (u b temp x : List K) (hu : u.length = n * (n + 1) / 2)
    (ht : temp.length = n) (hx : x.length = n) :
    Solves n (fun i j => ∑ m ∈ range n, L i m * L j m) (cholPacked (packLower L n u) b temp x) b := by
  obtain ⟨_, p2⟩ := packLower_eq L n u (le_of_eq hu.symm)
  have hd : ∀ i, i < n → (packLower L n u).getD (i * (i + 1) / 2 + i) 0 ≠ 0 := fun i hi => by
    rw [p2 i i hi (le_refl _)]; exact hdiag i hi
  obtain ⟨y1, y2⟩ := packedForward_eq (packLower L n u) b temp n ht hd
  obtain ⟨z1, z2⟩ := packedBackward_eq (packLower L n u) (packedForward (packLower L n u) b temp n).2 x n hx hd
  unfold cholPacked
  rw [hx]
  simp only []
  generalize (packedForward (packLower L n u) b temp n).2 = y at *
  generalize packedBackward (packLower L n u) y x n = x' at *
  have y3 : ∀ i, i < n → ∑ m ∈ range n, L i m * y.getD m 0 = b.getD i 0 := by
    intro i hi
    rw [← y2 i hi]
    have hsub : range (i + 1) ⊆ range n := fun a ha => mem_range.2 (by have := mem_range.1 ha; omega)
    rw [← sum_subset hsub]
    · exact sum_congr rfl fun m hm => by rw [p2 i m hi (by have := mem_range.1 hm; omega)]
    · intro m _ hm
      rw [hlow i m (by have := mt mem_range.2 hm; omega), zero_mul]
  have z3 : ∀ m, m < n → ∑ j ∈ range n, L j m * x'.getD j 0 = y.getD m 0 := by
    intro m hm
    rw [← z2 m hm]
    have hsub : Ico m n ⊆ range n := fun a ha => mem_range.2 (mem_Ico.1 ha).2
    rw [← sum_subset hsub]
    · exact sum_congr rfl fun j hj => by rw [p2 j m (mem_Ico.1 hj).2 (mem_Ico.1 hj).1]
    · intro j hj1 hj2
      rw [hlow j m (by
        by_contra hc
        exact hj2 (mem_Ico.2 ⟨by omega, mem_range.1 hj1⟩)), zero_mul]
  refine ⟨z1, fun i hi => ?_⟩
  rw [← y3 i hi]
  unfold mulVec
  simp only [sum_mul]
  rw [sum_comm]
  apply sum_congr rfl
  intro m hm
  rw [← z3 m (mem_range.1 hm), mul_sum]
  exact sum_congr rfl fun j _ => by rw [mul_assoc]

/-! ### concrete cases -/

/-- `[[1,0],[3,1]]` by columns. -/
def exL : CSR ℚ := ⟨[0, 2, 3], [0, 1, 1], [1, 3, 1], 2, 2⟩
/-- `[[2,5],[0,4]]` by columns. -/
def exU : CSR ℚ := ⟨[0, 1, 3], [0, 0, 1], [2, 5, 4], 2, 2⟩
/-- `[[2,0],[1,3]]` by columns. -/
def exC : CSR ℚ := ⟨[0, 2, 3], [0, 1, 1], [2, 1, 3], 2, 2⟩
/-- Strictly lower `[[0,0],[1,0]]` by columns. -/
def exS : CSR ℚ := ⟨[0, 1, 1], [1], [1], 2, 2⟩

private theorem forall_lt_two {P : Nat → Prop} (h0 : P 0) (h1 : P 1) : ∀ j, j < 2 → P j := by
  intro j hj
  rcases j with _ | _ | j
  · exact h0
  · exact h1
  · omega

example : Square exL 2 ∧ DiagFirst exL ∧ (∀ j, j < 2 → exL.entry j j = 1) :=
  ⟨⟨⟨⟨rfl, rfl, rfl, by decide⟩, rfl, by decide⟩, rfl, rfl⟩,
    forall_lt_two ⟨1, [(1, 3)], rfl, by decide⟩ ⟨1, [], rfl, by decide⟩,
    forall_lt_two (by decide +kernel) (by decide +kernel)⟩

example : Square exU 2 ∧ DiagLast exU ∧ (∀ j, j < 2 → exU.entry j j ≠ 0) :=
  ⟨⟨⟨⟨rfl, rfl, rfl, by decide⟩, rfl, by decide⟩, rfl, rfl⟩,
    forall_lt_two ⟨2, [], rfl, by decide⟩ ⟨4, [(0, 5)], rfl, by decide⟩,
    forall_lt_two (by decide +kernel) (by decide +kernel)⟩

/-- Rows swapped, columns kept: `A = [[6, 19], [2, 5]]`. -/
example : solveLU exL exU [1, 0] [0, 1] [25, 7] [9, 9] = [1, 1] := by decide +kernel
/-- Rows kept, columns swapped: `A = [[5, 2], [19, 6]]`. -/
example : solveLU exL exU [0, 1] [1, 0] [9, 31] [9, 9] = [1, 2] := by decide +kernel

example : [1, 0].Perm (List.range 2) := by decide

/-- `A = [[4,2],[2,10]]`. -/
example : solveCholesky exC [8, 22] = [1, 2] := by decide +kernel
example : Square exC 2 ∧ DiagFirst exC ∧ (∀ j, j < 2 → exC.entry j j ≠ 0) :=
  ⟨⟨⟨⟨rfl, rfl, rfl, by decide⟩, rfl, by decide⟩, rfl, rfl⟩,
    forall_lt_two ⟨2, [(1, 1)], rfl, by decide⟩ ⟨3, [], rfl, by decide⟩,
    forall_lt_two (by decide +kernel) (by decide +kernel)⟩

example : Square exS 2 ∧ StrictlyBelow exS :=
  ⟨⟨⟨⟨rfl, rfl, rfl, by decide⟩, rfl, by decide⟩, rfl, rfl⟩,
    forall_lt_two (by decide) (by decide)⟩
example : icholSolve exS [1/2, 1/3] [8, 22] [7, 7] = [1, 2] := by decide +kernel
example : backwardSSS exS [2, 3] [4, 6] [7, 7] = [1, 2] := by decide +kernel
example : forwardSSS exS [2, 3] [4, 5] [0, 0] false = [2, 1] := by decide +kernel

example : cholPacked (packLower (fun i j => (([[1, 0], [2, 3]] : List (List ℚ)).getD i []).getD j 0) 2 [7, 7, 7])
    [5, 28] [9, 9] [9, 9] = [1, 2] := by decide +kernel

end PyNucleus.Props.C17
