import Verif.Proof.NonlocalSparse
import Mathlib.Algebra.Ring.Int.Defs
import Mathlib.Data.Nat.Init

/-!
# C70: assembly of nonlocal operators

Full statement: entry `(I, J)` of the assembled matrix is the sum over all ordered pairs of cells, and over all pairs of local dofs with the global
numbers `I` and `J`, of the entries of the local matrices, plus the contributions of the cells with the exterior; ranks share the work; sparse
matrices with the assembled pattern contain the same entries; masks select entries of the local matrices; and `getEntry` computes the
same entry.

The last part is false for variable kernels (`entry_variable_fails`), where pairs are counted once or not at all, and for local matrices that are
not symmetric in the cells (`entry_unsymmetric_fails`), since the second `swapCells` is missing.
-/

namespace PyNucleus.Props.C70

open PyNucleus.NonlocalAssembly PyNucleus.Spec
open PyNucleus.Simplex (upper)

variable {K σ : Type}

/-- Contribution of the pair `c` of cells to the entry `(I, J)`; the local dofs of a pair are those of the first and of the second cell. -/
def pair [AddCommMonoid K] (n : Nat) (cell2dof : Nat → List Int) (value : Nat × Nat → Nat → Nat → K) (c : Nat × Nat) (I J : Nat) : K :=
  ∑ p ∈ Finset.range (2 * n), ∑ q ∈ Finset.range (2 * n), if (cell2dof c.1 ++ cell2dof c.2).getD p 0 = I ∧ (cell2dof c.1 ++ cell2dof c.2).getD q 0 = J then value c p q else 0

/-- Contribution of a cell and a cell of the surface. -/
def ext [AddCommMonoid K] (n : Nat) (cell2dof : Nat → List Int) (valueExt : Nat × Nat → Nat → Nat → K) (c : Nat × Nat) (I J : Nat) : K :=
  ∑ p ∈ Finset.range n, ∑ q ∈ Finset.range n, if (cell2dof c.1).getD p 0 = I ∧ (cell2dof c.1).getD q 0 = J then valueExt c p q else 0

/-- The entry of the bilinear form. -/
def form [AddCommMonoid K] (zeroExterior : Bool) (n : Nat) (cell2dof : Nat → List Int) (nc ns : Nat) (value valueExt : Nat × Nat → Nat → Nat → K) (I J : Nat) : K :=
  (∑ c1 ∈ Finset.range nc, ∑ c2 ∈ Finset.range nc, pair n cell2dof value (c1, c2) I J) +
    if zeroExterior then ∑ c1 ∈ Finset.range nc, ∑ c2 ∈ Finset.range ns, ext n cell2dof valueExt (c1, c2) I J else 0

/-- `eval` writes the local matrices `value`, row by row, or only the upper triangle.  Ignored pairs have no contribution.  In the case of symmetric cells the
local matrix of the reversed pair is the same matrix with exchanged cells, and only pairs in increasing order are evaluated. -/
structure Exact [Zero K] (symCells symLocal : Bool) (n : Nat) (cell2dof : Nat → List Int) (nc : Nat) (ignored : Nat × Nat → Bool) (eval : Nat × Nat → List K)
    (value : Nat × Nat → Nat → Nat → K) : Prop where
  rows : ∀ c, c < nc → (cell2dof c).length = n
  eval : ∀ c1 c2, c1 < nc → c2 < nc → (symCells = true → c1 ≤ c2) → ignored (c1, c2) = false →
    eval (c1, c2) = if symLocal then (upper (2 * n)).map fun q => value (c1, c2) q.1 q.2 else (List.range (2 * n)).flatMap fun p => (List.range (2 * n)).map fun q => value (c1, c2) p q
  symmetric : symLocal = true → ∀ c p q, p < 2 * n → q < 2 * n → value c p q = value c q p
  ignored : ∀ c1 c2, c1 < nc → c2 < nc → (symCells = true → c1 ≤ c2) → ignored (c1, c2) = true → ∀ p q, p < 2 * n → q < 2 * n → value (c1, c2) p q = 0
  mirror : symCells = true → ∀ c1 c2, c1 < nc → c2 < nc → ∀ p q, p < n → q < n →
    value (c2, c1) p q = value (c1, c2) (n + p) (n + q) ∧ value (c2, c1) p (n + q) = value (c1, c2) (n + p) q ∧
    value (c2, c1) (n + p) q = value (c1, c2) p (n + q) ∧ value (c2, c1) (n + p) (n + q) = value (c1, c2) p q

/-- The same for the exterior. -/
def ExactExt (n nc ns : Nat) (evalExt : Nat × Nat → List K) (valueExt : Nat × Nat → Nat → Nat → K) : Prop :=
  (∀ c p q, p < n → q < n → valueExt c p q = valueExt c q p) ∧ ∀ c1 c2, c1 < nc → c2 < ns → evalExt (c1, c2) = (upper n).map fun q => valueExt (c1, c2) q.1 q.2

private theorem mirror_half {symCells symLocal : Bool} [Zero K] {n : Nat} {cell2dof : Nat → List Int} {nc : Nat} {ignored : Nat × Nat → Bool} {eval : Nat × Nat → List K}
    {value : Nat × Nat → Nat → Nat → K} (h : Exact symCells symLocal n cell2dof nc ignored eval value) (hs : symCells = true) (c1 c2 : Nat) (h1 : c1 < nc) (h2 : c2 < nc) (p q : Nat)
    (hp : p < 2 * n) (hq : q < 2 * n) : value (c2, c1) (half n p) (half n q) = value (c1, c2) p q := by
  unfold half
  split <;> split
  · exact (h.mirror hs c1 c2 h1 h2 p q (by omega) (by omega)).2.2.2
  · have := (h.mirror hs c1 c2 h1 h2 p (q - n) (by omega) (by omega)).2.2.1
    rwa [show n + (q - n) = q by omega] at this
  · have := (h.mirror hs c1 c2 h1 h2 (p - n) q (by omega) (by omega)).2.1
    rwa [show n + (p - n) = p by omega] at this
  · have := (h.mirror hs c1 c2 h1 h2 (p - n) (q - n) (by omega) (by omega)).1
    rwa [show n + (p - n) = p by omega, show n + (q - n) = q by omega] at this

private theorem contrib_all [Semiring K] {symCells symLocal : Bool} {n : Nat} {cell2dof : Nat → List Int} {nc : Nat} {ignored : Nat × Nat → Bool} {eval : Nat × Nat → List K}
    {value : Nat × Nat → Nat → Nat → K} (h : Exact symCells symLocal n cell2dof nc ignored eval value) (zeroExterior : Bool) (ns : Nat) (valueExt : Nat × Nat → Nat → Nat → K)
    (hx : ∀ c p q, p < n → q < n → valueExt c p q = valueExt c q p) (start stop : Nat) (hle : start ≤ stop) (hstop : stop ≤ nc) (I J : Nat) :
    SSS.contrib (allItems symCells symLocal zeroExterior n cell2dof nc ns start stop ignored value valueExt) I J =
      (∑ c1 ∈ Finset.Ico start stop, ∑ c2 ∈ Finset.Ico c1 nc, if c1 = c2 then pair n cell2dof value (c1, c2) I J else pair n cell2dof value (c1, c2) I J + pair n cell2dof value (c2, c1) I J) +
        if zeroExterior then ∑ c1 ∈ Finset.Ico start stop, ∑ c2 ∈ Finset.range ns, ext n cell2dof valueExt (c1, c2) I J else 0 := by
  unfold allItems visits
  rw [SSS.contrib_append, List.flatMap_assoc, Galerkin.contrib_flatMap', range'_sum, Nat.add_sub_cancel' hle]
  congr 1
  · refine Finset.sum_congr rfl fun c1 hc1 => ?_
    rw [Finset.mem_Ico] at hc1
    rw [List.flatMap_assoc, Galerkin.contrib_flatMap', range'_sum, Nat.add_sub_cancel' (by omega)]
    refine Finset.sum_congr rfl fun c2 hc2 => ?_
    rw [Finset.mem_Ico] at hc2
    exact contrib_visitsAt symCells symLocal n cell2dof ignored value c1 c2 h.symmetric (h.rows c1 (by omega)) (h.rows c2 hc2.2)
      (fun hs => mirror_half h hs c1 c2 (by omega) hc2.2) (h.ignored c1 c2 (by omega) hc2.2 fun _ => hc2.1)
      (fun hs => h.ignored c2 c1 hc2.2 (by omega) fun e => by rw [hs] at e; cases e) I J
  · cases zeroExterior
    · rfl
    · exact contrib_ext n cell2dof ns start stop valueExt hx hle I J

private theorem assemble_items [Semiring K] {symCells symLocal : Bool} {n : Nat} {cell2dof : Nat → List Int} {nc : Nat} {ignored : Nat × Nat → Bool} {eval : Nat × Nat → List K}
    {value : Nat × Nat → Nat → Nat → K} (h : Exact symCells symLocal n cell2dof nc ignored eval value) (zeroExterior : Bool) (ns : Nat) (evalExt : Nat × Nat → List K)
    (valueExt : Nat × Nat → Nat → Nat → K) (hx : zeroExterior = true → ExactExt n nc ns evalExt valueExt) (start stop : Nat) (hstop : stop ≤ nc) (add : σ → Nat → Nat → K → σ) (A : σ) :
    assemble add symCells symLocal zeroExterior n cell2dof nc ns start stop ignored eval evalExt A =
      (allItems symCells symLocal zeroExterior n cell2dof nc ns start stop ignored value valueExt).foldl (fun A e => add A e.1 e.2.1 e.2.2) A :=
  assemble_eq add symCells symLocal zeroExterior n cell2dof nc ns start stop hstop ignored eval evalExt value valueExt (fun c h1 h2 h3 h4 => h.eval c.1 c.2 h1 h2 h3 h4)
    (fun hz c h1 h2 => (hx hz).2 c.1 c.2 h1 h2) A

/-- The dense matrix contains the bilinear form. -/
theorem dense [Semiring K] (symCells symLocal zeroExterior : Bool) (n : Nat) (cell2dof : Nat → List Int) (nc ns : Nat) (ignored : Nat × Nat → Bool) (eval evalExt : Nat × Nat → List K)
    (value valueExt : Nat × Nat → Nat → Nat → K) (h : Exact symCells symLocal n cell2dof nc ignored eval value) (hx : ExactExt n nc ns evalExt valueExt) (I J : Nat) :
    assemble denseAdd symCells symLocal zeroExterior n cell2dof nc ns 0 nc ignored eval evalExt (fun _ _ => 0) I J = form zeroExterior n cell2dof nc ns value valueExt I J := by
  rw [assemble_items h zeroExterior ns evalExt valueExt (fun _ => hx) 0 nc le_rfl, denseAdd_foldl, zero_add, contrib_all h zeroExterior ns valueExt hx.1 0 nc (Nat.zero_le _) le_rfl]
  unfold form
  rw [triangle_sum nc fun c1 c2 => pair n cell2dof value (c1, c2) I J, Finset.range_eq_Ico]

private theorem rank_mono (nc size r : Nat) (hs : 0 < size) : rankStart nc size r ≤ rankStart nc size (r + 1) := by
  unfold rankStart
  refine Nat.div_le_div_right ?_
  have : nc * r ≤ nc * (r + 1) := Nat.mul_le_mul_left _ (by omega)
  omega

private theorem rank_last (nc size : Nat) (hs : 0 < size) : rankStart nc size size = nc := by
  unfold rankStart
  rw [Nat.add_sub_assoc (by omega), Nat.mul_comm, Nat.mul_add_div hs, Nat.div_eq_of_lt (by omega), Nat.add_zero]

private theorem rank_le (nc size r : Nat) (hs : 0 < size) (hr : r ≤ size) : rankStart nc size r ≤ nc := by
  conv => rhs; rw [← rank_last nc size hs]
  unfold rankStart
  refine Nat.div_le_div_right ?_
  have : nc * r ≤ nc * size := Nat.mul_le_mul_left _ hr
  omega

private theorem rank_sum [AddCommMonoid K] (nc size : Nat) (hs : 0 < size) (f : Nat → K) : ∑ r ∈ Finset.range size, ∑ c ∈ Finset.Ico (rankStart nc size r) (rankStart nc size (r + 1)), f c = ∑ c ∈ Finset.range nc, f c := by
  have H : ∀ m, ∑ r ∈ Finset.range m, ∑ c ∈ Finset.Ico (rankStart nc size r) (rankStart nc size (r + 1)), f c = ∑ c ∈ Finset.Ico (rankStart nc size 0) (rankStart nc size m), f c := by
    intro m
    induction m with
    | zero => simp
    | succ m ih =>
      have hm : rankStart nc size 0 ≤ rankStart nc size m := by
        clear ih
        induction m with
        | zero => exact le_rfl
        | succ m ih => exact ih.trans (rank_mono nc size m hs)
      rw [Finset.sum_range_succ, ih, Finset.sum_Ico_consecutive _ hm (rank_mono nc size m hs)]
  rw [H, rank_last nc size hs, show rankStart nc size 0 = 0 from by unfold rankStart; rw [Nat.mul_zero, Nat.zero_add]; exact Nat.div_eq_of_lt (by omega), Finset.range_eq_Ico]

/-- The sum over all ranks. -/
theorem ranks [Semiring K] (symCells symLocal zeroExterior : Bool) (n : Nat) (cell2dof : Nat → List Int) (nc ns size : Nat) (hsize : 0 < size) (ignored : Nat × Nat → Bool)
    (eval evalExt : Nat × Nat → List K) (value valueExt : Nat × Nat → Nat → Nat → K) (h : Exact symCells symLocal n cell2dof nc ignored eval value) (hx : ExactExt n nc ns evalExt valueExt) (I J : Nat) :
    ∑ rank ∈ Finset.range size, assemble denseAdd symCells symLocal zeroExterior n cell2dof nc ns (rankStart nc size rank) (rankStart nc size (rank + 1)) ignored eval evalExt (fun _ _ => 0) I J =
      form zeroExterior n cell2dof nc ns value valueExt I J := by
  rw [← dense symCells symLocal zeroExterior n cell2dof nc ns ignored eval evalExt value valueExt h hx I J, assemble_items h zeroExterior ns evalExt valueExt (fun _ => hx) 0 nc le_rfl, denseAdd_foldl, zero_add,
    contrib_all h zeroExterior ns valueExt hx.1 0 nc (Nat.zero_le _) le_rfl]
  have e : ∀ r ∈ Finset.range size, assemble denseAdd symCells symLocal zeroExterior n cell2dof nc ns (rankStart nc size r) (rankStart nc size (r + 1)) ignored eval evalExt (fun _ _ => 0) I J = _ :=
    fun r hr => by
      have hr := Finset.mem_range.1 hr
      rw [assemble_items h zeroExterior ns evalExt valueExt (fun _ => hx) _ _ (rank_le nc size (r + 1) hsize (by omega)), denseAdd_foldl, zero_add,
        contrib_all h zeroExterior ns valueExt hx.1 _ _ (rank_mono nc size r hsize) (rank_le nc size (r + 1) hsize (by omega))]
  rw [Finset.sum_congr rfl e, Finset.sum_add_distrib, rank_sum nc size hsize, Finset.range_eq_Ico]
  congr 1
  cases zeroExterior
  · exact Finset.sum_const_zero
  · simp only [if_true]
    rw [← Finset.range_eq_Ico, rank_sum nc size hsize]

/-- Pairs given to the sparsity pattern. -/
def pattern (symCells symLocal : Bool) (n : Nat) (cell2dof : Nat → List Int) (nc : Nat) (ignored : Nat × Nat → Bool) : List (Nat × Nat) :=
  sweep symCells cell2dof nc 0 nc ignored (sparsityPair (fun l I J => l ++ [(I, J)]) symLocal n cell2dof) []

private theorem foldl_snoc (l : List (Nat × Nat × K)) : ∀ acc : List (Nat × Nat), l.foldl (fun l e => l ++ [(e.1, e.2.1)]) acc = acc ++ l.map fun e => (e.1, e.2.1) := by
  induction l with
  | nil => intro acc; simp
  | cons a t ih => intro acc; rw [List.foldl_cons, ih]; simp

private theorem pattern_eq [Semiring K] (symCells symLocal : Bool) (n : Nat) (cell2dof : Nat → List Int) (nc ns : Nat) (ignored : Nat × Nat → Bool) (value valueExt : Nat × Nat → Nat → Nat → K) :
    pattern symCells symLocal n cell2dof nc ignored = (allItems symCells symLocal false n cell2dof nc ns 0 nc ignored value valueExt).map fun e => (e.1, e.2.1) := by
  unfold pattern allItems
  rw [sparsity_eq _ symCells symLocal n cell2dof nc 0 nc ignored value, foldl_snoc]
  simp

private theorem mem_getD {n numDofs : Nat} {dofs : List Int} (h : ∀ d ∈ dofs, d < numDofs) (hl : dofs.length = n) (p : Nat) (hp : p < n) : dofs.getD p 0 < numDofs := by
  rw [List.getD_eq_getElem _ _ (by omega)]
  exact h _ (List.getElem_mem _)

private theorem items_lt [Semiring K] (symLocal : Bool) (n numDofs : Nat) (cell2dof : Nat → List Int) (value : Nat × Nat → Nat → Nat → K) (v : (Nat × Nat) × Bool) (hl : (pairDofs cell2dof v.1).length = 2 * n)
    (h : ∀ d ∈ pairDofs cell2dof v.1, d < numDofs) : ∀ e ∈ pairItems symLocal n cell2dof value v, e.1 < numDofs ∧ e.2.1 < numDofs := by
  intro e he
  unfold pairItems at he
  have hd := fun p hp => mem_getD h hl p hp
  split at he
  · unfold symItems at he
    obtain ⟨q, hq, he⟩ := List.mem_flatMap.1 he
    have hq := (PyNucleus.Simplex.mem_upper _ q).1 hq
    have h1 := hd q.1 (by omega)
    have h2 := hd q.2 (by omega)
    split at he
    · cases he
    · split at he
      · rw [List.mem_singleton] at he; subst he; dsimp only; omega
      · simp only [List.mem_cons, List.not_mem_nil, or_false] at he
        rcases he with rfl | rfl <;> dsimp only <;> omega
  · unfold Assembly.rectItems at he
    obtain ⟨q, hq, he⟩ := List.mem_flatMap.1 he
    obtain ⟨a, ha, hq⟩ := List.mem_flatMap.1 hq
    obtain ⟨b, hb, rfl⟩ := List.mem_map.1 hq
    have h1 := hd a (List.mem_range.1 ha)
    have h2 := hd b (List.mem_range.1 hb)
    dsimp only at he
    split at he
    · cases he
    · rw [List.mem_singleton] at he; subst he; dsimp only; omega

private theorem all_lt [Semiring K] {symCells symLocal : Bool} {n : Nat} {cell2dof : Nat → List Int} {nc : Nat} {ignored : Nat × Nat → Bool} {eval : Nat × Nat → List K}
    {value : Nat × Nat → Nat → Nat → K} (h : Exact symCells symLocal n cell2dof nc ignored eval value) (numDofs ns : Nat) (hd : ∀ c, c < nc → ∀ d ∈ cell2dof c, d < numDofs)
    (valueExt : Nat × Nat → Nat → Nat → K) : ∀ e ∈ allItems symCells symLocal false n cell2dof nc ns 0 nc ignored value valueExt, e.1 < numDofs ∧ e.2.1 < numDofs := by
  intro e he
  unfold allItems at he
  rw [if_neg (by simp), List.append_nil] at he
  obtain ⟨v, hv, he⟩ := List.mem_flatMap.1 he
  obtain ⟨-, h1, h2, -⟩ := mem_visits le_rfl hv
  refine items_lt symLocal n numDofs cell2dof value v ?_ (fun d hdm => ?_) e he
  · unfold pairDofs; rw [List.length_append, h.rows _ h1, h.rows _ h2]; omega
  · unfold pairDofs at hdm
    rcases List.mem_append.1 hdm with hm | hm
    · exact hd _ h1 d hm
    · exact hd _ h2 d hm

/-- A zero CSR matrix that stores all pairs of the pattern becomes the bilinear form. -/
theorem csr [Semiring K] (symCells symLocal : Bool) (n : Nat) (cell2dof : Nat → List Int) (nc : Nat) (ignored : Nat × Nat → Bool) (eval : Nat × Nat → List K) (value : Nat × Nat → Nat → Nat → K)
    (h : Exact symCells symLocal n cell2dof nc ignored eval value) (A : CSR K) (hA : A.Valid) (hs : A.Sorted) (hz : ∀ I J, I < A.numRows → A.entry I J = 0)
    (hd : ∀ c, c < nc → ∀ d ∈ cell2dof c, d < A.numRows) (hp : ∀ q ∈ pattern symCells symLocal n cell2dof nc ignored, q.2 ∈ (A.row q.1).map Prod.fst) (I J : Nat) (hI : I < A.numRows) :
    (assemble CSR.addToEntry symCells symLocal false n cell2dof nc 0 0 nc ignored eval (fun _ => []) A).entry I J = form false n cell2dof nc 0 value (fun _ _ _ => 0) I J := by
  have hx : ExactExt n nc 0 (fun _ => ([] : List K)) (fun _ _ _ => 0) := ⟨fun _ _ _ _ _ => rfl, fun _ _ _ h => absurd h (by omega)⟩
  rw [← dense symCells symLocal false n cell2dof nc 0 ignored eval (fun _ => []) value (fun _ _ _ => 0) h hx, assemble_items h false 0 (fun _ => []) (fun _ _ _ => 0) (fun _ => hx) 0 nc le_rfl,
    assemble_items h false 0 (fun _ => []) (fun _ _ _ => 0) (fun _ => hx) 0 nc le_rfl, denseAdd_foldl, zero_add]
  obtain ⟨-, -, -, -, -, -, h7⟩ := Galerkin.csr_adds _ A hA hs (fun e he => (all_lt h A.numRows 0 hd (fun _ _ _ => (0 : K)) e he).1)
  by_cases hst : CSR.Stored A I J
  · rw [(h7 I J hI).1 hst, hz I J hI, zero_add]
  · rw [(h7 I J hI).2 hst, hz I J hI, contrib_zero]
    rintro e he ⟨rfl, rfl⟩
    refine hst (hp (e.1, e.2.1) ?_)
    rw [pattern_eq symCells symLocal n cell2dof nc 0 ignored value fun _ _ _ => 0]
    exact List.mem_map.2 ⟨e, he, rfl⟩

/-- The symmetric matrix of the code, whose index arrays contain the whole pattern: the diagonal and the entries below it are those of the bilinear form, all other stored
entries are zero. -/
theorem sss [Semiring K] (symCells : Bool) (n : Nat) (cell2dof : Nat → List Int) (nc : Nat) (ignored : Nat × Nat → Bool) (eval : Nat × Nat → List K) (value : Nat × Nat → Nat → Nat → K)
    (h : Exact symCells true n cell2dof nc ignored eval value) (S : SSS K) (hA : S.lower.Valid) (hs : S.lower.Sorted) (hn : S.diagonal.length = S.n) (hz : ∀ I J, I < S.n → S.lower.entry I J = 0)
    (hz2 : ∀ I, I < S.n → S.diagonal.getD I 0 = 0) (hd : ∀ c, c < nc → ∀ d ∈ cell2dof c, d < S.n)
    (hp : ∀ q ∈ pattern symCells true n cell2dof nc ignored, q.2 ∈ (S.lower.row q.1).map Prod.fst) (I J : Nat) (hI : I < S.n) :
    (assemble SSS.addToEntry symCells true false n cell2dof nc 0 0 nc ignored eval (fun _ => []) S).diagonal.getD I 0 = form false n cell2dof nc 0 value (fun _ _ _ => 0) I I ∧
    (assemble SSS.addToEntry symCells true false n cell2dof nc 0 0 nc ignored eval (fun _ => []) S).lower.entry I J = if J < I then form false n cell2dof nc 0 value (fun _ _ _ => 0) I J else 0 := by
  have hx : ExactExt n nc 0 (fun _ => ([] : List K)) (fun _ _ _ => 0) := ⟨fun _ _ _ _ _ => rfl, fun _ _ _ h => absurd h (by omega)⟩
  rw [← dense symCells true false n cell2dof nc 0 ignored eval (fun _ => []) value (fun _ _ _ => 0) h hx, ← dense symCells true false n cell2dof nc 0 ignored eval (fun _ => []) value (fun _ _ _ => 0) h hx,
    assemble_items h false 0 (fun _ => []) (fun _ _ _ => 0) (fun _ => hx) 0 nc le_rfl,
    assemble_items h false 0 (fun _ => []) (fun _ _ _ => 0) (fun _ => hx) 0 nc le_rfl, denseAdd_foldl, denseAdd_foldl, zero_add, zero_add]
  obtain ⟨g1, g2, g3⟩ := sss_lower_foldl (allItems symCells true false n cell2dof nc 0 0 nc ignored value fun _ _ _ => 0) S
  have hlt := all_lt h S.n 0 hd (fun _ _ _ => (0 : K))
  refine ⟨by rw [g3 I (by omega), hz2 I hI, zero_add], ?_⟩
  rw [g1]
  obtain ⟨-, -, -, -, -, -, h7⟩ := Galerkin.csr_adds ((allItems symCells true false n cell2dof nc 0 0 nc ignored value fun _ _ _ => 0).filter fun e => decide (e.2.1 < e.1)) S.lower hA hs
    (fun e he => (hlt e (List.mem_of_mem_filter he)).1)
  rw [← contrib_lower]
  by_cases hst : CSR.Stored S.lower I J
  · rw [(h7 I J hI).1 hst, hz I J hI, zero_add]
  · rw [(h7 I J hI).2 hst, hz I J hI, contrib_zero]
    rintro e he ⟨rfl, rfl⟩
    refine hst (hp (e.1, e.2.1) ?_)
    rw [pattern_eq symCells true n cell2dof nc 0 ignored value fun _ _ _ => 0]
    exact List.mem_map.2 ⟨e, List.mem_of_mem_filter he, rfl⟩

/-! ## Masks -/

/-- Adding the entries `(p, q)` with `m1 p` and `m2 q`, for `p ≤ q`, of a symmetric local matrix, and the mirrored ones. -/
theorem masked_symmetric [Semiring K] (n : Nat) (dofs : List Int) (m1 m2 : Nat → Bool) (hd : ∀ p q, p ≤ q → q < n → m1 p = true → m2 q = true → 0 ≤ dofs.getD p 0 ∧ 0 ≤ dofs.getD q 0)
    (M : Nat → Nat → K) (hs : ∀ p q, M p q = M q p) (fac : K) (A : Nat → Nat → K) (I J : Nat) :
    addSymMasked denseAdd n dofs ((upper n).map fun q => M q.1 q.2) fac (symMask n m1 m2) A I J =
      A I J + fac * ∑ p ∈ Finset.range n, ∑ q ∈ Finset.range n,
        if (dofs.getD p 0 = I ∧ dofs.getD q 0 = J) ∧ m1 (min p q) = true ∧ m2 (max p q) = true then M p q else 0 := by
  rw [addSymMasked_eq denseAdd n dofs M fac (symMask n m1 m2) (fun q => m1 q.1 && m2 q.2) (fun k => by rw [symMask_eq]; exact mask_bit _ _ k), denseAdd_foldl]
  congr 1
  unfold symItemsIf
  rw [Galerkin.contrib_flatMap', Finset.mul_sum]
  simp only [Finset.mul_sum]
  refine Assembly.upper_sum_sym n _ _ fun p q hpq hq => ?_
  dsimp only
  rw [hs q p, min_comm q p, max_comm q p, min_eq_left hpq, max_eq_right hpq]
  by_cases hm : (m1 p && m2 q) = true
  · rw [if_pos hm]
    rw [Bool.and_eq_true] at hm
    obtain ⟨hp0, hq0⟩ := hd p q hpq hq hm.1 hm.2
    have e : ∀ (a b : Int), 0 ≤ a → 0 ≤ b → ((a.toNat = I ∧ b.toNat = J) ↔ ((a = (I : Int) ∧ b = (J : Int)) ∧ m1 p = true ∧ m2 q = true)) := fun a b _ _ => by
      have := hm.1; have := hm.2
      constructor
      · rintro ⟨h1, h2⟩; exact ⟨by omega, hm⟩
      · rintro ⟨h1, -⟩; omega
    unfold SSS.contrib
    simp only [mul_ite, mul_zero]
    by_cases hp : p = q
    · subst hp
      rw [if_pos rfl, if_pos rfl]
      simp only [List.map_cons, List.map_nil, List.sum_cons, List.sum_nil, add_zero, e _ _ hp0 hp0]
    · rw [if_neg hp, if_neg hp]
      simp only [List.map_cons, List.map_nil, List.sum_cons, List.sum_nil, add_zero, e _ _ hp0 hq0, e _ _ hq0 hp0]
  · rw [if_neg hm]
    rw [Bool.and_eq_true] at hm
    have e : ∀ P : Prop, ¬ (P ∧ m1 p = true ∧ m2 q = true) := fun P h => hm h.2
    rw [if_neg (e _), if_neg (e _), mul_zero, add_zero, ite_self]
    rfl

/-- The same for general local matrices. -/
theorem masked_general [Semiring K] (n : Nat) (dofs : List Int) (m1 m2 : Nat → Bool) (hd : ∀ p q, p < n → q < n → m1 p = true → m2 q = true → 0 ≤ dofs.getD p 0 ∧ 0 ≤ dofs.getD q 0)
    (M : Nat → Nat → K) (fac : K) (A : Nat → Nat → K) (I J : Nat) :
    addGenMasked denseAdd n dofs ((List.range n).flatMap fun p => (List.range n).map fun q => M p q) fac (genMask n m1 m2) A I J =
      A I J + fac * ∑ p ∈ Finset.range n, ∑ q ∈ Finset.range n, if (dofs.getD p 0 = I ∧ dofs.getD q 0 = J) ∧ m1 p = true ∧ m2 q = true then M p q else 0 := by
  rw [addGenMasked_eq denseAdd n dofs M fac (genMask n m1 m2) (fun q => m1 q.1 && m2 q.2) (fun k => by rw [genMask_eq]; exact mask_bit _ _ k), denseAdd_foldl]
  congr 1
  rw [List.flatMap_assoc, Galerkin.contrib_flatMap', Finset.mul_sum]
  show ∑ p ∈ Finset.range n, _ = _
  refine Finset.sum_congr rfl fun p hp => ?_
  rw [Finset.mem_range] at hp
  rw [List.flatMap_map, Galerkin.contrib_flatMap', Finset.mul_sum]
  show ∑ q ∈ Finset.range n, _ = _
  refine Finset.sum_congr rfl fun q hq => ?_
  rw [Finset.mem_range] at hq
  dsimp only
  unfold SSS.contrib
  by_cases hm : (m1 p && m2 q) = true
  · rw [if_pos hm]
    rw [Bool.and_eq_true] at hm
    obtain ⟨hp0, hq0⟩ := hd p q hp hq hm.1 hm.2
    rw [List.map_singleton, List.sum_singleton, mul_ite, mul_zero]
    by_cases h : dofs.getD p 0 = (I : Int) ∧ dofs.getD q 0 = (J : Int)
    · rw [if_pos (by dsimp only; omega), if_pos ⟨h, hm⟩]
    · rw [if_neg (by dsimp only; omega), if_neg fun hh => h hh.1]
  · rw [if_neg hm]
    rw [Bool.and_eq_true] at hm
    rw [if_neg (by tauto), mul_zero]
    rfl

/-- With the mask of the dofs that are not on the boundary nothing is lost, for any operator. -/
theorem masked_all [Semiring K] (add : σ → Nat → Nat → K → σ) (n : Nat) (dofs : List Int) (M : Nat → Nat → K) (fac : K) (A : σ) :
    addSymMasked add n dofs ((upper n).map fun q => M q.1 q.2) fac (symMask n (fun p => decide (0 ≤ dofs.getD p 0)) fun p => decide (0 ≤ dofs.getD p 0)) A =
      addSym add n dofs ((upper n).map fun q => M q.1 q.2) fac A := by
  rw [addSymMasked_eq add n dofs M fac _ (fun q => decide (0 ≤ dofs.getD q.1 0) && decide (0 ≤ dofs.getD q.2 0)) (fun k => by rw [symMask_eq]; exact mask_bit _ _ k), addSym_eq]
  congr 1
  unfold symItemsIf symItems
  congr 1
  funext q
  by_cases h : dofs.getD q.1 0 < 0 ∨ dofs.getD q.2 0 < 0
  · rw [if_pos h, if_neg (by rw [Bool.and_eq_true, decide_eq_true_eq, decide_eq_true_eq]; omega)]
  · rw [if_neg h, if_pos (by rw [Bool.and_eq_true, decide_eq_true_eq, decide_eq_true_eq]; omega)]

/-! ## Single entries -/

/-- `getEntry` for symmetric cells: the sum over the pairs of cells that contain `I` or `J`.  For a diagonal entry the local matrices must not have entries for pairs of
different local dofs with the same number; the local matrices of the code only use one of the local dofs that are shared by the two cells. -/
theorem entry_partial [Semiring K] (n : Nat) (cell2dof : Nat → List Int) (nc : Nat) (ignored : Nat × Nat → Bool) (eval : Nat × Nat → List K) (value : Nat × Nat → Nat → Nat → K)
    (h : Exact true true n cell2dof nc ignored eval value) (hsame : ∀ c, c < nc → ignored (c, c) = false) (I J : Nat)
    (honce : I = J → ∀ c p q, p < 2 * n → q < 2 * n → p ≠ q → (cell2dof c.1 ++ cell2dof c.2).getD p 0 = I → (cell2dof c.1 ++ cell2dof c.2).getD q 0 = I → value c p q = 0) :
    getEntry true false n cell2dof nc ignored eval I J = ∑ c1 ∈ Finset.range nc, ∑ c2 ∈ Finset.range nc,
      if ((I : Int) ∈ cell2dof c1 ∨ (J : Int) ∈ cell2dof c1) ∧ ((I : Int) ∈ cell2dof c2 ∨ (J : Int) ∈ cell2dof c2) then pair n cell2dof value (c1, c2) I J else 0 := by
  have hU : ∀ c ∈ unionCells cell2dof nc I J, c < nc := fun c hc => List.mem_range.1 (List.mem_of_mem_filter hc)
  unfold getEntry
  dsimp only
  rw [if_neg (by simp), entryNear_eq n cell2dof ignored eval value I J (unionCells cell2dof nc I J) (h.symmetric rfl) honce
    (fun c1 h1 c2 h2 hle hi => h.eval c1 c2 (hU c1 h1) (hU c2 h2) (fun _ => hle) (by
      rcases hi with hi | rfl
      · exact hi
      · exact hsame _ (hU _ h1)))
    (fun c1 h1 c2 h2 hlt hi => h.ignored c1 c2 (hU c1 h1) (hU c2 h2) (fun _ => by omega) hi), zero_add]
  unfold unionCells
  rw [union_sum nc _ (fun c1 c2 => pairSum n cell2dof value (c1, c2) I J) fun c1 c2 h1 h2 =>
    pairSum_mirror n cell2dof value c2 c1 (h.rows c2 h2) (h.rows c1 h1) (mirror_half h rfl c2 c1 h2 h1) I J]
  refine Finset.sum_congr rfl fun c1 _ => Finset.sum_congr rfl fun c2 _ => ?_
  simp only [Bool.and_eq_true, Bool.or_eq_true, decide_eq_true_eq]
  rfl

/-- Three cells of a line with linear shape functions; the local matrix of the pair `(0, 2)` has one entry, for the dofs 1 and 2. -/
def line (c : Nat) : List Int := [(c : Int), (c : Int) + 1]

def lineValue (c : Nat × Nat) (p q : Nat) : Int := if c = (0, 2) ∧ ((p, q) = (1, 2) ∨ (p, q) = (2, 1)) then 1 else 0

/-- Piecewise constants on three cells: the local matrices of pairs of different cells are identity matrices. -/
def cells (c : Nat) : List Int := [(c : Int)]

def cellValue (c : Nat × Nat) (p q : Nat) : Int := if c.1 ≠ c.2 ∧ p = q then 1 else 0

private theorem line_exact : Exact false true 2 line 3 (fun _ => false) (fun c => (upper 4).map fun q => lineValue c q.1 q.2) lineValue := by
  refine ⟨fun _ _ => rfl, fun _ _ _ _ _ _ => rfl, fun _ c p q _ _ => ?_, fun _ _ _ _ _ h => (by cases h), fun h => (by cases h)⟩
  unfold lineValue
  by_cases hc : c = (0, 2) <;> simp only [hc, true_and, false_and, if_false, Prod.mk.injEq]
  congr 1
  exact propext ⟨fun h => by omega, fun h => by omega⟩

private theorem cell_exact : Exact true true 1 cells 3 (fun c => decide (c.2 < c.1)) (fun c => (upper 2).map fun q => cellValue c q.1 q.2) cellValue := by
  refine ⟨fun _ _ => rfl, fun _ _ _ _ _ _ => rfl, fun _ c p q _ _ => ?_, fun c1 c2 _ _ h1 h2 => ?_, fun _ c1 c2 _ _ p q hp hq => ?_⟩
  · unfold cellValue
    simp only [eq_comm (a := p)]
  · have := h1 rfl
    simp only [decide_eq_true_eq] at h2
    omega
  · unfold cellValue
    have : p = 0 := by omega
    have : q = 0 := by omega
    subst p q
    simp [eq_comm]

/-- With local matrices that depend on the order of the cells the entry is wrong. -/
theorem entry_unsymmetric_fails : ¬ ∀ (n : Nat) (cell2dof : Nat → List Int) (nc : Nat) (ignored : Nat × Nat → Bool) (eval : Nat × Nat → List Int) (value : Nat × Nat → Nat → Nat → Int),
    Exact false true n cell2dof nc ignored eval value → (∀ c, c < nc → ignored (c, c) = false) → ∀ I J : Nat, I ≠ J →
    getEntry false false n cell2dof nc ignored eval I J = ∑ c1 ∈ Finset.range nc, ∑ c2 ∈ Finset.range nc,
      if ((I : Int) ∈ cell2dof c1 ∨ (J : Int) ∈ cell2dof c1) ∧ ((I : Int) ∈ cell2dof c2 ∨ (J : Int) ∈ cell2dof c2) then pair n cell2dof value (c1, c2) I J else 0 := by
  intro H
  have := H 2 line 3 _ _ lineValue line_exact (fun _ _ => rfl) 1 2 (by omega)
  revert this
  decide +kernel

/-- For variable kernels the entry is not the one of the matrix. -/
theorem entry_variable_fails : ¬ ∀ (n : Nat) (cell2dof : Nat → List Int) (nc : Nat) (ignored : Nat × Nat → Bool) (eval : Nat × Nat → List Int) (value : Nat × Nat → Nat → Nat → Int),
    Exact true true n cell2dof nc ignored eval value → (∀ c, c < nc → ignored (c, c) = false) → ∀ I J : Nat,
    (I = J → ∀ c p q, p < 2 * n → q < 2 * n → p ≠ q → (cell2dof c.1 ++ cell2dof c.2).getD p 0 = I → (cell2dof c.1 ++ cell2dof c.2).getD q 0 = I → value c p q = 0) →
    getEntry true true n cell2dof nc ignored eval I J = form false n cell2dof nc 0 value (fun _ _ _ => 0) I J := by
  intro H
  have := H 1 cells 3 _ _ cellValue cell_exact (fun c _ => by simp) 0 0 (fun _ c p q _ _ hpq _ _ => by unfold cellValue; rw [if_neg (by tauto)])
  revert this
  decide +kernel

/-! ## Examples -/

/-- The matrix for three piecewise constants. -/
example : ∀ I < 3, ∀ J < 3, assemble denseAdd true true false 1 cells 3 0 0 3 (fun c => decide (c.2 < c.1)) (fun c => (upper 2).map fun q => cellValue c q.1 q.2) (fun _ => []) (fun _ _ => 0) I J =
    if I = J then 4 else 0 := by decide +kernel

example := dense true true false 1 cells 3 0 _ _ (fun _ => []) cellValue (fun _ _ _ => 0) cell_exact ⟨fun _ _ _ _ _ => rfl, fun _ _ _ h => absurd h (by omega)⟩ 1 1

/-- Unsymmetric cells: the entry of the pair `(0, 2)`. -/
example : assemble denseAdd false true false 2 line 3 0 0 3 (fun _ => false) (fun c => (upper 4).map fun q => lineValue c q.1 q.2) (fun _ => []) (fun _ _ => 0) 1 2 = 1 := by decide +kernel

/-- Two ranks. -/
example : rankStart 3 2 0 = 0 ∧ rankStart 3 2 1 = 2 ∧ rankStart 3 2 2 = 3 := by decide

/-- The diagonal entry read by `getEntry` for the kernels that are not variable: the pair of the cell with itself. -/
example : getEntry true false 1 cells 3 (fun c => decide (c.2 < c.1)) (fun c => (upper 2).map fun q => cellValue c q.1 q.2) 1 1 = 0 := by decide +kernel

/-- Neighbours in the line: the two cells with the dof 1, where the local matrix of a cell with itself is the identity. -/
example : getEntry true false 2 line 3 (fun c => decide (c.2 < c.1)) (fun c => (upper 4).map fun q => if q.1 = q.2 ∧ q.1 < 2 ∧ c.1 = c.2 then (1 : Int) else 0) 1 1 = 2 := by decide +kernel

example : symMask 3 (fun p => decide (p ≠ 1)) (fun p => decide (p ≠ 1)) = 0b100101 := by decide +kernel

example : addSymMasked denseAdd 3 [4, -1, 5] [1, 2, 3, 4, 5, 6] 2 0b100101 (fun _ _ => (0 : Int)) 4 5 = 6 := by decide +kernel

end PyNucleus.Props.C70
