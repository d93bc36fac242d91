import Mathlib.LinearAlgebra.Lagrange
import Mathlib.Data.List.GetD
import Verif.Model.Transfer
import Verif.Spec.Interpolation
import Verif.Proof.ProductIterator

/-! Helper lemmas for Chebyshev interpolation in clusters. -/

namespace PyNucleus.Transfer

open ProductIterator

/-- Multi-indices in lexicographic order. -/
def tuples (m : Nat) : Nat → List (List Nat)
  | 0 => [[]]
  | d + 1 => (List.range m).flatMap fun x => (tuples m d).map fun t => x :: t

theorem tuples_eq (m : Nat) : ∀ d, (allTuples m d).map (List.map Int.toNat) = tuples m d := by
  intro d
  induction d with
  | zero => rfl
  | succ d ih =>
    rw [allTuples, tuples, List.map_flatMap]
    congr 1; funext x
    rw [← ih, List.map_map, List.map_map]
    apply List.map_congr_left
    intro t _
    simp

theorem tuples_length (m : Nat) : ∀ d, (tuples m d).length = m ^ d := by
  intro d
  rw [← tuples_eq, List.length_map, allTuples_length]

theorem multi_eq (m dim : Nat) (hm : 1 ≤ m) (hd : 1 ≤ dim) : multi m dim = tuples m dim := by
  obtain ⟨d, rfl⟩ : ∃ d, dim = d + 1 := ⟨dim - 1, by omega⟩
  obtain ⟨rest, h1, h2⟩ := yields_all m hm d
  have hy : Yields m (reset (d + 1)) (allTuples m (d + 1)) (List.replicate (d + 1) 0) := by
    rw [h1]; exact Yields.next (step_reset m hm d) h2
  have := drain_of_yields hy
  rw [allTuples_length] at this
  rw [multi, this]
  exact tuples_eq m (d + 1)

theorem tuples_mem {m : Nat} : ∀ {d : Nat} {t : List Nat}, t ∈ tuples m d → ∀ l < d, t.getD l 0 < m := by
  intro d
  induction d with
  | zero => intro t _ l hl; omega
  | succ d ih =>
    intro t ht l hl
    rw [tuples, List.mem_flatMap] at ht
    obtain ⟨x, hx, ht⟩ := ht
    obtain ⟨s, hs, rfl⟩ := List.mem_map.1 ht
    cases l with
    | zero => simpa using hx
    | succ l => simpa using ih hs l (by omega)

variable {K : Type} [Field K]

theorem list_sum_range (m : Nat) (f : Nat → K) : ((List.range m).map f).sum = ∑ i ∈ Finset.range m, f i := rfl

theorem sum_flatMap' {α β : Type} (f : α → List β) (g : β → K) : ∀ l : List α, ((l.flatMap f).map g).sum = (l.map fun x => ((f x).map g).sum).sum := by
  intro l
  induction l with
  | nil => rfl
  | cons a l ih => rw [List.flatMap_cons, List.map_append, List.sum_append, ih, List.map_cons, List.sum_cons]

theorem list_mul_sum {α : Type} (c : K) (f : α → K) : ∀ l : List α, (l.map fun t => c * f t).sum = c * (l.map f).sum := by
  intro l
  induction l with
  | nil => simp
  | cons a l ih => simp [ih, mul_add]

theorem list_sum_add {α : Type} (f g : α → K) : ∀ l : List α, (l.map fun t => f t + g t).sum = (l.map f).sum + (l.map g).sum := by
  intro l
  induction l with
  | nil => simp
  | cons a l ih => simp [ih]; ring

theorem list_sum_comm {α β : Type} (f : α → β → K) (m : List β) : ∀ l : List α, (l.map fun a => (m.map fun b => f a b).sum).sum = (m.map fun b => (l.map fun a => f a b).sum).sum := by
  intro l
  induction l with
  | nil => simp
  | cons a l ih => simp only [List.map_cons, List.sum_cons, ih, list_sum_add]

theorem sum_getD {α : Type} (d : α) (F : α → K) : ∀ l : List α, ∑ k ∈ Finset.range l.length, F (l.getD k d) = (l.map F).sum := by
  intro l
  induction l with
  | nil => simp
  | cons a l ih => rw [List.length_cons, Finset.sum_range_succ', List.map_cons, List.sum_cons, ← ih]; simp [add_comm]

theorem getD_map {α β : Type} (f : α → β) (l : List α) (k : Nat) (d : β) (d' : α) (hk : k < l.length) : (l.map f).getD k d = f (l.getD k d') := by
  rw [List.getD_eq_getElem _ _ (by rw [List.length_map]; exact hk), List.getElem_map, List.getD_eq_getElem _ _ hk]

theorem getD_range_map {α : Type} (f : Nat → α) (n k : Nat) (d : α) (hk : k < n) : ((List.range n).map f).getD k d = f k := by
  rw [getD_map f _ k d 0 (by simpa using hk), List.getD_eq_getElem _ _ (by simpa using hk), List.getElem_range]

theorem sum_tuples (m : Nat) : ∀ (d : Nat) (g : Nat → Nat → K),
    ((tuples m d).map fun t => ∏ l ∈ Finset.range d, g l (t.getD l 0)).sum = ∏ l ∈ Finset.range d, ∑ i ∈ Finset.range m, g l i := by
  intro d
  induction d with
  | zero => intro g; simp [tuples]
  | succ d ih =>
    intro g
    rw [tuples, sum_flatMap', Finset.prod_range_succ', ← ih fun l i => g (l + 1) i, Finset.mul_sum, ← list_sum_range]
    congr 1
    apply List.map_congr_left
    intro x _
    rw [List.map_map, mul_comm, ← list_mul_sum]
    congr 1
    apply List.map_congr_left
    intro t _
    simp only [Function.comp]
    rw [Finset.prod_range_succ', mul_comm]
    simp

/-- Value of a Lagrange polynomial. -/
noncomputable def lag (m : Nat) (v : Nat → K) (i : Nat) (x : K) : K := (Lagrange.basis (Finset.range m) v i).eval x

/-- Value of a tensor product of Lagrange polynomials. -/
noncomputable def tens (dim m : Nat) (xi : Nat → Nat → K) (a : List Nat) (x : Nat → K) : K := ∏ l ∈ Finset.range dim, lag m (fun i => xi i l) (a.getD l 0) (x l)

theorem lag_eq (m : Nat) (v : Nat → K) (i : Nat) (x : K) : lag m v i x = ∏ k ∈ (Finset.range m).erase i, ((x - v k) / (v i - v k)) := by
  rw [lag, Lagrange.basis, Polynomial.eval_prod]
  apply Finset.prod_congr rfl
  intro k _
  simp [Lagrange.basisDivisor, div_eq_inv_mul]

/-- Nodes in every dimension are distinct. -/
def Distinct (dim m : Nat) (xi : Nat → Nat → K) : Prop := ∀ l < dim, ∀ i < m, ∀ j < m, xi i l = xi j l → i = j

theorem lag_interp (m : Nat) (v : Nat → K) (hv : ∀ i < m, ∀ j < m, v i = v j → i = j) (p : Polynomial K) (hp : p.degree < m) (x : K) :
    ∑ i ∈ Finset.range m, lag m v i x * p.eval (v i) = p.eval x := by
  have h : Set.InjOn v (Finset.range m) := fun i hi j hj e => hv i (by simpa using hi) j (by simpa using hj) e
  conv => rhs; rw [Lagrange.eq_interpolate h (f := p) (by simpa using hp)]
  rw [Lagrange.interpolate_apply, Polynomial.eval_finset_sum]
  apply Finset.sum_congr rfl
  intro i _
  rw [Polynomial.eval_mul, Polynomial.eval_C, mul_comm]; rfl

theorem tens_interp {dim m : Nat} {xi : Nat → Nat → K} (hx : Distinct dim m xi) {f : List K → K} (hf : IsPoly dim m f) (x : Nat → K) :
    ((tuples m dim).map fun a => tens dim m xi a x * f ((List.range dim).map fun l => xi (a.getD l 0) l)).sum = f ((List.range dim).map x) := by
  obtain ⟨terms, hdeg, hf⟩ := hf
  rw [hf]
  simp only [hf, ← list_mul_sum]
  rw [list_sum_comm]
  congr 1
  apply List.map_congr_left
  intro t ht
  simp only [tens, ← Finset.prod_mul_distrib]
  rw [sum_tuples m dim fun l i => lag m (fun i => xi i l) i (x l) * (t l).eval (xi i l)]
  apply Finset.prod_congr rfl
  intro l hl
  have hl := Finset.mem_range.1 hl
  exact lag_interp m _ (hx l hl) (t l) (hdeg t ht l hl) (x l)

/-- A tensor product of Lagrange polynomials as a function on lists. -/
theorem tens_isPoly {dim m n : Nat} {xi : Nat → Nat → K} (hx : Distinct dim m xi) (hmn : m ≤ n) {a : List Nat} (ha : ∀ l < dim, a.getD l 0 < m) :
    IsPoly dim n fun x => tens dim m xi a fun l => x.getD l 0 := by
  refine ⟨[fun l => Lagrange.basis (Finset.range m) (fun i => xi i l) (a.getD l 0)], ?_, ?_⟩
  · intro t ht l hl
    rw [List.mem_singleton] at ht
    subst ht
    have h : Set.InjOn (fun i => xi i l) (Finset.range m) := fun i hi j hj e => hx l hl i (by simpa using hi) j (by simpa using hj) e
    rw [Lagrange.degree_basis h (by simpa using ha l hl)]
    have := ha l hl
    rw [Finset.card_range]
    exact_mod_cast (show m - 1 < n by omega)
  · intro x
    rw [List.map_singleton, List.sum_singleton]
    apply Finset.prod_congr rfl
    intro l hl
    have hl := Finset.mem_range.1 hl
    have : ((List.range dim).map x).getD l 0 = x l := by rw [List.getD_eq_getElem _ _ (by simpa using hl)]; simp
    dsimp only; rw [this]; rfl

theorem foldl_mul {α : Type} (f : α → K) : ∀ (l : List α) (c : K), l.foldl (fun t k => t * f k) c = c * (l.map f).prod := by
  intro l
  induction l with
  | nil => intro c; simp
  | cons a l ih => intro c; rw [List.foldl_cons, ih, List.map_cons, List.prod_cons, mul_assoc]

theorem foldl_mul_if {α : Type} (p : α → Prop) [DecidablePred p] (f : α → K) : ∀ (l : List α) (c : K), l.foldl (fun t k => if p k then t * f k else t) c = c * (l.map fun k => if p k then f k else 1).prod := by
  intro l c
  rw [← foldl_mul]
  congr 1
  funext t k
  split <;> simp

theorem list_prod_range (m : Nat) (f : Nat → K) : ((List.range m).map f).prod = ∏ i ∈ Finset.range m, f i := rfl

theorem prod_erase_if (m i : Nat) (f : Nat → K) : ∏ k ∈ Finset.range m, (if k ≠ i then f k else 1) = ∏ k ∈ (Finset.range m).erase i, f k := by
  rw [← Finset.prod_filter]
  congr 1
  ext k; simp [and_comm]

theorem beta_eq (xi : Nat → Nat → K) (m j l : Nat) : beta xi m j l = ∏ k ∈ (Finset.range m).erase j, (xi j l - xi k l) := by
  rw [beta, foldl_mul_if, one_mul, list_prod_range, prod_erase_if]

theorem omega_eq (xiC xiP : Nat → Nat → K) (m j l : Nat) : omega xiC xiP m j l = ∏ k ∈ Finset.range m, (xiC j l - xiP k l) := by
  rw [omega, foldl_mul, one_mul, list_prod_range]

theorem beta_ne_zero {dim m : Nat} {xi : Nat → Nat → K} (hx : Distinct dim m xi) {l i : Nat} (hl : l < dim) (hi : i < m) : beta xi m i l ≠ 0 := by
  rw [beta_eq, Finset.prod_ne_zero_iff]
  intro k hk e
  rw [Finset.mem_erase, Finset.mem_range] at hk
  exact hk.1 (hx l hl k hk.2 i hi (sub_eq_zero.1 e).symm)

theorem lag_self {m : Nat} {v : Nat → K} {i : Nat} (hv : ∀ i < m, ∀ j < m, v i = v j → i = j) (hi : i < m) : lag m v i (v i) = 1 :=
  Lagrange.eval_basis_self (fun i hi j hj e => hv i (by simpa using hi) j (by simpa using hj) e) (by simpa using hi)

section order

variable [LinearOrder K]

theorem transferEntry_eq {tol : K} {dim mP : Nat} {xiP xiC : Nat → Nat → K} {I J : List Nat} (hx : Distinct dim mP xiP) (hI : ∀ l < dim, I.getD l 0 < mP)
    (h0 : ¬ tol < |(0 : K)|) (hsep : ∀ l < dim, xiP (I.getD l 0) l = xiC (J.getD l 0) l ∨ tol < |xiP (I.getD l 0) l - xiC (J.getD l 0) l|) :
    transferEntry tol dim mP xiP xiC I J = tens dim mP xiP I fun l => xiC (J.getD l 0) l := by
  unfold transferEntry
  dsimp only
  rw [foldl_mul_if, one_mul, list_prod_range, tens]
  apply Finset.prod_congr rfl
  intro l hl
  have hl := Finset.mem_range.1 hl
  by_cases he : xiP (I.getD l 0) l = xiC (J.getD l 0) l
  · rw [if_neg (by rw [he, sub_self]; exact h0), ← he]
    exact (lag_self (hx l hl) (hI l hl)).symm
  · rw [if_pos ((hsep l hl).resolve_left he), omega_eq, beta_eq, lag_eq, Finset.prod_div_distrib]
    congr 1
    rw [← Finset.mul_prod_erase _ _ (Finset.mem_range.2 (hI l hl)), mul_div_cancel_left₀ _ (sub_ne_zero.2 fun e => he e.symm)]

theorem leafPoly_eq {tol : K} {dim m : Nat} {xi : Nat → Nat → K} {x : Nat → K} {a : List Nat} (hx : Distinct dim m xi) (ha : ∀ l < dim, a.getD l 0 < m)
    (hsep : ∀ l < dim, x l = xi (a.getD l 0) l ∨ tol < |x l - xi (a.getD l 0) l|) :
    leafPoly tol dim xi m x a = tens dim m xi a x := by
  rw [leafPoly, foldl_mul, foldl_mul, one_mul, one_mul, list_prod_range, list_prod_range, ← Finset.prod_div_distrib, tens]
  apply Finset.prod_congr rfl
  intro l hl
  have hl := Finset.mem_range.1 hl
  rw [leafOmega]
  by_cases ht : tol < |x l - xi (a.getD l 0) l|
  · rw [if_pos ht, foldl_mul_if, one_mul, list_prod_range, prod_erase_if, beta_eq, lag_eq, Finset.prod_div_distrib]
  · rw [if_neg ht, div_self (beta_ne_zero hx hl (ha l hl)), (hsep l hl).resolve_right ht]
    exact (lag_self (hx l hl) (ha l hl)).symm

/-- Weighted points that contribute to the values of the dof in position `lcl`. -/
def contrib (R : Rule K) (dofs : List Int) (cells : List (Cell K)) (lcl : Nat) : List (K × (Nat → K)) :=
  cells.flatMap fun c => (List.range R.dofsPerElement).flatMap fun k =>
    if c.dof k < 0 then [] else if dofs.findIdx? (· = c.dof k) = some lcl then (List.range R.numNodes).map fun j => (c.vol * R.PHI k j * R.weight j, c.x j) else []

theorem foldl_count (F : List Nat → K) (lcl : Nat) : ∀ (l : List (List Nat)) (v : Nat → Nat → K) (n p r : Nat),
    ((l.foldl (fun (s : (Nat → Nat → K) × Nat) a => (fun p r => if p = lcl ∧ r = s.2 then s.1 p r + F a else s.1 p r, s.2 + 1)) (v, n)).1) p r =
      v p r + if p = lcl ∧ n ≤ r ∧ r < n + l.length then F (l.getD (r - n) []) else 0 := by
  intro l
  induction l with
  | nil => intro v n p r; rw [if_neg (by simp)]; simp
  | cons a l ih =>
    intro v n p r
    rw [List.foldl_cons, ih]
    dsimp only
    by_cases hp : p = lcl
    · by_cases hr : r = n
      · subst hr
        rw [if_pos ⟨hp, rfl⟩, if_neg (by omega), if_pos (by simp [hp])]; simp
      · rw [if_neg (by omega)]
        by_cases h : p = lcl ∧ n + 1 ≤ r ∧ r < n + 1 + l.length
        · rw [if_pos h, if_pos (by simp; omega), show r - n = (r - (n + 1)) + 1 by omega, List.getD_cons_succ]
        · rw [if_neg h, if_neg (by simp; omega)]
    · rw [if_neg (by omega), if_neg (by omega), if_neg (by omega)]

theorem enterNode_eq {tol : K} {dim m : Nat} (hm : 1 ≤ m) (hd : 1 ≤ dim) {xi : Nat → Nat → K} (x : Nat → K) (c f w : K) (lcl : Nat) (value : Nat → Nat → K) (p r : Nat) (hr : r < m ^ dim) :
    enterNode tol dim xi m x c f w lcl value p r = value p r + if p = lcl then (c * f * w) * leafPoly tol dim xi m x ((tuples m dim).getD r []) else 0 := by
  rw [enterNode, foldl_count fun a => c * leafPoly tol dim xi m x a * f * w, multi_eq m dim hm hd]
  by_cases hp : p = lcl
  · rw [if_pos ⟨hp, by omega, by rw [tuples_length]; omega⟩, if_pos hp, Nat.sub_zero]; ring
  · rw [if_neg (by simp [hp]), if_neg hp]

theorem foldl_add_value {α : Type} (step : (Nat → Nat → K) → α → Nat → Nat → K) (g : α → Nat → Nat → K) (N : Nat)
    (h : ∀ v a p r, r < N → step v a p r = v p r + g a p r) : ∀ (l : List α) (v : Nat → Nat → K) (p r : Nat), r < N → l.foldl step v p r = v p r + (l.map fun a => g a p r).sum := by
  intro l
  induction l with
  | nil => intro v p r _; simp
  | cons a l ih => intro v p r hr; rw [List.foldl_cons, ih _ p r hr, h v a p r hr, List.map_cons, List.sum_cons, add_assoc]

theorem enterLeaf_eq {tol : K} {dim m : Nat} (hm : 1 ≤ m) (hd : 1 ≤ dim) (eta : Nat → K) (box : Box K) (R : Rule K) (dofs : List Int) (cells : List (Cell K)) (p r : Nat) (hr : r < m ^ dim) :
    enterLeaf tol dim m eta box R dofs cells p r =
      ((contrib R dofs cells p).map fun e => e.1 * leafPoly tol dim (nodes eta box) m e.2 ((tuples m dim).getD r [])).sum := by
  rw [enterLeaf, foldl_add_value _ (fun c p r => ((List.range R.dofsPerElement).map fun k =>
    if c.dof k < 0 then 0 else if dofs.findIdx? (· = c.dof k) = some p then
      ((List.range R.numNodes).map fun j => (c.vol * R.PHI k j * R.weight j) * leafPoly tol dim (nodes eta box) m (c.x j) ((tuples m dim).getD r [])).sum else 0).sum) (m ^ dim)
      ?_ cells _ p r hr, zero_add, contrib, sum_flatMap']
  · congr 1
    apply List.map_congr_left
    intro c _
    rw [sum_flatMap']
    congr 1
    apply List.map_congr_left
    intro k _
    split
    · simp
    · split
      · rw [List.map_map]; rfl
      · simp
  · intro v c p r hr
    rw [enterCell]
    refine foldl_add_value _ (fun k p r => if c.dof k < 0 then 0 else if dofs.findIdx? (· = c.dof k) = some p then
      ((List.range R.numNodes).map fun j => (c.vol * R.PHI k j * R.weight j) * leafPoly tol dim (nodes eta box) m (c.x j) ((tuples m dim).getD r [])).sum else 0) (m ^ dim) ?_ _ v p r hr
    intro v k p r hr
    by_cases h0 : c.dof k < 0
    · rw [if_pos h0, if_pos h0, add_zero]
    · rw [if_neg h0, if_neg h0]
      cases hf : dofs.findIdx? (· = c.dof k) with
      | none => simp
      | some lcl =>
        dsimp only
        rw [enterDof]
        rw [foldl_add_value _ (fun j p r => if p = lcl then (c.vol * R.PHI k j * R.weight j) * leafPoly tol dim (nodes eta box) m (c.x j) ((tuples m dim).getD r []) else 0) (m ^ dim)
          (fun v j p r hr => enterNode_eq hm hd _ _ _ _ _ _ _ _ hr) _ v p r hr]
        by_cases hp : p = lcl
        · subst hp; simp
        · have : ¬ lcl = p := fun e => hp e.symm
          simp [hp, this]

end order

end PyNucleus.Transfer
