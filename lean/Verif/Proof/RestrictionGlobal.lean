import Verif.Proof.RestrictionLocal
import Mathlib.Algebra.BigOperators.Ring.Finset
import Mathlib.Algebra.BigOperators.GroupWithZero.Finset
import Mathlib.Tactic.IntervalCases
import Mathlib.Tactic.Linarith

/-! # Lagrange functions of a mesh are continuous -/

namespace PyNucleus.Restriction

open PyNucleus.ShapeFunctions

/-- One factor of a Lagrange function. -/
def lag (a : Nat) (t : ℚ) : ℚ := ∏ m ∈ Finset.range a, (t - m) / (a - m)

/-- Nodes times the order. -/
def multi (p dim : Nat) : List (List Nat) := (nodeN p dim).map (·.map fun n => n * p / 12)

theorem lag_zero_right (a : Nat) (ha : a ≠ 0) : lag a 0 = 0 := by
  unfold lag
  exact Finset.prod_eq_zero (Finset.mem_range.2 (Nat.pos_of_ne_zero ha)) (by simp)

theorem shape_lag (p dim : Nat) (h1 : 1 ≤ p) (h3 : p ≤ 3) (d1 : 1 ≤ dim) (d3 : dim ≤ 3) (lam : List ℚ) :
    (localShapeFunctions p dim).map (fun φ => φ.eval lam) =
      (multi p dim).map fun α => ((List.range (dim + 1)).map fun k => lag (α.getD k 0) (p * lam.getD k 0)).prod := by
  have l0 : ∀ t, lag 0 t = 1 := fun t => rfl
  have l1 : ∀ t, lag 1 t = t := fun t => by simp [lag]
  have l2 : ∀ t, lag 2 t = t * (t - 1) / 2 := fun t => by simp [lag, Finset.prod_range_succ]; norm_num
  have l3 : ∀ t, lag 3 t = t * (t - 1) * (t - 2) / 6 := fun t => by simp [lag, Finset.prod_range_succ]; norm_num
  interval_cases p <;> interval_cases dim <;>
    simp only [localShapeFunctions, multi, nodeN, List.range_succ, List.range_zero, List.nil_append, List.cons_append, List.map_cons, List.map_nil,
      List.prod_cons, List.prod_nil, Shape.eval, List.getD_cons_zero, List.getD_cons_succ, Nat.reduceMul, Nat.reduceDiv, l0, l1, l2, l3, one_mul, mul_one,
      Nat.cast_one, Nat.cast_ofNat, List.cons.injEq, and_true, true_and] <;> (try (refine ⟨?_, ?_⟩)) <;>
    (repeat (first | ring1 | constructor))

theorem multi_spec : ∀ p ∈ List.range 4, ∀ d ∈ List.range 3, ∀ α ∈ multi p (d + 1), α.length = d + 2 ∧ (1 ≤ p → α.sum = p) := by decide +kernel

theorem multi_1 : ∀ p ∈ List.range 4, ∀ a ∈ List.range 4, ∀ b ∈ List.range 4, 1 ≤ p → a + b = p → [a, b] ∈ multi p 1 := by decide +kernel
theorem multi_2 : ∀ p ∈ List.range 4, ∀ a ∈ List.range 4, ∀ b ∈ List.range 4, ∀ c ∈ List.range 4, 1 ≤ p → a + b + c = p → [a, b, c] ∈ multi p 2 := by decide +kernel
theorem multi_3 : ∀ p ∈ List.range 4, ∀ a ∈ List.range 4, ∀ b ∈ List.range 4, ∀ c ∈ List.range 4, ∀ d ∈ List.range 4, 1 ≤ p → a + b + c + d = p →
    [a, b, c, d] ∈ multi p 3 := by decide +kernel

theorem multi_all (p dim : Nat) (h1 : 1 ≤ p) (h3 : p ≤ 3) (d1 : 1 ≤ dim) (d3 : dim ≤ 3) (β : List Nat) (hl : β.length = dim + 1) (hs : β.sum = p) : β ∈ multi p dim := by
  have r : ∀ {n : Nat}, n ≤ 3 → n ∈ List.range 4 := fun h => List.mem_range.2 (by omega)
  interval_cases dim
  · match β, hl with
    | [a, b], _ =>
      simp only [List.sum_cons, List.sum_nil] at hs
      exact multi_1 p (r h3) a (r (by omega)) b (r (by omega)) h1 (by omega)
  · match β, hl with
    | [a, b, c], _ =>
      simp only [List.sum_cons, List.sum_nil] at hs
      exact multi_2 p (r h3) a (r (by omega)) b (r (by omega)) c (r (by omega)) h1 (by omega)
  · match β, hl with
    | [a, b, c, d], _ =>
      simp only [List.sum_cons, List.sum_nil] at hs
      exact multi_3 p (r h3) a (r (by omega)) b (r (by omega)) c (r (by omega)) d (r (by omega)) h1 (by omega)

theorem nodes_multi : ∀ p ∈ List.range 4, ∀ d ∈ List.range 3, 1 ≤ p → nodes ℚ p (d + 1) = (multi p (d + 1)).map (·.map fun n : Nat => (n : ℚ) / p) := by decide +kernel

theorem nodes_multi' (p dim : Nat) (h1 : 1 ≤ p) (h3 : p ≤ 3) (d1 : 1 ≤ dim) (d3 : dim ≤ 3) :
    nodes ℚ p dim = (multi p dim).map (·.map fun n : Nat => (n : ℚ) / p) := by
  have := nodes_multi p (List.mem_range.2 (by omega)) (dim - 1) (List.mem_range.2 (by omega)) h1
  rwa [show dim - 1 + 1 = dim by omega] at this

/-! ### weights -/

theorem weight_cons {K : Type} [Field K] (X : Nat → Nat → ℚ) (a : Nat) (c : List Nat) (x : K) (lam : List K) (v : Nat) :
    weight X (a :: c) (x :: lam) v = x * (X a v : K) + weight X c lam v := by
  simp [weight]

theorem weight_not_mem {K : Type} [Field K] (c : List Nat) (lam : List K) (v : Nat) (h : v ∉ c) : weight unit c lam v = 0 := by
  induction c generalizing lam with
  | nil => simp [weight]
  | cons a c ih =>
    cases lam with
    | nil => simp [weight]
    | cons x lam =>
      have ne : a ≠ v := fun e => h (e ▸ List.mem_cons_self)
      rw [weight_cons, ih lam (fun h' => h (List.mem_cons_of_mem _ h')), unit, if_neg ne]
      simp

theorem weight_getD {K : Type} [Field K] (c : List Nat) (lam : List K) (hn : c.Nodup) (hl : lam.length = c.length) (k : Nat) (hk : k < c.length) :
    weight unit c lam (c.getD k 0) = lam.getD k 0 := by
  induction c generalizing lam k with
  | nil => simp at hk
  | cons a c ih =>
    cases lam with
    | nil => simp at hl
    | cons x lam =>
      obtain ⟨h1, h2⟩ := List.nodup_cons.1 hn
      rw [weight_cons]
      cases k with
      | zero =>
        simp only [List.getD_cons_zero]
        rw [weight_not_mem c lam a h1, unit, if_pos rfl]
        simp
      | succ k =>
        have hk' : k < c.length := by simpa using hk
        simp only [List.getD_cons_succ]
        rw [ih lam h2 (by simpa using hl) k hk', unit, if_neg]
        · simp
        · intro e
          apply h1
          rw [List.getD_eq_getElem _ _ hk'] at e
          exact e ▸ List.getElem_mem hk'

/-- Sum and product over the vertices of a cell. -/
theorem list_prod_cell (c : List Nat) (hn : c.Nodup) (nv : Nat) (hv : ∀ v ∈ c, v < nv) (f : Nat → ℚ) (h1 : ∀ v, v ∉ c → f v = 1) :
    ∏ v ∈ Finset.range nv, f v = ((List.range c.length).map fun k => f (c.getD k 0)).prod := by
  have e : (List.range c.length).map (fun k => f (c.getD k 0)) = c.map f := by
    apply List.ext_getElem
    · simp
    · intro i h1 h2
      simp only [List.length_map, List.length_range] at h1
      rw [List.getElem_map, List.getElem_range, List.getElem_map, List.getD_eq_getElem _ _ h1]
  rw [e, ← List.prod_toFinset f hn]
  symm
  apply Finset.prod_subset
  · intro v hv'
    exact Finset.mem_range.2 (hv v (List.mem_toFinset.1 hv'))
  · intro v _ h
    exact h1 v (fun h' => h (List.mem_toFinset.2 h'))

theorem list_sum_cell (c : List Nat) (hn : c.Nodup) (nv : Nat) (hv : ∀ v ∈ c, v < nv) (f : Nat → ℚ) (h1 : ∀ v, v ∉ c → f v = 0) :
    ∑ v ∈ Finset.range nv, f v = ((List.range c.length).map fun k => f (c.getD k 0)).sum := by
  have e : (List.range c.length).map (fun k => f (c.getD k 0)) = c.map f := by
    apply List.ext_getElem
    · simp
    · intro i h1 h2
      simp only [List.length_map, List.length_range] at h1
      rw [List.getElem_map, List.getElem_range, List.getElem_map, List.getD_eq_getElem _ _ h1]
  rw [e, ← List.sum_toFinset f hn]
  symm
  apply Finset.sum_subset
  · intro v hv'
    exact Finset.mem_range.2 (hv v (List.mem_toFinset.1 hv'))
  · intro v _ h
    exact h1 v (fun h' => h (List.mem_toFinset.2 h'))

/-- The Lagrange function of the node with weights `N` at the point with weights `W`. -/
def lagrange (p nv : Nat) (N W : Nat → ℚ) : ℚ := ∏ v ∈ Finset.range nv, lag (p * N v).num.toNat (p * W v)

theorem lagrange_congr (p nv : Nat) (N W N' W' : Nat → ℚ) (h : ∀ v, v < nv → N v = N' v) (h' : ∀ v, v < nv → W v = W' v) :
    lagrange p nv N W = lagrange p nv N' W' :=
  Finset.prod_congr rfl fun v hv => by rw [h v (Finset.mem_range.1 hv), h' v (Finset.mem_range.1 hv)]

section
variable (p dim nv : Nat) (h1 : 1 ≤ p) (h3 : p ≤ 3) (d1 : 1 ≤ dim) (d3 : dim ≤ 3) (c : List Nat) (hl : c.length = dim + 1) (hn : c.Nodup) (hv : ∀ v ∈ c, v < nv)
include h1 h3 d1 d3

theorem multi_length (I : Nat) (hI : I < (nodes ℚ p dim).length) : ((multi p dim).getD I []).length = dim + 1 ∧ ((multi p dim).getD I []).sum = p ∧
    (nodes ℚ p dim).getD I [] = ((multi p dim).getD I []).map fun n : Nat => (n : ℚ) / p := by
  have e := nodes_multi' p dim h1 h3 d1 d3
  have hI' : I < (multi p dim).length := by rw [e, List.length_map] at hI; exact hI
  have := multi_spec p (List.mem_range.2 (by omega)) (dim - 1) (List.mem_range.2 (by omega)) ((multi p dim)[I]) (by
    rw [show dim - 1 + 1 = dim by omega]; exact List.getElem_mem hI')
  rw [List.getD_eq_getElem _ _ hI']
  refine ⟨by omega, this.2 h1, ?_⟩
  rw [e, List.getD_eq_getElem _ _ (by rw [List.length_map]; exact hI'), List.getElem_map]

include hl hn
theorem weight_node (I k : Nat) (hI : I < (nodes ℚ p dim).length) (hk : k < dim + 1) :
    p * weight unit c ((nodes ℚ p dim).getD I []) (c.getD k 0) = (((multi p dim).getD I []).getD k 0 : Nat) := by
  obtain ⟨a1, a2, a3⟩ := multi_length p dim h1 h3 d1 d3 I hI
  rw [a3, weight_getD c _ hn (by rw [List.length_map]; omega) k (by omega), show (0 : ℚ) = ((0 : Nat) : ℚ) / p by simp, getD_map' (fun n : Nat => (n : ℚ) / p)]
  have : (p : ℚ) ≠ 0 := by positivity
  field_simp

include hv
/-- The shape function in terms of weights. -/
theorem eval_lagrange (I : Nat) (hI : I < (nodes ℚ p dim).length) (lam : List ℚ) (hlam : lam.length = dim + 1) :
    ((localShapeFunctions p dim).getD I .p0).eval lam = lagrange p nv (weight unit c ((nodes ℚ p dim).getD I [])) (weight unit c lam) := by
  have e := shape_lag p dim h1 h3 d1 d3 lam
  have e' := nodes_multi' p dim h1 h3 d1 d3
  have hI' : I < (multi p dim).length := by rw [e', List.length_map] at hI; exact hI
  have hI2 : I < (localShapeFunctions p dim).length := by
    have := congrArg List.length e
    rw [List.length_map, List.length_map] at this
    omega
  have : ((localShapeFunctions p dim).map fun φ => φ.eval lam).getD I 0 = _ := congrArg (fun l => l.getD I 0) e
  rw [List.getD_eq_getElem _ _ (by simpa using hI2), List.getElem_map, List.getD_eq_getElem _ _ (by simpa using hI'), List.getElem_map] at this
  rw [List.getD_eq_getElem _ _ hI2, this]
  unfold lagrange
  rw [list_prod_cell c hn nv hv _ (fun v hv' => by rw [weight_not_mem c _ v hv']; simp [lag]), hl]
  congr 1
  refine List.map_congr_left fun k hk => ?_
  have hk := List.mem_range.1 hk
  rw [weight_node p dim h1 h3 d1 d3 c hl hn I k hI hk, weight_getD c lam hn (by omega) k (by omega), List.getD_eq_getElem _ _ hI']
  simp

/-- Where a Lagrange function does not vanish the vertices of its node have weight. -/
theorem lagrange_support (I : Nat) (hI : I < (nodes ℚ p dim).length) (W : Nat → ℚ)
    (h : lagrange p nv (weight unit c ((nodes ℚ p dim).getD I [])) W ≠ 0) (v : Nat) (hvn : v < nv) (hw : weight unit c ((nodes ℚ p dim).getD I []) v ≠ 0) : W v ≠ 0 := by
  intro h0
  have hf := Finset.prod_ne_zero_iff.1 h v (Finset.mem_range.2 hvn)
  rw [h0, mul_zero] at hf
  have hmem : v ∈ c := by by_contra hm; exact hw (weight_not_mem c _ v hm)
  obtain ⟨k, hk, rfl⟩ := List.mem_iff_getElem.1 hmem
  have e := weight_node p dim h1 h3 d1 d3 c hl hn I k hI (by omega)
  rw [List.getD_eq_getElem _ _ hk] at e
  refine hf (lag_zero_right _ ?_)
  rw [e]
  intro h'
  simp only [Rat.num_natCast, Int.toNat_natCast] at h'
  rw [h'] at e
  have : (p : ℚ) ≠ 0 := by positivity
  simp [this] at e
  exact hw e

/-- A node whose vertices all belong to the cell is a node of the cell. -/
theorem node_exists (c' : List Nat) (hl' : c'.length = dim + 1) (hn' : c'.Nodup) (hv' : ∀ v ∈ c', v < nv) (I' : Nat) (hI' : I' < (nodes ℚ p dim).length)
    (hs : ∀ v, v < nv → weight unit c' ((nodes ℚ p dim).getD I' []) v ≠ 0 → v ∈ c) :
    ∃ I, I < (nodes ℚ p dim).length ∧ ∀ v, v < nv → weight unit c ((nodes ℚ p dim).getD I []) v = weight unit c' ((nodes ℚ p dim).getD I' []) v := by
  have hp : (p : ℚ) ≠ 0 := by positivity
  have hnat : ∀ v, ∃ n : Nat, p * weight unit c' ((nodes ℚ p dim).getD I' []) v = n := fun v => by
    by_cases hm : v ∈ c'
    · obtain ⟨k, hk, rfl⟩ := List.mem_iff_getElem.1 hm
      have := weight_node p dim h1 h3 d1 d3 c' hl' hn' I' k hI' (by omega)
      rw [List.getD_eq_getElem _ _ hk] at this
      exact ⟨_, this⟩
    · exact ⟨0, by rw [weight_not_mem c' _ v hm]; simp⟩
  choose A hA using hnat
  set β := (List.range (dim + 1)).map fun k => A (c.getD k 0) with hβ
  have hsum : β.sum = p := by
    have e1 := list_sum_cell c' hn' nv hv' (fun v => (A v : ℚ)) (fun v hm => by rw [← hA, weight_not_mem c' _ v hm]; simp)
    have e2 := list_sum_cell c hn nv hv (fun v => (if v ∈ c then (A v : ℚ) else 0)) (fun v hm => if_neg hm)
    have e3 : ∑ v ∈ Finset.range nv, (A v : ℚ) = ∑ v ∈ Finset.range nv, (if v ∈ c then (A v : ℚ) else 0) := Finset.sum_congr rfl fun v hvn => by
      split
      · rfl
      · rename_i hm
        rw [← hA]
        by_contra h0
        exact hm (hs v (Finset.mem_range.1 hvn) (fun h => h0 (by rw [h, mul_zero])))
    obtain ⟨a1, a2, a3⟩ := multi_length p dim h1 h3 d1 d3 I' hI'
    have e4 : ((List.range c'.length).map fun k => (A (c'.getD k 0) : ℚ)).sum = p := by
      rw [← a2, hl', ← a1]
      have : ((List.range ((multi p dim).getD I' []).length).map fun k => (A (c'.getD k 0) : ℚ)) = ((multi p dim).getD I' []).map fun n : Nat => (n : ℚ) := by
        apply List.ext_getElem
        · simp
        · intro i h1' h2'
          simp only [List.length_map, List.length_range] at h1'
          rw [List.getElem_map, List.getElem_range, List.getElem_map, ← hA, weight_node p dim h1 h3 d1 d3 c' hl' hn' I' i hI' (by omega), List.getD_eq_getElem _ _ h1']
      rw [this]
      generalize (multi p dim).getD I' [] = l
      induction l with
      | nil => simp
      | cons a l ih => simp only [List.map_cons, List.sum_cons, ih, Nat.cast_add]
    have e5 : ((List.range c.length).map fun k => (if c.getD k 0 ∈ c then (A (c.getD k 0) : ℚ) else 0)) = β.map fun n : Nat => (n : ℚ) := by
      rw [hβ, hl, List.map_map]
      refine List.map_congr_left fun k hk => ?_
      have hk := List.mem_range.1 hk
      rw [if_pos]
      · rfl
      · rw [List.getD_eq_getElem _ _ (by omega)]; exact List.getElem_mem _
    rw [e4, e3, e2, e5] at e1
    have e6 : ∀ l : List Nat, (l.map fun n : Nat => (n : ℚ)).sum = (l.sum : Nat) := fun l => by
      induction l with
      | nil => simp
      | cons a l ih => simp only [List.map_cons, List.sum_cons, ih, Nat.cast_add]
    rw [e6] at e1
    exact_mod_cast e1
  have hmem := multi_all p dim h1 h3 d1 d3 β (by simp [hβ]) hsum
  obtain ⟨I, hI, e⟩ := List.mem_iff_getElem.1 hmem
  have hIn : I < (nodes ℚ p dim).length := by rw [nodes_multi' p dim h1 h3 d1 d3, List.length_map]; exact hI
  refine ⟨I, hIn, fun v hvn => ?_⟩
  by_cases hm : v ∈ c
  · obtain ⟨k, hk, rfl⟩ := List.mem_iff_getElem.1 hm
    have := weight_node p dim h1 h3 d1 d3 c hl hn I k hIn (by omega)
    rw [List.getD_eq_getElem _ _ hk, List.getD_eq_getElem _ _ hI, e, hβ] at this
    have e7 : ((List.range (dim + 1)).map fun k => A (c.getD k 0)).getD k 0 = A c[k] := by
      rw [List.getD_eq_getElem _ _ (by simp; omega), List.getElem_map, List.getElem_range, List.getD_eq_getElem _ _ hk]
    rw [e7, ← hA] at this
    exact mul_left_cancel₀ hp this
  · rw [weight_not_mem c _ v hm]
    by_contra h0
    exact hm (hs v hvn (fun h => h0 h.symm))

end

end PyNucleus.Restriction
