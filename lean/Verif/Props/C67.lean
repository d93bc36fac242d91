import Verif.Proof.QuadratureRules
import Verif.Props.C56
import Mathlib.Analysis.Real.Sqrt
import Mathlib.RingTheory.RootsOfUnity.Complex

/-!
# C67: quadrature rules
-/

namespace PyNucleus.Props.C67

open PyNucleus.SimplexGeometry PyNucleus.Quadrature
open PyNucleus.Simplex (inner)
open PyNucleus.Props.C56 (edgeDet IsSqrt)

variable {K : Type} [Field K]

/-- Nodes are mapped to the points with their barycentric coordinates. -/
theorem nodes_position (mdim : Nat) (R : Rule K) (S : Coords K) :
    nodesInGlobalCoords mdim R S = R.map (fun r m => ∑ k ∈ Finset.range (mdim + 1), r.1.getD k 0 * S k m) ∧
    ∀ idx : Nat → Nat, nodesInGlobalCoordsReorderer mdim R S idx = nodesInGlobalCoords mdim R (fun k => S (idx k)) :=
  ⟨List.map_congr_left fun r _ => funext fun m => position_eq mdim S r.1 m, fun _ => rfl⟩

section
variable [LinearOrder K] [IsStrictOrderedRing K]

/-- Volume of the simplex. -/
def Volume (dim mdim : Nat) (S : Coords K) (v : K) : Prop :=
  0 ≤ v ∧ ((mdim = 0 ∧ v = 1) ∨ (dim = mdim ∧ 1 ≤ dim ∧ dim ≤ 3 ∧ v = |edgeDet dim S| / dim.factorial) ∨
    (dim = 2 ∧ mdim = 1 ∧ v ^ 2 = inner 2 (diff S 1 0) (diff S 1 0)) ∨
    (dim = 3 ∧ mdim = 2 ∧ v ^ 2 = (inner 3 (diff S 1 0) (diff S 1 0) * inner 3 (diff S 2 0) (diff S 2 0) - inner 3 (diff S 1 0) (diff S 2 0) ^ 2) / 4))

theorem volume_spec (sqrt : K → K) (hq : IsSqrt sqrt) (dim mdim : Nat) (S : Coords K) (v : K) (h : simplexVolume sqrt dim mdim S = some v) : Volume dim mdim S v := by
  obtain ⟨v1, v2, v3⟩ := C56.volume S
  obtain ⟨e1, -, e3⟩ := C56.volume_embedded sqrt hq S
  unfold simplexVolume at h
  dsimp only at h
  split at h
  · rename_i h0
    injection h with h; subst h
    exact ⟨zero_le_one, Or.inl ⟨h0, rfl⟩⟩
  split at h
  · rename_i _ h0
    injection h with h; subst h
    refine ⟨abs_nonneg _, Or.inr (Or.inl ⟨by omega, by omega, by omega, ?_⟩)⟩
    rw [h0.1]
    have := v1.1
    unfold simplexVolume1D at this
    simpa using this
  split at h
  · rename_i _ _ h0
    injection h with h; subst h
    obtain ⟨a, b⟩ := e1 (simplexVolume1Din2D sqrt S) (by simp)
    exact ⟨a, Or.inr (Or.inr (Or.inl ⟨h0.1, h0.2, b⟩))⟩
  split at h
  · rename_i _ _ _ h0
    injection h with h; subst h
    have := v2.1
    unfold simplexVolume2D at this
    refine ⟨?_, Or.inr (Or.inl ⟨by omega, by omega, by omega, ?_⟩)⟩
    · unfold volume2Dnew; positivity
    · rw [h0.1]
      norm_num [Nat.factorial]
      exact this
  split at h
  · rename_i _ _ _ _ h0
    injection h with h; subst h
    have := v3.1
    unfold simplexVolume3D at this
    refine ⟨?_, Or.inr (Or.inl ⟨by omega, by omega, by omega, ?_⟩)⟩
    · unfold volume3Dnew; positivity
    · rw [h0.1]
      norm_num [Nat.factorial]
      exact this
  split at h
  · rename_i _ _ _ _ _ h0
    injection h with h; subst h
    obtain ⟨a, b⟩ := e3 (simplexVolume2Din3D sqrt S) (by simp)
    exact ⟨a, Or.inr (Or.inr (Or.inr ⟨h0.1, h0.2, b⟩))⟩
  · cases h

/-- `integrate` of a polynomial up to the degree of exactness is volume times mean value. -/
theorem integrate_exact (sqrt : K → K) (hq : IsSqrt sqrt) (dim mdim p : Nat)
    (hd : mdim = 0 ∨ (dim = mdim ∧ 1 ≤ dim ∧ dim ≤ 3) ∨ (dim = 2 ∧ mdim = 1) ∨ (dim = 3 ∧ mdim = 2)) (R : Rule K) (hR : ExactTo mdim p R)
    (f : MvPolynomial (Fin dim) K) (hf : f.totalDegree ≤ p) (S : Coords K) :
    ∃ v, Volume dim mdim S v ∧ integrate sqrt dim mdim R (fun x => MvPolynomial.eval (fun m : Fin dim => x m) f) S = some (v * mean K mdim (pullback mdim dim S f)) := by
  have hv : ∃ v, simplexVolume sqrt dim mdim S = some v := by
    unfold simplexVolume
    dsimp only
    split; · exact ⟨_, rfl⟩
    split; · exact ⟨_, rfl⟩
    split; · exact ⟨_, rfl⟩
    split; · exact ⟨_, rfl⟩
    split; · exact ⟨_, rfl⟩
    split; · exact ⟨_, rfl⟩
    omega
  obtain ⟨v, hv⟩ := hv
  refine ⟨v, volume_spec sqrt hq dim mdim S v hv, ?_⟩
  unfold integrate
  rw [hv, Option.map_some, eval_evalFun, ← hR.exact _ ((pullback_degree mdim dim S f).trans hf), mul_comm]
  simp only [pullback_eval]

end

/-- Rules can be joined. -/
theorem add_eval (mdim : Nat) (R Q : Rule K) (f : Vec K → K) (S : Coords K) (vol : K) :
    eval (add R Q) (evalFun mdim (add R Q) f S) vol = eval R (evalFun mdim R f S) vol + eval Q (evalFun mdim Q f S) vol := by
  rw [eval_evalFun, eval_evalFun, eval_evalFun]
  unfold add
  rw [List.map_append, List.sum_append, add_mul]

/-- A transformed rule takes the values of the function on the transformed simplex. -/
theorem transform_values (mdim : Nat) (A : Nat → Nat → K) (b : Nat → K) (R : Rule K) (hR : ∀ r ∈ R, r.1.length = mdim + 1 ∧ r.1.sum = 1) {α : Type} (f : Vec K → α) (S : Coords K) :
    evalFun mdim (transform mdim A b R) f S = evalFun mdim R f (fun j m => ∑ k ∈ Finset.range (mdim + 1), (A k j + b k) * S k m) ∧
      (transform mdim A b R).map Prod.snd = R.map Prod.snd := by
  constructor
  · unfold evalFun transform
    rw [List.map_map]
    refine List.map_congr_left fun r hr => ?_
    simp only [Function.comp]
    congr 1
    funext m
    rw [position_eq, position_eq]
    have hs : ∑ j ∈ Finset.range (mdim + 1), r.1.getD j 0 = 1 := by
      rw [← (hR r hr).2, ← (hR r hr).1]
      generalize r.1 = l
      induction l with
      | nil => simp
      | cons a l ih => rw [List.length_cons, Finset.sum_range_succ', List.sum_cons, ← ih]; simp [add_comm]
    have e : ∀ k ∈ Finset.range (mdim + 1), ((List.range (mdim + 1)).map fun k => (List.range (mdim + 1)).foldl (fun x j => x + A k j * r.1.getD j 0) (b k)).getD k 0 * S k m =
        ∑ j ∈ Finset.range (mdim + 1), r.1.getD j 0 * ((A k j + b k) * S k m) := fun k hk => by
      have hk := Finset.mem_range.1 hk
      rw [List.getD_eq_getElem _ _ (by simpa using hk), List.getElem_map, List.getElem_range, foldl_sum]
      have : b k = ∑ j ∈ Finset.range (mdim + 1), r.1.getD j 0 * b k := by rw [← Finset.sum_mul, hs, one_mul]
      conv => lhs; rw [this]
      rw [show ((List.range (mdim + 1)).map fun j => A k j * r.1.getD j 0).sum = ∑ j ∈ Finset.range (mdim + 1), A k j * r.1.getD j 0 from rfl, ← Finset.sum_add_distrib,
        Finset.sum_mul]
      exact Finset.sum_congr rfl fun j _ => by ring
    rw [Finset.sum_congr rfl e, Finset.sum_comm]
    exact Finset.sum_congr rfl fun j _ => by rw [Finset.mul_sum]
  · unfold transform
    rw [List.map_map]
    rfl

section
variable [LinearOrder K] [IsStrictOrderedRing K]

private theorem foldl_zip (l m : List K) (a : K) : (l.zip m).foldl (fun I p => I + p.1 * p.2) a = a + ((l.zip m).map fun p => p.1 * p.2).sum := by
  generalize l.zip m = L
  induction L generalizing a with
  | nil => simp
  | cons r L ih => rw [List.foldl_cons, ih, List.map_cons, List.sum_cons]; ring

/-- The rule for pairs of simplices is the iterated rule. -/
theorem double_iterated (sqrt : K → K) (dim1 dim2 : Nat) (R Q : Rule K) (f : Vec K → K) (S T : Coords K) (v1 v2 : K) (h1 : simplexVolume sqrt dim1 dim1 S = some v1)
    (h2 : simplexVolume sqrt dim2 dim2 T = some v2) :
    doubleIntegrate sqrt dim1 dim1 dim2 dim2 R Q f S T =
      integrate sqrt dim1 dim1 R (fun x => eval Q (evalFun dim2 Q (fun y => f fun m => if m < dim1 then x m else y (m - dim1)) T) v2) S := by
  unfold doubleIntegrate integrate
  rw [if_pos ⟨le_rfl, le_rfl⟩, h1, h2]
  simp only [Option.bind_some, Option.map_some]
  rw [eval_evalFun, foldl_zip, zero_add]
  simp only [eval_evalFun]
  congr 1
  have e : ((doubleWeights R Q).zip (doubleEvalFun dim1 dim2 R Q f S T)).map (fun p => p.1 * p.2) =
      R.flatMap fun p => Q.map fun q => p.2 * q.2 * f fun m => if m < dim1 then position dim1 S p.1 m else position dim2 T q.1 (m - dim1) := by
    unfold doubleWeights doubleEvalFun
    induction R with
    | nil => simp
    | cons p R ih =>
      rw [List.flatMap_cons, List.flatMap_cons, List.flatMap_cons, List.zip_append (by simp), List.map_append, ih]
      congr 1
      rw [List.zip_map', List.map_map]
      rfl
  rw [e]
  have hs : ∀ (p : List K × K), (Q.map fun q => p.2 * q.2 * f fun m => if m < dim1 then position dim1 S p.1 m else position dim2 T q.1 (m - dim1)).sum =
      p.2 * (Q.map fun q => q.2 * f fun m => if m < dim1 then position dim1 S p.1 m else position dim2 T q.1 (m - dim1)).sum := fun p => by
    generalize Q = Q'
    induction Q' with
    | nil => simp
    | cons q Q ih => simp only [List.map_cons, List.sum_cons, ih]; ring
  clear e
  induction R with
  | nil => simp
  | cons p R ih => rw [List.flatMap_cons, List.sum_append, List.map_cons, List.sum_cons, add_mul, add_mul, ih, hs]; ring

/-- With a surface in place of one of the simplices nodes are read outside of the array. -/
theorem double_fails : ∃ (R Q : Rule ℚ) (S T : Coords ℚ), ExactTo 1 1 R ∧ doubleIntegrate (fun x => x) 2 1 1 1 R Q (fun _ => 1) S T = none := by
  refine ⟨[([1 / 2, 1 / 2], 1)], [], fun _ _ => 0, fun _ _ => 0, ⟨fun r hr => ?_, ?_⟩, by decide⟩
  · rw [List.mem_singleton.1 hr]; exact ⟨rfl, by norm_num⟩
  refine exact_of_monomials 1 1 _ fun α hα => ?_
  rw [Fin.sum_univ_two] at hα
  have : α 0 = 0 ∧ α 1 = 0 ∨ α 0 = 1 ∧ α 1 = 0 ∨ α 0 = 0 ∧ α 1 = 1 := by omega
  rw [weight_one]
  simp only [Fin.prod_univ_succ, Fin.prod_univ_zero, Fin.succ_zero_eq_one, List.map_cons, List.map_nil, List.sum_cons, List.sum_nil]
  rcases this with h | h | h <;> rw [h.1, h.2] <;> norm_num [Nat.factorial]

end

section
variable [CharZero K]

/-- `Gauss1D(order)` is exact to its order; even orders are refused. -/
theorem gauss1D_exact (pRoots : Nat → List (K × K)) (order : Nat) :
    (order % 2 = 1 → IsLegendre ((order + 1) / 2) (pRoots ((order + 1) / 2)) → ∃ R, gauss1D pRoots order = some R ∧ ExactTo 1 order R) ∧
    (order % 2 = 0 → gauss1D pRoots order = none) := by
  constructor
  · intro ho hL
    set k := (order + 1) / 2 with hk
    refine ⟨_, by unfold gauss1D; rw [if_neg (by omega)], ?_, ?_⟩
    · intro r hr
      obtain ⟨p, -, rfl⟩ := List.mem_map.1 hr
      exact ⟨rfl, by simp⟩
    refine exact_of_monomials 1 order _ fun α hα => ?_
    rw [Fin.sum_univ_two] at hα
    have hmom := jacobi_moments ((pRoots k).map fun p => ((p.1 + 1) / 2, p.2 / 2)) order 0 (fun n hn => by
      rw [legendre_moments k _ hL n (by omega), Nat.add_zero, Nat.factorial_succ n]
      have hf : (n.factorial : K) ≠ 0 := by exact_mod_cast Nat.factorial_ne_zero n
      have hn1 : (n : K) + 1 ≠ 0 := by exact_mod_cast Nat.succ_ne_zero n
      push_cast
      simp only [Nat.factorial_zero, Nat.cast_one]
      field_simp) (α 1) (α 0) hα
    rw [weight_one]
    rw [List.map_map] at hmom
    rw [List.map_map]
    simp only [Nat.add_zero] at hmom
    rw [← hmom]
    congr 1
    refine List.map_congr_left fun p _ => ?_
    simp [Function.comp, Fin.prod_univ_two]
  · intro ho
    unfold gauss1D
    exact if_pos (by omega)

end

section
variable [CharZero K]

/-- `Gauss2D` is exact to orders 2 and 5; other orders are refused. -/
theorem gauss2D_exact (s : K) (hs : s ^ 2 = 15) (order : Nat) :
    (order = 2 ∨ order = 5 → ∃ R, gauss2D s order = some R ∧ ExactTo 2 order R) ∧ (order ≠ 2 ∧ order ≠ 5 → gauss2D s order = none) := by
  have hv : ∀ x : ℚ, val s (x, 0) = (x : K) := fun x => by unfold val; simp
  refine ⟨fun h => ?_, fun h => ?_⟩
  · rcases h with rfl | rfl
    · refine ⟨_, rfl, ?_, ?_⟩
      · intro r hr
        simp only [List.mem_cons, List.not_mem_nil, or_false] at hr
        rcases hr with rfl | rfl | rfl <;> exact ⟨rfl, by norm_num⟩
      · intro q hq
        rw [← exact_two s hs 2 rule2 (by decide) rule2_moments q hq]
        simp [rule2, hv]
    · refine ⟨_, rfl, ?_, ?_⟩
      · intro r hr
        simp only [List.mem_cons, List.not_mem_nil, or_false] at hr
        rcases hr with rfl | rfl | rfl | rfl | rfl | rfl | rfl <;> exact ⟨rfl, by simp only [List.sum_cons, List.sum_nil]; ring⟩
      · intro q hq
        rw [← exact_two s hs 5 rule5 (by decide) rule5_moments q hq]
        have e1 : val s (2 / 7, -(1 / 21)) = (6 - s) / 21 := by unfold val; push_cast; ring
        have e2 : val s (2 / 7, 1 / 21) = (6 + s) / 21 := by unfold val; push_cast; ring
        have e3 : val s (3 / 7, 2 / 21) = 1 - 2 * ((6 - s) / 21) := by unfold val; push_cast; ring
        have e4 : val s (3 / 7, -(2 / 21)) = 1 - 2 * ((6 + s) / 21) := by unfold val; push_cast; ring
        have e5 : val s (31 / 240, -(1 / 1200)) = (155 - s) / 1200 := by unfold val; push_cast; ring
        have e6 : val s (31 / 240, 1 / 1200) = (155 + s) / 1200 := by unfold val; push_cast; ring
        have e7 : val s (1 / 3, 0) = 1 / 3 := by rw [hv]; norm_num
        have e8 : val s (9 / 40, 0) = 9 / 40 := by rw [hv]; norm_num
        simp only [rule5, List.map_cons, List.map_nil, e1, e2, e3, e4, e5, e6, e7, e8]
  · unfold gauss2D
    rw [if_neg h.1, if_neg h.2]

/-- `Gauss3D` is exact to order 3; other orders are refused. -/
theorem gauss3D_exact (order : Nat) : (order = 3 → ∃ R, gauss3D (K := K) order = some R ∧ ExactTo 3 order R) ∧ (order ≠ 3 → gauss3D (K := K) order = none) := by
  refine ⟨fun h => ?_, fun h => ?_⟩
  · subst h
    refine ⟨_, rfl, ?_, ?_⟩
    · intro r hr
      simp only [List.mem_cons, List.not_mem_nil, or_false] at hr
      rcases hr with rfl | rfl | rfl | rfl | rfl <;> exact ⟨rfl, by norm_num⟩
    · intro q hq
      rw [← exact_three 3 rule3 (by decide) rule3_moments q hq]
      simp [rule3]
  · unfold gauss3D
    rw [if_neg h]

/-- `simplexDuffyTransformation(order, dim, manifold_dim)` is exact to the order. -/
theorem duffy_exact (jsRoots : Nat → Nat → Nat → List (K × K)) (order mdim : Nat)
    (hJ : ∀ d, d < mdim → IsJacobi (numNodes (order + mdim - d - 1)) (mdim - d) 1 (jsRoots (numNodes (order + mdim - d - 1)) (mdim - d) 1)) :
    (mdim ≤ 3 → ∃ R, duffy jsRoots order mdim = some R ∧ ExactTo mdim order R) ∧ (3 < mdim → duffy jsRoots order mdim = none) := by
  refine ⟨fun hm => ?_, fun hm => ?_⟩
  · have hw : ∀ x : ℚ, ((2 * x : ℚ) : K) = 2 * (x : K) := fun x => by push_cast; ring
    interval_cases mdim
    · refine ⟨_, rfl, ?_, exact_of_monomials 0 order _ fun α _ => ?_⟩
      · intro r hr
        rw [List.mem_singleton.1 hr]
        exact ⟨rfl, by simp⟩
      · unfold Simplex.weight
        have : ((α 0).factorial : ℚ) ≠ 0 := by exact_mod_cast Nat.factorial_ne_zero _
        simp [this]
    · refine ⟨_, rfl, ?_, exact_of_monomials 1 order _ fun α hα => ?_⟩
      · intro r hr
        obtain ⟨p, hp, rfl⟩ := List.mem_map.1 hr
        match p.1, product_length _ p hp with
        | [a], _ => rw [duffy_one]; exact ⟨rfl, by simp⟩
      rw [Fin.sum_univ_two] at hα
      have h0 := jacobi_sum _ 0 _ (hJ 0 (by omega)) (α 1) (α 0) (by have := numNodes_le (order + 1 - 0 - 1); omega)
      have hp := product_sum [jsRoots (numNodes (order + 1 - 0 - 1)) 1 1] (fun _ x => x ^ α 1 * (1 - x) ^ α 0)
      rw [weight_one]
      simp only [List.length_cons, List.length_nil, zero_add, List.range_one, List.map_cons, List.map_nil, List.prod_cons, List.prod_nil, mul_one, List.getD_cons_zero] at hp
      rw [h0] at hp
      rw [show ((α 0).factorial * (α 1).factorial / (α 0 + α 1 + 1).factorial : ℚ) = ((α 1).factorial * (α 0 + 0).factorial / (α 1 + α 0 + 0 + 1).factorial : ℚ) by
        rw [add_zero, add_zero, Nat.add_comm (α 1)]; ring, ← hp, List.map_map]
      refine congrArg List.sum (List.map_congr_left fun p hp => ?_)
      rcases p with ⟨x, w⟩
      match x, product_length _ _ hp with
      | [a], _ => simp [Function.comp, duffy_one, Fin.prod_univ_succ, mul_comm ((1 - a) ^ α 0)]
    · refine ⟨_, rfl, ?_, exact_of_monomials 2 order _ fun α hα => ?_⟩
      · intro r hr
        obtain ⟨p, hp, rfl⟩ := List.mem_map.1 hr
        match p.1, product_length _ p hp with
        | [a, b], _ => rw [duffy_two]; exact ⟨rfl, by simp only [List.sum_cons, List.sum_nil]; ring⟩
      rw [Fin.sum_univ_three] at hα
      have h0 := jacobi_sum _ 1 _ (hJ 0 (by omega)) (α 1) (α 0 + α 2) (by have := numNodes_le (order + 2 - 0 - 1); omega)
      have h1 := jacobi_sum _ 0 _ (hJ 1 (by omega)) (α 2) (α 0) (by have := numNodes_le (order + 2 - 1 - 1); omega)
      have hp := product_sum [jsRoots (numNodes (order + 2 - 0 - 1)) 2 1, jsRoots (numNodes (order + 2 - 1 - 1)) 1 1]
        (fun k x => if k = 0 then x ^ α 1 * (1 - x) ^ (α 0 + α 2) else x ^ α 2 * (1 - x) ^ α 0)
      rw [weight_two]
      simp only [List.length_cons, List.length_nil, zero_add, Nat.reduceAdd, List.range_succ, List.range_zero, List.nil_append, List.cons_append, List.map_cons, List.map_nil, List.prod_cons,
        List.prod_nil, mul_one, List.getD_cons_zero, List.getD_cons_succ, if_true, one_ne_zero, if_false] at hp
      rw [h0, h1] at hp
      have hf : ∀ n : Nat, (n.factorial : ℚ) ≠ 0 := fun n => by exact_mod_cast Nat.factorial_ne_zero n
      rw [show (2 * ((α 0).factorial * (α 1).factorial * (α 2).factorial) / (α 0 + α 1 + α 2 + 2).factorial : ℚ) =
          2 * (((α 1).factorial * (α 0 + α 2 + 1).factorial / (α 1 + (α 0 + α 2) + 1 + 1).factorial : ℚ) * ((α 2).factorial * (α 0 + 0).factorial / (α 2 + α 0 + 0 + 1).factorial : ℚ)) by
        rw [show α 1 + (α 0 + α 2) + 1 + 1 = α 0 + α 1 + α 2 + 2 by omega, show α 2 + α 0 + 0 + 1 = α 0 + α 2 + 1 by omega, add_zero]
        have := hf (α 0 + α 2 + 1)
        have := hf (α 0 + α 1 + α 2 + 2)
        field_simp, hw, Rat.cast_mul, ← hp, List.map_map, ← sum_mul_left]
      refine congrArg List.sum (List.map_congr_left fun p hp => ?_)
      rcases p with ⟨x, w⟩
      match x, product_length _ _ hp with
      | [a, b], _ => simp [Function.comp, duffy_two, Fin.prod_univ_succ, mul_pow, pow_add]; ring
    · refine ⟨_, rfl, ?_, exact_of_monomials 3 order _ fun α hα => ?_⟩
      · intro r hr
        obtain ⟨p, hp, rfl⟩ := List.mem_map.1 hr
        match p.1, product_length _ p hp with
        | [a, b, c], _ => rw [duffy_three]; exact ⟨rfl, by simp only [List.sum_cons, List.sum_nil]; ring⟩
      rw [Fin.sum_univ_four] at hα
      have h0 := jacobi_sum _ 2 _ (hJ 0 (by omega)) (α 1) (α 0 + α 2 + α 3) (by have := numNodes_le (order + 3 - 0 - 1); omega)
      have h1 := jacobi_sum _ 1 _ (hJ 1 (by omega)) (α 2) (α 0 + α 3) (by have := numNodes_le (order + 3 - 1 - 1); omega)
      have h2 := jacobi_sum _ 0 _ (hJ 2 (by omega)) (α 3) (α 0) (by have := numNodes_le (order + 3 - 2 - 1); omega)
      have hp := product_sum [jsRoots (numNodes (order + 3 - 0 - 1)) 3 1, jsRoots (numNodes (order + 3 - 1 - 1)) 2 1, jsRoots (numNodes (order + 3 - 2 - 1)) 1 1]
        (fun k x => if k = 0 then x ^ α 1 * (1 - x) ^ (α 0 + α 2 + α 3) else if k = 1 then x ^ α 2 * (1 - x) ^ (α 0 + α 3) else x ^ α 3 * (1 - x) ^ α 0)
      rw [weight_three]
      simp only [List.length_cons, List.length_nil, zero_add, Nat.reduceAdd, List.range_succ, List.range_zero, List.nil_append, List.cons_append, List.map_cons, List.map_nil, List.prod_cons,
        List.prod_nil, mul_one, List.getD_cons_zero, List.getD_cons_succ, if_true, one_ne_zero, OfNat.ofNat_ne_zero, OfNat.ofNat_ne_one, if_false] at hp
      rw [h0, h1, h2] at hp
      have hf : ∀ n : Nat, (n.factorial : ℚ) ≠ 0 := fun n => by exact_mod_cast Nat.factorial_ne_zero n
      have hw6 : ∀ x : ℚ, ((6 * x : ℚ) : K) = 6 * (x : K) := fun x => by push_cast; ring
      rw [show (6 * ((α 0).factorial * (α 1).factorial * (α 2).factorial * (α 3).factorial) / (α 0 + α 1 + α 2 + α 3 + 3).factorial : ℚ) =
          6 * (((α 1).factorial * (α 0 + α 2 + α 3 + 2).factorial / (α 1 + (α 0 + α 2 + α 3) + 2 + 1).factorial : ℚ) *
            (((α 2).factorial * (α 0 + α 3 + 1).factorial / (α 2 + (α 0 + α 3) + 1 + 1).factorial : ℚ) * ((α 3).factorial * (α 0 + 0).factorial / (α 3 + α 0 + 0 + 1).factorial : ℚ))) by
        rw [show α 1 + (α 0 + α 2 + α 3) + 2 + 1 = α 0 + α 1 + α 2 + α 3 + 3 by omega, show α 2 + (α 0 + α 3) + 1 + 1 = α 0 + α 2 + α 3 + 2 by omega,
          show α 3 + α 0 + 0 + 1 = α 0 + α 3 + 1 by omega, add_zero]
        have := hf (α 0 + α 3 + 1)
        have := hf (α 0 + α 2 + α 3 + 2)
        have := hf (α 0 + α 1 + α 2 + α 3 + 3)
        field_simp, hw6, Rat.cast_mul, Rat.cast_mul, ← hp, List.map_map, ← sum_mul_left]
      refine congrArg List.sum (List.map_congr_left fun p hp => ?_)
      rcases p with ⟨x, w⟩
      match x, product_length _ _ hp with
      | [a, b, c], _ => simp [Function.comp, duffy_three, Fin.prod_univ_succ, mul_pow, pow_add]; ring
  · unfold duffy
    rw [if_neg (by omega)]
    dsimp only
    rw [if_neg (by omega), if_neg (by omega), if_neg (by omega)]

/-- `simplexXiaoGimbutas(order, dim, manifold_dim)` is exact if the tables are exact on the simplex with vertices from -1 to 1, of volume `2 ^ d / d!`. -/
theorem xiaoGimbutas_exact (jsRoots : Nat → Nat → Nat → List (K × K)) (table : Nat → Nat → Rule K) (order mdim : Nat) (hm : mdim ≤ 3)
    (hJ : ∀ d, d < mdim → mdim = 1 → IsJacobi (numNodes order) 1 1 (jsRoots (numNodes order) 1 1))
    (hT : 2 ≤ mdim → (∀ r ∈ table order mdim, r.1.length = mdim + 1 ∧ r.1.sum = 1) ∧ ∀ q : MvPolynomial (Fin (mdim + 1)) K, q.totalDegree ≤ order →
      ((table order mdim).map fun r => r.2 * MvPolynomial.eval (fun i : Fin (mdim + 1) => r.1.getD i 0) q).sum = 2 ^ mdim / mdim.factorial * mean K mdim q) :
    ∃ R, xiaoGimbutas jsRoots table order mdim = some R ∧ ExactTo mdim order R := by
  have hs : ∀ (c : K) (q : MvPolynomial (Fin (mdim + 1)) K), (((table order mdim).map fun p => (p.1, p.2 * c)).map fun r => r.2 * MvPolynomial.eval (fun i : Fin (mdim + 1) => r.1.getD i 0) q).sum =
      c * ((table order mdim).map fun r => r.2 * MvPolynomial.eval (fun i : Fin (mdim + 1) => r.1.getD i 0) q).sum := fun c q => by
    rw [List.map_map, ← sum_mul_left]
    exact congrArg List.sum (List.map_congr_left fun p _ => by simp only [Function.comp]; ring)
  have hn : ∀ c : K, 2 ≤ mdim → ∀ r ∈ (table order mdim).map (fun p => (p.1, p.2 * c)), r.1.length = mdim + 1 ∧ r.1.sum = 1 := fun c h r hr => by
    obtain ⟨p, hp, rfl⟩ := List.mem_map.1 hr
    exact (hT h).1 p hp
  interval_cases mdim
  · exact (duffy_exact jsRoots order 0 (fun d hd => by omega)).1 (by omega)
  · exact (duffy_exact jsRoots order 1 (fun d hd => by obtain rfl : d = 0 := by omega
                                                       exact hJ 0 hd rfl)).1 (by omega)
  · refine ⟨_, rfl, hn _ le_rfl, fun q hq => ?_⟩
    rw [hs, (hT le_rfl).2 q hq, ← mul_assoc]
    norm_num [Nat.factorial]
  · refine ⟨_, rfl, hn _ (by omega), fun q hq => ?_⟩
    rw [hs, (hT (by omega)).2 q hq, ← mul_assoc]
    norm_num [Nat.factorial]

/-- `Gauss(order, dim)` integrates products of powers over the unit cube. -/
theorem gauss_exact (pRoots : Nat → List (K × K)) (order dim : Nat) (hL : IsLegendre (numNodes order) (pRoots (numNodes order))) (n : Nat → Nat) (hn : ∀ m, m < dim → n m ≤ order) :
    ((gauss pRoots order dim).map fun r => r.2 * ((List.range dim).map fun m => r.1.getD m 0 ^ n m).prod).sum = ((List.range dim).map fun m => 1 / (n m + 1 : K)).prod := by
  have hp := product_sum (List.replicate dim ((pRoots (numNodes order)).map fun p => ((p.1 + 1) / 2, p.2 / 2))) (fun m x => x ^ n m)
  rw [List.length_replicate] at hp
  unfold gauss
  rw [hp]
  refine congrArg List.prod (List.map_congr_left fun m hm => ?_)
  rw [List.mem_range] at hm
  have h2 := numNodes_le order
  have h3 := hn m hm
  rw [List.getD_eq_getElem _ _ (by simpa using hm), List.getElem_replicate, legendre_moments _ _ hL (n m) (by unfold numNodes at h2 ⊢; dsimp only at h2 ⊢; split <;> omega)]

end

/-- A rule on the cube with one node on an interval. -/
theorem quad_partial [LinearOrder K] (x w : K) (f : Vec K → K) (V : Coords K) :
    quadIntegrate 1 [([x], w)] f V = some (w * f (fun m => V 0 m + x * (V 1 m - V 0 m)) * |V 1 0 - V 0 0|) := by
  unfold quadIntegrate quadEvalFun quadVolume eval
  simp [nodeAt]

/-- All other rules `Gauss(order, dim)` read outside of their array. -/
theorem quad_fails [LinearOrder K] (pRoots : Nat → List (K × K)) (order dim : Nat) (hk : (pRoots (numNodes order)).length = numNodes order)
    (h : 2 ≤ dim ∨ (dim = 1 ∧ 2 ≤ order)) (f : Vec K → K) (V : Coords K) : quadIntegrate dim (gauss pRoots order dim) f V = none := by
  have hl := product_length (List.replicate dim ((pRoots (numNodes order)).map fun p => ((p.1 + 1) / 2, p.2 / 2)))
  have hc := product_number (List.replicate dim ((pRoots (numNodes order)).map fun p => ((p.1 + 1) / 2, p.2 / 2)))
  rw [List.length_replicate] at hl
  rw [List.map_replicate, List.prod_replicate, List.length_map, hk] at hc
  unfold quadIntegrate
  have : quadEvalFun dim (gauss pRoots order dim) f V = none := by
    unfold quadEvalFun gauss
    set R := productRule (List.replicate dim ((pRoots (numNodes order)).map fun p => ((p.1 + 1) / 2, p.2 / 2)))
    by_cases h1 : numNodes order = 1
    · rw [h1, one_pow] at hc
      refine mapM_none _ _ 0 (List.mem_range.2 (by omega)) ?_
      rw [foldlM_none _ _ 1 (List.mem_range.2 (by unfold numNodes at h1; dsimp only at h1; split at h1 <;> omega)) fun x => ?_, Option.map_none]
      unfold nodeAt
      rw [List.getElem?_eq_none (by omega), Option.bind_none, Option.map_none]
    · have h2 : 2 ≤ numNodes order := by
        have : numNodes order ≠ 0 := by unfold numNodes; dsimp only; split <;> omega
        omega
      have h3 : dim < R.length := by rw [hc]; exact Nat.lt_pow_self h2
      refine mapM_none _ _ dim (List.mem_range.2 h3) ?_
      rw [foldlM_none _ _ 0 (List.mem_range.2 (by omega)) fun x => ?_, Option.map_none]
      unfold nodeAt
      rw [List.getElem?_eq_getElem (by omega), Option.bind_some, List.getElem?_eq_none (by rw [hl _ (List.getElem_mem _)]), Option.map_none]
  rw [this, Option.bind_none]

/-- The rule on the circle: the nodes are on the circle, the weights have its length as sum, and the real and imaginary parts of powers of `x + i y`, which together with
powers of the radius span all polynomials, have sum zero like their integrals as long as the exponent is less than the number of nodes. -/
theorem spherical_exact (r : ℝ) (n : Nat) (hn : 0 < n) :
    (∀ q ∈ spherical2D Real.cos Real.sin Real.pi r n, ∃ x y, q.1 = [x, y] ∧ x ^ 2 + y ^ 2 = r ^ 2) ∧
    ((spherical2D Real.cos Real.sin Real.pi r n).map Prod.snd).sum = 2 * Real.pi * r ∧
    (∀ k, 0 < k → k < n →
      ((spherical2D Real.cos Real.sin Real.pi r n).map fun q => ((q.2 : ℝ) : ℂ) * (((q.1.getD 0 0 : ℝ) : ℂ) + ((q.1.getD 1 0 : ℝ) : ℂ) * Complex.I) ^ k).sum = 0) ∧
    ∀ f : Vec ℝ → ℝ, ((spherical1D r).map fun q => q.2 * f fun m => q.1.getD m 0).sum = f (fun m => [-r].getD m 0) + f fun m => [r].getD m 0 := by
  have hn0 : (n : ℂ) ≠ 0 := by exact_mod_cast hn.ne'
  refine ⟨?_, ?_, ?_, ?_⟩
  · intro q hq
    obtain ⟨i, -, rfl⟩ := List.mem_map.1 hq
    exact ⟨_, _, rfl, by rw [mul_pow, mul_pow, ← mul_add, Real.cos_sq_add_sin_sq, mul_one]⟩
  · unfold spherical2D
    rw [List.map_map]
    have : (Prod.snd ∘ fun i : Nat => (([r * Real.cos (2 * Real.pi * i / n), r * Real.sin (2 * Real.pi * i / n)], 2 * Real.pi * r / n) : List ℝ × ℝ)) =
        fun _ => 2 * Real.pi * r / n := rfl
    have h2 : (n : ℝ) ≠ 0 := by exact_mod_cast hn.ne'
    show ((List.range n).map (Prod.snd ∘ fun i : Nat => (([r * Real.cos (2 * Real.pi * i / n), r * Real.sin (2 * Real.pi * i / n)], 2 * Real.pi * r / n) : List ℝ × ℝ))).sum = _
    rw [this, List.map_const', List.sum_replicate, List.length_range, nsmul_eq_mul]
    field_simp
  · intro k hk hkn
    unfold spherical2D
    rw [List.map_map]
    have hz := Complex.isPrimitiveRoot_exp n hn.ne'
    set ω := Complex.exp (2 * Real.pi * Complex.I / n) with hω
    have e : ∀ i ∈ List.range n, ((fun q : List ℝ × ℝ => ((q.2 : ℝ) : ℂ) * (((q.1.getD 0 0 : ℝ) : ℂ) + ((q.1.getD 1 0 : ℝ) : ℂ) * Complex.I) ^ k) ∘ fun i : Nat =>
        (([r * Real.cos (2 * Real.pi * i / n), r * Real.sin (2 * Real.pi * i / n)], 2 * Real.pi * r / n) : List ℝ × ℝ)) i =
        ((2 * Real.pi * r / n : ℝ) : ℂ) * (r : ℂ) ^ k * (ω ^ k) ^ i := fun i _ => by
      have h1 : (((r * Real.cos (2 * Real.pi * i / n) : ℝ) : ℂ) + ((r * Real.sin (2 * Real.pi * i / n) : ℝ) : ℂ) * Complex.I) = r * ω ^ i := by
        rw [hω, ← Complex.exp_nat_mul, show (i : ℂ) * (2 * Real.pi * Complex.I / n) = ((2 * Real.pi * i / n : ℝ) : ℂ) * Complex.I by push_cast; ring, Complex.exp_mul_I]
        push_cast
        ring
      simp only [Function.comp, List.getD_cons_zero, List.getD_cons_succ]
      rw [h1, mul_pow, ← pow_mul, ← pow_mul, mul_comm i k]
      ring
    show ((List.range n).map _).sum = 0
    rw [List.map_congr_left e]
    rw [show ((List.range n).map fun i => ((2 * Real.pi * r / n : ℝ) : ℂ) * (r : ℂ) ^ k * (ω ^ k) ^ i).sum = ∑ i ∈ Finset.range n, ((2 * Real.pi * r / n : ℝ) : ℂ) * (r : ℂ) ^ k * (ω ^ k) ^ i from rfl,
      ← Finset.mul_sum]
    have h1 : ω ^ k ≠ 1 := hz.pow_ne_one_of_pos_of_lt hk.ne' hkn
    have h2 : (ω ^ k) ^ n = 1 := by rw [← pow_mul, mul_comm, pow_mul, hz.pow_eq_one, one_pow]
    rw [geom_sum_eq h1, h2, sub_self, zero_div, mul_zero]
  · intro f
    simp [spherical1D]

/-! ## Concrete cases -/

/-- The square of the first coordinate over the triangle with vertices (0,0), (1,0), (0,2). -/
example : (gauss2D (0 : ℚ) 2).bind (fun R => integrate (fun x => x) 2 2 R (fun x => x 0 ^ 2) fun k m => if k = 1 ∧ m = 0 then 1 else if k = 2 ∧ m = 1 then 2 else 0) = some (1 / 6) := by
  decide +kernel

/-- Hypotheses of `integrate_exact`. -/
example (f : MvPolynomial (Fin 2) ℝ) (hf : f.totalDegree ≤ 5) (S : Coords ℝ) : ∃ R v, gauss2D √15 5 = some R ∧ Volume 2 2 S v ∧
    integrate Real.sqrt 2 2 R (fun x => MvPolynomial.eval (fun m : Fin 2 => x m) f) S = some (v * mean ℝ 2 (pullback 2 2 S f)) := by
  obtain ⟨R, h1, h2⟩ := (gauss2D_exact (√15) (Real.sq_sqrt (by norm_num)) 5).1 (Or.inr rfl)
  obtain ⟨v, h3, h4⟩ := integrate_exact Real.sqrt (fun a ha => ⟨Real.sqrt_nonneg a, Real.sq_sqrt ha⟩) 2 2 5 (by omega) R h2 f hf S
  exact ⟨R, v, h1, h3, h4⟩

/-- Gauss quadrature with two nodes. -/
theorem legendre_two (t : ℝ) (ht : t ^ 2 = 1 / 3) : IsLegendre 2 [(-t, 1), (t, 1)] :=
  legendre_of_moments 2 _ fun n hn => by
    have h3 : t ^ 3 = t / 3 := by rw [pow_succ, ht]; ring
    have : n = 0 ∨ n = 1 ∨ n = 2 ∨ n = 3 := by omega
    rcases this with rfl | rfl | rfl | rfl <;> norm_num [neg_pow, ht]

example : ∃ R, gauss1D (fun _ => [(-√(1 / 3), 1), (√(1 / 3), 1)]) 3 = some R ∧ ExactTo 1 3 R :=
  (gauss1D_exact _ 3).1 rfl (legendre_two _ (Real.sq_sqrt (by norm_num)))

/-- Gauss quadrature with one node for the weights of the Duffy transformation of a triangle. -/
def jacobiOne (_ p _ : Nat) : List (ℚ × ℚ) := if p = 1 then [(1 / 2, 1)] else [(1 / 3, 1 / 2)]

theorem jacobi_one (d : Nat) (hd : d < 2) : IsJacobi (numNodes (0 + 2 - d - 1)) (2 - d) 1 (jacobiOne (numNodes (0 + 2 - d - 1)) (2 - d) 1) := by
  have h0 : d = 0 ∨ d = 1 := by omega
  rcases h0 with rfl | rfl <;> intro n hn <;> have hn : n = 0 ∨ n = 1 := by
    have h1 : numNodes (0 + 2 - 0 - 1) = 1 := rfl
    have h2 : numNodes (0 + 2 - 1 - 1) = 1 := rfl
    omega
  · rcases hn with rfl | rfl <;> norm_num [jacobiOne, Nat.factorial]
  · rcases hn with rfl | rfl <;> norm_num [jacobiOne, Nat.factorial]

example : ∃ R, duffy jacobiOne 0 2 = some R ∧ ExactTo 2 0 R := (duffy_exact jacobiOne 0 2 jacobi_one).1 (by omega)

example : duffy jacobiOne 0 2 = some [([1 / 3, 1 / 3, 1 / 3], 1)] := by decide +kernel

/-- A rule moved to the half of the interval next to vertex 0. -/
example : evalFun 1 (transform 1 (fun k j => if k = 0 then if j = 0 then 1 else 1 / 2 else if j = 0 then 0 else 1 / 2) (fun _ => 0) [([1 / 4, 3 / 4], (1 : ℚ))]) (fun x => x 0)
    (fun k _ => if k = 0 then 0 else 8) = [3] := by decide +kernel

/-- The rule for pairs on two intervals. -/
example : doubleIntegrate (fun x => x) 1 1 1 1 [([1 / 2, 1 / 2], (1 : ℚ))] [([1 / 2, 1 / 2], 1)] (fun x => x 0 * x 1) (fun k _ => if k = 0 then 0 else 2) (fun k _ => if k = 0 then 2 else 6) =
    some 32 := by decide +kernel

/-- The rule on the square with four nodes. -/
example (f : Vec ℝ → ℝ) (V : Coords ℝ) : quadIntegrate 2 (gauss (fun _ => [(-√(1 / 3), 1), (√(1 / 3), 1)]) 3 2) f V = none := quad_fails _ 3 2 rfl (Or.inl le_rfl) f V

example : ((gauss (fun _ => [(-√(1 / 3), 1), (√(1 / 3), 1)]) 3 2).map fun r => r.2 * ((List.range 2).map fun m => r.1.getD m 0 ^ (m + 2)).prod).sum =
    ((List.range 2).map fun m => 1 / (((m + 2 : Nat) : ℝ) + 1)).prod :=
  gauss_exact (fun _ => [(-√(1 / 3), 1), (√(1 / 3), 1)]) 3 2 (legendre_two _ (Real.sq_sqrt (by norm_num))) (fun m => m + 2) fun m hm => by omega

end PyNucleus.Props.C67
