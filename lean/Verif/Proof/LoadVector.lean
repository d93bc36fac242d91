import Verif.Model.LoadVector
import Verif.Proof.Loops
import Verif.Proof.RestrictionExact
import Verif.Proof.Quadrature
import Verif.Props.C41
import Mathlib.Algebra.MvPolynomial.Funext
import Mathlib.Data.List.GetD
import Mathlib.Algebra.CharZero.Infinite
import Mathlib.Algebra.Module.LinearMap.Defs

/-! # Assembly of right-hand sides -/

namespace PyNucleus.LoadVector

open PyNucleus.SimplexGeometry PyNucleus.Quadrature PyNucleus.ShapeFunctions PyNucleus.Loops

variable {K L : Type} [Field K]

theorem forRange_add [AddCommMonoid L] (n : Nat) (body : List L → Nat → List L) (g : Nat → Nat → L) (N : Nat)
    (h : ∀ data k, data.length = N → (body data k).length = N ∧ ∀ I, I < N → (body data k).getD I 0 = data.getD I 0 + g k I) (data : List L) (hd : data.length = N) :
    (forRange 0 n data body).length = N ∧ ∀ I, I < N → (forRange 0 n data body).getD I 0 = data.getD I 0 + ∑ k ∈ Finset.range n, g k I := by
  induction n with
  | zero => exact ⟨hd, fun I _ => by simp [forRange]⟩
  | succ n ih =>
    rw [forRange_succ]
    obtain ⟨a, b⟩ := h _ n ih.1
    exact ⟨a, fun I hI => by rw [b I hI, ih.2 I hI, Finset.sum_range_succ, add_assoc]⟩

theorem modify_add [AddCommMonoid L] (data : List L) (k : Nat) (x : L) (I : Nat) (hI : I < data.length) :
    (data.modify k (· + x)).getD I 0 = data.getD I 0 + if k = I then x else 0 := by
  rw [getD_modify]
  by_cases h : k = I
  · rw [if_pos ⟨h, hI⟩, if_pos h]
  · rw [if_neg (fun c => h c.1), if_neg h, add_zero]

theorem toNat_iff {d : Int} (h : ¬ d < 0) (I : Nat) : d.toNat = I ↔ d = (I : Int) := by omega

section
variable [AddCommMonoid L] [Module K L]

theorem addCell_spec (n : Nat) (dofs : List Int) (weights : List K) (vol : K) (PHI : Nat → Nat → K) (fvals data : List L) (N : Nat) (hd : data.length = N) :
    (addCell n dofs weights vol PHI fvals data).length = N ∧ ∀ I, I < N → (addCell n dofs weights vol PHI fvals data).getD I 0 = data.getD I 0 +
      ∑ k ∈ Finset.range n, if dofs.getD k 0 = (I : Int) then ∑ j ∈ Finset.range weights.length, (vol * weights.getD j 0 * PHI k j) • fvals.getD j 0 else 0 := by
  unfold addCell
  refine forRange_add n _ _ N (fun data k hd => ?_) data hd
  dsimp only
  by_cases hneg : dofs.getD k 0 < 0
  · rw [if_pos hneg]
    exact ⟨hd, fun I _ => by rw [if_neg (by omega), add_zero]⟩
  · rw [if_neg hneg]
    obtain ⟨a, b⟩ := forRange_add weights.length (fun data j => data.modify (dofs.getD k 0).toNat (· + (vol * weights.getD j 0 * PHI k j) • fvals.getD j 0))
      (fun j I => if dofs.getD k 0 = (I : Int) then (vol * weights.getD j 0 * PHI k j) • fvals.getD j 0 else 0) N (fun data j hd => ⟨by rw [List.length_modify, hd], fun I hI => by
        rw [modify_add _ _ _ _ (by omega)]
        simp only [toNat_iff hneg]⟩) data hd
    refine ⟨a, fun I hI => ?_⟩
    rw [b I hI]
    by_cases h : dofs.getD k 0 = (I : Int)
    · simp only [if_pos h]
    · simp only [if_neg h, Finset.sum_const_zero]

end

theorem cells_spec [AddCommMonoid L] {C : Type} (cells : List C) (vol : C → Option K) (V : C → K) (hv : ∀ c ∈ cells, vol c = some (V c)) (step : K → C → List L → List L) (g : C → Nat → L) (N : Nat)
    (h : ∀ c ∈ cells, ∀ data, data.length = N → (step (V c) c data).length = N ∧ ∀ I, I < N → (step (V c) c data).getD I 0 = data.getD I 0 + g c I) :
    ∀ data : List L, data.length = N → ∃ b, cells.foldlM (fun data c => (vol c).map fun v => step v c data) data = some b ∧ b.length = N ∧
      ∀ I, I < N → b.getD I 0 = data.getD I 0 + (cells.map fun c => g c I).sum := by
  induction cells with
  | nil => intro data hd; exact ⟨data, rfl, hd, fun I _ => by simp⟩
  | cons c t ih =>
    intro data hd
    obtain ⟨a, b⟩ := h c (by simp) data hd
    obtain ⟨e, h1, h2, h3⟩ := ih (fun c hc => hv c (by simp [hc])) (fun c hc => h c (by simp [hc])) _ a
    refine ⟨e, ?_, h2, fun I hI => ?_⟩
    · rw [List.foldlM_cons, hv c (by simp)]
      exact h1
    · rw [h3 I hI, b I hI, List.map_cons, List.sum_cons, add_assoc]

theorem replicate_zero [AddCommMonoid L] (N I : Nat) : (List.replicate N (0 : L)).getD I 0 = 0 := by
  by_cases h : I < N
  · rw [List.getD_eq_getElem _ _ (by simpa using h), List.getElem_replicate]
  · rw [List.getD_eq_default _ _ (by simpa using h)]

theorem flatMap_getD (l : List Nat) (R : List (List K × K)) (g : Nat → List K × K → K) : ∀ v j, v < l.length → j < R.length →
    (l.flatMap fun v => R.map (g v)).getD (v * R.length + j) 0 = g (l.getD v 0) (R.getD j ([], 0)) := by
  induction l with
  | nil => intro v j hv; simp at hv
  | cons a t ih =>
    intro v j hv hj
    rw [List.flatMap_cons]
    cases v with
    | zero =>
      rw [Nat.zero_mul, Nat.zero_add, List.getD_append _ _ _ _ (by simpa using hj), List.getD_eq_getElem _ _ (by simpa using hj), List.getElem_map, List.getD_eq_getElem _ _ hj]
      rfl
    | succ v =>
      rw [List.getD_append_right _ _ _ _ (by rw [List.length_map, Nat.succ_mul]; omega), List.length_map, show (v + 1) * R.length + j - R.length = v * R.length + j by rw [Nat.succ_mul]; omega,
        ih v j (by simpa using hv) hj]
      rfl

/-- Both ways to evaluate the shape functions agree. -/
theorem phiStrided_eq [CharZero K] (p mdim : Nat) (hp : p ≤ 3) (h1 : 1 ≤ mdim) (h3 : mdim ≤ 3) (R : Rule K) (hR : ∀ r ∈ R, r.1.length = mdim + 1) (k j : Nat)
    (hk : k < (localShapeFunctions p mdim).length) (hj : j < R.length) : phiStrided p mdim R k j = phi p mdim R k j := by
  unfold phiStrided phi
  rw [List.getD_eq_getElem _ _ hk, Props.C41.strided _ p mdim hp h1 h3 (List.getElem_mem hk)]
  congr 1
  have hl := hR _ (List.getElem_mem hj)
  rw [List.getD_eq_getElem _ _ hj]
  refine List.ext_getElem (by simp [hl]) fun v h h' => ?_
  rw [List.getElem_map, List.getElem_range, List.getD_eq_getElem?_getD, List.getElem?_drop, ← List.getD_eq_getElem?_getD, Nat.add_comm]
  unfold flatNodes
  rw [flatMap_getD (List.range (mdim + 1)) R (fun v r => r.1.getD v 0) v j (by rw [List.length_range]; omega) hj, List.getD_eq_getElem _ _ hj,
    List.getD_eq_getElem (List.range (mdim + 1)) _ (by rw [List.length_range]; omega), List.getElem_range, List.getD_eq_getElem _ _ h']

/-- Sum over the rule by index. -/
theorem sum_rule [AddCommMonoid L] (R : Rule K) (g : Nat → L) (G : List K × K → L) (h : ∀ j, j < R.length → g j = G (R.getD j ([], 0))) :
    ∑ j ∈ Finset.range R.length, g j = (R.map G).sum := by
  rw [Finset.sum_congr rfl fun j hj => h j (Finset.mem_range.1 hj)]
  change ((List.range R.length).map fun j => G (R.getD j ([], 0))).sum = _
  congr 1
  refine List.ext_getElem (by simp) fun j h1 h2 => ?_
  rw [List.getElem_map, List.getElem_map, List.getElem_range, List.getD_eq_getElem _ _ (by simpa using h2)]

theorem weights_getD (R : Rule K) (j : Nat) (hj : j < R.length) : (R.map Prod.snd).getD j 0 = (R.getD j ([], 0)).2 := by
  rw [List.getD_eq_getElem _ _ (by simpa using hj), List.getElem_map, List.getD_eq_getElem _ _ hj]

/-- Shape functions as polynomials. -/
theorem shape_degree [CharZero K] (p d : Nat) (hp : p ≤ 3) (h1 : 1 ≤ d) (h3 : d ≤ 3) (k : Nat) (hk : k < (localShapeFunctions p d).length) (f : MvPolynomial (Fin (d + 1)) K)
    (hf : ∀ lam : List K, MvPolynomial.eval (fun i : Fin (d + 1) => lam.getD i 0) f = ((localShapeFunctions p d).getD k .p0).eval lam) : f.totalDegree ≤ p := by
  rw [List.getD_eq_getElem _ _ hk] at hf
  set φ := (localShapeFunctions p d)[k] with hφ
  have hm : φ ∈ localShapeFunctions p d := List.getElem_mem hk
  let X : Nat → MvPolynomial (Fin (d + 1)) K := fun v => if h : v < d + 1 then MvPolynomial.X ⟨v, h⟩ else 0
  have hX : ∀ v, (X v).totalDegree ≤ 1 := fun v => by
    dsimp only [X]
    split
    · rw [MvPolynomial.totalDegree_X]
    · simp
  have : f = Restriction.shapePoly X φ := by
    refine MvPolynomial.funext fun x => ?_
    have e : x = fun i : Fin (d + 1) => (List.ofFn x).getD i 0 := by
      funext i
      rw [List.getD_eq_getElem _ _ (by simp; omega), List.getElem_ofFn]
    rw [e, hf, Restriction.shapePoly_eval X _ (List.ofFn x) (fun v => ?_) φ]
    dsimp only [X]
    split
    · rw [MvPolynomial.eval_X]
    · rw [map_zero, List.getD_eq_default _ _ (by simp; omega)]
  rw [this]
  exact (Restriction.shapePoly_degree X hX φ).trans (Restriction.order_le p d hp h1 h3 φ hm)

theorem feValues_spec (n : Nat) (dofs : List Int) (u : List K) (PHI : Nat → Nat → K) (N : Nat) :
    (feValues n dofs u PHI N).length = N ∧ ∀ j, j < N → (feValues n dofs u PHI N).getD j 0 = ∑ m ∈ Finset.range n, (if 0 ≤ dofs.getD m 0 then u.getD (dofs.getD m 0).toNat 0 else 0) * PHI m j := by
  unfold feValues
  obtain ⟨a, b⟩ := forRange_add n (fun (fvals : List K) m =>
    let I := dofs.getD m 0
    if 0 ≤ I then forRange 0 N fvals fun fvals k => fvals.modify k (· + u.getD I.toNat 0 * PHI m k) else fvals)
    (fun m j => (if 0 ≤ dofs.getD m 0 then u.getD (dofs.getD m 0).toNat 0 else 0) * PHI m j) N (fun fvals m hl => by
      dsimp only
      by_cases h : 0 ≤ dofs.getD m 0
      · rw [if_pos h]
        obtain ⟨a, b⟩ := forRange_add N (fun (fvals : List K) k => fvals.modify k (· + u.getD (dofs.getD m 0).toNat 0 * PHI m k))
          (fun k j => if k = j then u.getD (dofs.getD m 0).toNat 0 * PHI m k else 0) N (fun fvals k hl => ⟨by rw [List.length_modify, hl], fun I hI => modify_add _ _ _ _ (by omega)⟩) fvals hl
        refine ⟨a, fun I hI => ?_⟩
        rw [b I hI, Finset.sum_ite_eq', if_pos (Finset.mem_range.2 hI), if_pos h]
      · rw [if_neg h]
        exact ⟨hl, fun I _ => by rw [if_neg h]; simp⟩) (List.replicate N 0) (by simp)
  exact ⟨a, fun j hj => by rw [b j hj, replicate_zero, zero_add]⟩

/-- Degree of a composition. -/
theorem bind_degree {n m : Nat} (F : MvPolynomial (Fin n) K) (G : Fin n → MvPolynomial (Fin m) K) (a : Nat) (hG : ∀ i, (G i).totalDegree ≤ a) :
    (MvPolynomial.bind₁ G F).totalDegree ≤ F.totalDegree * a := by
  conv => lhs; rw [F.as_sum, map_sum]
  refine MvPolynomial.totalDegree_finsetSum_le fun α hα => ?_
  rw [MvPolynomial.bind₁_monomial]
  refine (MvPolynomial.totalDegree_mul _ _).trans ?_
  rw [MvPolynomial.totalDegree_C, zero_add]
  refine (MvPolynomial.totalDegree_finset_prod _ _).trans (le_trans ?_ (Nat.mul_le_mul_right a (MvPolynomial.le_totalDegree hα)))
  rw [Finsupp.sum, Finset.sum_mul]
  exact Finset.sum_le_sum fun i _ => (MvPolynomial.totalDegree_pow _ _).trans (Nat.mul_le_mul_left _ (hG i))

theorem eval_bind {n m : Nat} (F : MvPolynomial (Fin n) K) (G : Fin n → MvPolynomial (Fin m) K) (x : Fin m → K) :
    MvPolynomial.eval x (MvPolynomial.bind₁ G F) = MvPolynomial.eval (fun i => MvPolynomial.eval x (G i)) F := by
  rw [← MvPolynomial.coe_aeval_eq_eval, ← MvPolynomial.coe_aeval_eq_eval]
  simp only [RingHom.coe_coe]
  rw [MvPolynomial.aeval_bind₁]

theorem sum_range_mul [AddCommMonoid L] (m n : Nat) (g : Nat → L) : ∑ k ∈ Finset.range (m * n), g k = ∑ a ∈ Finset.range m, ∑ l ∈ Finset.range n, g (a * n + l) := by
  induction m with
  | zero => simp
  | succ m ih => rw [Nat.succ_mul, Finset.sum_range_add, ih, Finset.sum_range_succ]

theorem product_row (n : Nat) (row : List Int) : ∀ a l, a < row.length → l < n → (row.flatMap (DoFMap.productDofs n)).getD (a * n + l) 0 = (DoFMap.productDofs n (row.getD a 0)).getD l 0 := by
  have hlen : ∀ s, (DoFMap.productDofs n s).length = n := fun s => by unfold DoFMap.productDofs; split <;> simp
  induction row with
  | nil => intro a l ha; simp at ha
  | cons s t ih =>
    intro a l ha hl
    rw [List.flatMap_cons]
    cases a with
    | zero => rw [Nat.zero_mul, Nat.zero_add, List.getD_append _ _ _ _ (by rw [hlen]; exact hl)]; rfl
    | succ a =>
      rw [List.getD_append_right _ _ _ _ (by rw [hlen, Nat.succ_mul]; omega), hlen, show (a + 1) * n + l - n = a * n + l by rw [Nat.succ_mul]; omega, ih a l (by simpa using ha) hl]
      rfl

/-- The dof of component `l` is `n I + m` only for the dof `I` and `l = m`. -/
theorem product_dof (n : Nat) (s : Int) (l m I : Nat) (hl : l < n) (hm : m < n) : (DoFMap.productDofs n s).getD l 0 = ((n * I + m : Nat) : Int) ↔ s = I ∧ l = m := by
  unfold DoFMap.productDofs
  split
  · rename_i h
    rw [List.getD_eq_getElem _ _ (by simpa using hl), List.getElem_map, List.getElem_range]
    constructor
    · intro e
      obtain ⟨s, rfl⟩ := Int.eq_ofNat_of_zero_le h
      have e' : n * s + l = n * I + m := by exact_mod_cast e
      have h1 := congrArg (· % n) e'
      have h2 := congrArg (· / n) e'
      simp only [Nat.mul_add_mod, Nat.mod_eq_of_lt hl, Nat.mod_eq_of_lt hm] at h1
      simp only [Nat.mul_add_div (show 0 < n by omega), Nat.div_eq_of_lt hl, Nat.div_eq_of_lt hm] at h2
      exact ⟨by omega, h1⟩
    · rintro ⟨rfl, rfl⟩
      push_cast
      ring
  · rename_i h
    rw [List.getD_eq_getElem _ _ (by simpa using hl), List.getElem_map, List.getElem_range]
    constructor
    · intro e
      have : (n : Int) * (s + 1) ≤ 0 := Int.mul_nonpos_of_nonneg_of_nonpos (by omega) (by omega)
      omega
    · rintro ⟨rfl, rfl⟩
      omega

end PyNucleus.LoadVector
