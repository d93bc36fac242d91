import Verif.Proof.Smoothers
import Verif.Spec.SmootherOps

/-! # Smoothers as corrections of the residual -/

namespace PyNucleus.Smoothers

open PyNucleus.Loops PyNucleus.Spec PyNucleus.CSR PyNucleus.Direct PyNucleus.Blas Finset

variable {K : Type}

theorem residual_eq [Field K] {n : Nat} {A : List K → List K → List K} {M : Nat → Nat → K} (hA : Acts n A M)
    (y b r : List K) (hy : y.length = n) (hb : b.length = n) (hr : r.length = n) (simple : Bool)
    (hs : simple = true → ∀ i, i < n → y.getD i 0 = 0) :
    (residual A y b r simple).length = n ∧ ∀ i, i < n → (residual A y b r simple).getD i 0 = b.getD i 0 - mulVec n M y i := by
  unfold residual
  cases simple with
  | true =>
    rw [if_pos rfl]
    have h := CSR.forRange_set r b.length (by omega) fun i _ => b.getD i 0
    refine ⟨h.1.trans hr, fun i hi => ?_⟩
    unfold assign
    rw [h.2 i, if_pos (by omega)]
    unfold mulVec
    rw [sum_eq_zero fun j hj => by rw [hs rfl j (mem_range.1 hj), mul_zero], sub_zero]
  | false =>
    rw [if_neg (by simp)]
    obtain ⟨h1, h2⟩ := hA y r hy hr
    have h := assign3Self_eq (A y r) (-1) b 1
    refine ⟨h.1.trans h1, fun i hi => ?_⟩
    rw [h.2 i (by omega), h2 i hi]; ring

theorem update_step [Field K] {n : Nat} (y z : List K) (hy : y.length = n) :
    (update y z).length = n ∧ ∀ i, i < n → (update y z).getD i 0 = y.getD i 0 + z.getD i 0 := by
  have h := update_eq y z
  exact ⟨h.1.trans hy, fun i hi => h.2 i (by omega)⟩

theorem chain_zero {α : Type} (R : α → α → Prop) (y : α) : Chain R 0 y y := ⟨fun _ => y, rfl, rfl, fun m hm => by omega⟩

theorem chain_cons {α : Type} (R : α → α → Prop) (s : Nat) (y y' z : α) (h : R y y') (hc : Chain R s y' z) :
    Chain R (s + 1) y z := by
  obtain ⟨ys, h1, h2, h3⟩ := hc
  refine ⟨fun m => if m = 0 then y else ys (m - 1), rfl, h2, fun m hm => ?_⟩
  cases m with
  | zero => simpa [h1] using h
  | succ m => simpa using h3 m (by omega)

theorem chain_mono {α : Type} {R R' : α → α → Prop} (h : ∀ y y', R y y' → R' y y') {s : Nat} {y z : α} (hc : Chain R s y z) :
    Chain R' s y z := by
  obtain ⟨ys, h1, h2, h3⟩ := hc
  exact ⟨ys, h1, h2, fun m hm => h _ _ (h3 m hm)⟩

theorem chain_fixed {α : Type} {R : α → α → Prop} {y : α} (h : ∀ y', R y y' → y' = y) {s : Nat} {z : α} (hc : Chain R s y z) :
    z = y := by
  obtain ⟨ys, h1, h2, h3⟩ := hc
  have : ∀ m, m ≤ s → ys m = y := by
    intro m
    induction m with
    | zero => intro _; exact h1
    | succ m ih =>
      intro hm
      have := h3 m (by omega)
      rw [ih (by omega)] at this
      exact h _ this
  rw [← h2]
  exact this s (le_refl _)

theorem sepLoop_chain [Field K] {n : Nat} {A : List K → List K → List K} {M : Nat → Nat → K} (hA : Acts n A M)
    {prec : List K → List K → Option (List K)} {R : List K → List K → Prop} (hP : Corrects n prec R) (b : List K)
    (hb : b.length = n) : ∀ (steps : Nat) (simple : Bool) (y t t2 : List K), y.length = n → t.length = n → t2.length = n →
    (simple = true → ∀ i, i < n → y.getD i 0 = 0) →
    ∃ y' t', sepLoop A prec b steps simple y t t2 = some (y', t') ∧ y'.length = n ∧ t'.length = n ∧
      Chain (StepEq n M b R) steps y y' := by
  intro steps
  induction steps with
  | zero => intro simple y t t2 hy ht _ _; exact ⟨y, t, rfl, hy, ht, chain_zero _ _⟩
  | succ s ih =>
    intro simple y t t2 hy ht ht2 hs
    obtain ⟨h1, h2⟩ := residual_eq hA y b t hy hb ht simple hs
    obtain ⟨z, hz1, hz2, hz3⟩ := hP (residual A y b t simple) t2 h1 ht2
    obtain ⟨hu1, hu2⟩ := update_step y z hy
    obtain ⟨y', t', e1, e2, et, e3⟩ := ih false (update y z) (residual A y b t simple) z hu1 h1 hz2 (by simp)
    refine ⟨y', t', ?_, e2, et, chain_cons _ _ _ _ _ ⟨hu1, _, z, h1, hz2, hz3, h2, hu2⟩ e3⟩
    unfold sepLoop
    dsimp only
    rw [hz1]
    exact e1

theorem ext_len [Zero K] {n : Nat} {y z : List K} (hy : y.length = n) (hz : z.length = n) (h : ∀ i, i < n → y.getD i 0 = z.getD i 0) :
    y = z := toV_inj hy hz (funext fun i => h i i.2)

theorem step_fixed [Field K] {n : Nat} {M : Nat → Nat → K} {b : List K} {R : List K → List K → Prop}
    (hR : ∀ r z : List K, r.length = n → z.length = n → (∀ i, i < n → r.getD i 0 = 0) → R r z → ∀ i, i < n → z.getD i 0 = 0) (y : List K)
    (hy : y.length = n) (hex : ∀ i, i < n → mulVec n M y i = b.getD i 0) (y' : List K) (h : StepEq n M b R y y') : y' = y := by
  obtain ⟨h1, r, z, h2, h3, h4, h5, h6⟩ := h
  have h7 := hR r z h2 h3 (fun i hi => by rw [h5 i hi, hex i hi, sub_self]) h4
  exact ext_len h1 hy fun i hi => by rw [h6 i hi, h7 i hi, add_zero]

/-! ### unique solvability of the triangular systems -/

theorem sorEq_zero [Field K] {n : Nat} (M : Nat → Nat → K) (D : List K) (hD : ∀ i, i < n → D.getD i 0 ≠ 0) (omega : K) (ho : omega ≠ 0)
    (forward : Bool) (x z : List K) (hx : ∀ i, i < n → x.getD i 0 = 0) (h : SorEq n M D omega forward x z) :
    ∀ i, i < n → z.getD i 0 = 0 := by
  cases forward with
  | true =>
    intro i
    induction i using Nat.strong_induction_on with
    | _ i ih =>
      intro hi
      have := h i hi
      rw [hx i hi, if_pos rfl] at this
      unfold lowerMul at this
      rw [sum_eq_zero fun m hm => by rw [ih m (mem_range.1 hm) (by have := mem_range.1 hm; omega), mul_zero], add_zero] at this
      exact (mul_eq_zero.1 this).resolve_left (div_ne_zero (hD i hi) ho)
  | false =>
    have : ∀ k i, n - i = k → i < n → z.getD i 0 = 0 := by
      intro k
      induction k using Nat.strong_induction_on with
      | _ k ih =>
        intro i hk hi
        have := h i hi
        rw [hx i hi, if_neg (by simp)] at this
        unfold upperMul at this
        rw [sum_eq_zero fun m hm => by
          have := mem_Ico.1 hm
          rw [ih (n - m) (by omega) m rfl (by omega), mul_zero], add_zero] at this
        exact (mul_eq_zero.1 this).resolve_left (div_ne_zero (hD i hi) ho)
    exact fun i hi => this _ i rfl hi

theorem ssorEq_zero [Field K] {n : Nat} (M : Nat → Nat → K) (D : List K) (hD : ∀ i, i < n → D.getD i 0 ≠ 0) (omega : K) (ho : omega ≠ 0)
    (x z : List K) (hx : ∀ i, i < n → x.getD i 0 = 0) (h : SsorEq n M D omega x z) :
    ∀ i, i < n → z.getD i 0 = 0 := by
  obtain ⟨u, v, _, _, h1, h2, h3⟩ := h
  have hu := sorEq_zero M D hD omega ho true x u hx h1
  have hv := sorEq_zero M D hD omega ho false x v hx (fun i hi => by
    rw [if_neg (by simp), h2 i hi, hu i hi, hx i hi, mul_zero])
  exact fun i hi => by rw [h3 i hi, hv i hi, mul_zero]

theorem jacobiEq_zero [Field K] {n : Nat} (D : List K) (hD : ∀ i, i < n → D.getD i 0 ≠ 0) (omega : K)
    (x z : List K) (hx : ∀ i, i < n → x.getD i 0 = 0) (h : JacobiEq n D omega x z) : ∀ i, i < n → z.getD i 0 = 0 := by
  intro i hi
  have := h i hi
  rw [hx i hi, mul_zero] at this
  exact (mul_eq_zero.1 this).resolve_left (hD i hi)

theorem lowerMul_add [Field K] (M : Nat → Nat → K) (x y z : List K) (i : Nat) (h : ∀ k, k < i → x.getD k 0 = y.getD k 0 + z.getD k 0) :
    lowerMul M x i = lowerMul M y i + lowerMul M z i := by
  unfold lowerMul
  rw [← sum_add_distrib]
  exact sum_congr rfl fun m hm => by rw [h m (mem_range.1 hm), mul_add]

theorem upperMul_add [Field K] (n : Nat) (M : Nat → Nat → K) (x y z : List K) (i : Nat) (h : ∀ k, k < n → x.getD k 0 = y.getD k 0 + z.getD k 0) :
    upperMul n M x i = upperMul n M y i + upperMul n M z i := by
  unfold upperMul
  rw [← sum_add_distrib]
  exact sum_congr rfl fun m hm => by rw [h m (mem_Ico.1 hm).2, mul_add]

/-- A SOR correction with `omega = 1` and the diagonal of the matrix is a Gauss-Seidel sweep. -/
theorem step_sweep [Field K] {n : Nat} (M : Nat → Nat → K) (D : List K) (hD : ∀ i, i < n → D.getD i 0 = M i i) (b : List K)
    (forward : Bool) (y y' : List K) (h : StepEq n M b (SorEq n M D 1 forward) y y') : SweepEq n M b forward y y' := by
  obtain ⟨h1, r, z, _, _, h4, h5, h6⟩ := h
  refine ⟨h1, fun i hi => ?_⟩
  have h7 := h4 i hi
  rw [h5 i hi, split_mul n M y i hi, hD i hi, div_one] at h7
  rw [h6 i hi]
  cases forward with
  | true =>
    rw [if_pos rfl] at h7 ⊢
    rw [if_pos rfl, lowerMul_add M y' y z i fun k hk => h6 k (by omega)]
    linear_combination h7
  | false =>
    rw [if_neg (by simp)] at h7 ⊢
    rw [if_neg (by simp), upperMul_add n M y' y z i fun k hk => h6 k hk]
    linear_combination h7

theorem sweep_fixed [Field K] {n : Nat} (M : Nat → Nat → K) (hM : ∀ i, i < n → M i i ≠ 0) (b : List K) (forward : Bool) (y : List K)
    (hy : y.length = n) (hex : ∀ i, i < n → mulVec n M y i = b.getD i 0) (y' : List K) (h : SweepEq n M b forward y y') : y' = y := by
  obtain ⟨h1, h2⟩ := h
  have hD : ∀ i, i < n → ((List.range n).map fun i => M i i).getD i 0 = M i i := by
    intro i hi
    simp [List.getD_eq_getElem?_getD, hi]
  have hzd : ∀ i, i < n → ((List.range n).map fun i => y'.getD i 0 - y.getD i 0).getD i 0 = y'.getD i 0 - y.getD i 0 := by
    intro i hi
    simp [List.getD_eq_getElem?_getD, hi]
  have := sorEq_zero (n := n) M ((List.range n).map fun i => M i i) (fun i hi => by rw [hD i hi]; exact hM i hi) 1 one_ne_zero forward
    [] ((List.range n).map fun i => y'.getD i 0 - y.getD i 0)
    (fun i hi => rfl)
    (fun i hi => by
      have e := h2 i hi
      rw [← hex i hi, split_mul n M y i hi] at e
      rw [hD i hi, hzd i hi, div_one]
      rw [show ([] : List K).getD i 0 = 0 from rfl]
      cases forward with
      | true =>
        rw [if_pos rfl] at e ⊢
        rw [if_pos rfl, lowerMul_add M y' y ((List.range n).map fun i => y'.getD i 0 - y.getD i 0) i
          (fun k hk => by rw [hzd k (by omega)]; ring)] at e
        linear_combination e
      | false =>
        rw [if_neg (by simp)] at e ⊢
        rw [if_neg (by simp), upperMul_add n M y' y ((List.range n).map fun i => y'.getD i 0 - y.getD i 0) i
          (fun k hk => by rw [hzd k hk]; ring)] at e
        linear_combination e)
  exact ext_len h1 hy fun i hi => by
    have := this i hi
    rw [hzd i hi] at this
    exact sub_eq_zero.1 this

/-! ### the preconditioners -/

theorem jacobi_corrects [Field K] {n : Nat} (D : List K) (omega : K) (hD : D.length = n) (hD0 : ∀ i, i < n → D.getD i 0 ≠ 0) :
    Corrects n (fun x y => some (jacobiMatvec D omega x y)) (JacobiEq n D omega) := by
  intro x r hx hr
  have h := CSR.forRange_set r D.length (by omega) fun i _ => x.getD i 0 * (D.map fun d => omega / d).getD i 0
  refine ⟨_, rfl, h.1.trans hr, fun i hi => ?_⟩
  unfold jacobiMatvec
  dsimp only
  have hm : (D.map fun d => omega / d).getD i 0 = omega / D.getD i 0 := by
    have : i < D.length := by omega
    simp [List.getD_eq_getElem?_getD, this]
  have := hD0 i hi
  rw [h.2 i, if_pos (by omega), hm]
  field_simp

theorem sor_corrects [Field K] (A : CSR K) (hA : A.Valid) (hs : A.Sorted) (hsq : A.numCols = A.numRows) (D : List K)
    (hD : D.length = A.numRows) (hD0 : ∀ i, i < A.numRows → D.getD i 0 ≠ 0) (omega : K) (ho : omega ≠ 0) (forward : Bool) :
    Corrects A.numRows (fun x r => some (sorSweep A D omega forward x (zeros r))) (SorEq A.numRows A.entry D omega forward) := by
  intro x r hx hr
  have := sorSweep_eq A hA hs hsq D hD hD0 omega ho forward x (zeros r) ((zeros_len r).trans hr)
  exact ⟨_, rfl, this.1, this.2⟩

theorem ssor_corrects [Field K] (A : CSR K) (hA : A.Valid) (hs : A.Sorted) (hsq : A.numCols = A.numRows) (D : List K)
    (hD : D.length = A.numRows) (hD0 : ∀ i, i < A.numRows → D.getD i 0 ≠ 0) (omega : K) (ho : omega ≠ 0) :
    Corrects A.numRows (fun x r => some (ssorMatvec A D omega x r)) (SsorEq A.numRows A.entry D omega) := by
  intro x r hx hr
  obtain ⟨h1, y, z, hy, hz, h⟩ := ssor_eq A hA hs hsq D hD hD0 omega ho x r hr
  exact ⟨_, rfl, h1, y, z, hy, hz, fun i hi => by simpa using (h i hi).1, fun i hi => (h i hi).2.1, fun i hi => (h i hi).2.2⟩

theorem sorMatvec_corrects [Field K] (P : SorPrec K) {n : Nat} (hA : P.A.OK n) (hD : P.D.length = n)
    (hD0 : ∀ i, i < n → P.D.getD i 0 ≠ 0) (ho : P.omega ≠ 0) :
    Corrects n P.matvec (SorEq n P.A.entry P.D P.omega P.forward) := by
  obtain ⟨A, D, omega, pre, post, fwd, dg⟩ := P
  cases A with
  | sss A d => exact hA.elim
  | csr A =>
    obtain ⟨h1, h2, h3, rfl⟩ := hA
    exact sor_corrects A h1 h2 h3 D hD hD0 omega ho fwd
  | ts M S fS fM =>
    obtain ⟨h1, h2, h3, rfl, h5, h6⟩ := hA
    have := sor_corrects (comb M S fS fM) (comb_valid M S fS fM h1) (comb_sorted M S fS fM h1 h5 h6 h2) h3 D hD hD0 omega ho fwd
    intro x r hx hr
    obtain ⟨z, e1, e2, e3⟩ := this x r hx hr
    refine ⟨z, e1, e2, fun i hi => ?_⟩
    have h7 := e3 i hi
    have hl : ∀ v : List K, lowerMul (comb M S fS fM).entry v i = lowerMul (SorOp.ts M S fS fM).entry v i := fun v =>
      sum_congr rfl fun m _ => by rw [comb_entry M S fS fM h1 h5 h6]; rfl
    have hu : ∀ v : List K, upperMul S.numRows (comb M S fS fM).entry v i = upperMul S.numRows (SorOp.ts M S fS fM).entry v i := fun v =>
      sum_congr rfl fun m _ => by rw [comb_entry M S fS fM h1 h5 h6]; rfl
    rw [hl, show (comb M S fS fM).numRows = S.numRows from rfl, hu] at h7
    exact h7

theorem gsLoop_chain [Field K] {n : Nat} {op : List K → List K → List K} {M : Nat → Nat → K} (hA : Acts n op M)
    (P : SorPrec K) (sweep : Bool) {R : List K → List K → Prop}
    (hP : Corrects n (if sweep then P.setPost else P.setPre).matvec R) (b : List K)
    (hb : b.length = n) : ∀ (steps : Nat) (y t t2 : List K), y.length = n → t.length = n → t2.length = n →
    ∃ y', GS.loop op P b sweep steps y t t2 = some y' ∧ y'.length = n ∧ Chain (StepEq n M b R) steps y y' := by
  intro steps
  induction steps with
  | zero => intro y t t2 hy _ _; exact ⟨y, rfl, hy, chain_zero _ _⟩
  | succ s ih =>
    intro y t t2 hy ht ht2
    obtain ⟨h1, h2⟩ := residual_eq hA y b t hy hb ht false (by simp)
    obtain ⟨z, hz1, hz2, hz3⟩ := hP (residual op y b t false) t2 h1 ht2
    obtain ⟨hu1, hu2⟩ := update_step y z hy
    obtain ⟨y', e1, e2, e3⟩ := ih (update y z) (residual op y b t false) z hu1 h1 hz2
    refine ⟨y', ?_, e2, chain_cons _ _ _ _ _ ⟨hu1, _, z, h1, hz2, hz3, h2, hu2⟩ e3⟩
    unfold GS.loop
    dsimp only
    rw [hz1]
    exact e1

end PyNucleus.Smoothers
