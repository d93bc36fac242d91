import Verif.Model.Interp
import Verif.Spec.Block
import Verif.Proof.Blas
import Mathlib.LinearAlgebra.Lagrange

/-! # Neville's scheme -/

namespace PyNucleus.Interp

open PyNucleus.Loops PyNucleus.Spec PyNucleus.Block PyNucleus.Blas Polynomial

variable {K : Type}

theorem fill_inner (n j : Nat) (W : Arr2 K) (f : Nat → Nat → Arr2 K → K)
    (hf : ∀ i V, (∀ i', i ≤ i' → V j i' = W j i') → (∀ i', V (1 + j) i' = W (1 + j) i') → f j i V = f j i W) :
    forRange 0 n W (fun W i => upd W j i (f j i W)) = fun j' i' => if j' = j ∧ i' < n then f j i' W else W j' i' := by
  induction n with
  | zero => funext j' i'; simp [forRange]
  | succ n ih =>
    rw [forRange_succ, ih]
    funext j' i'
    unfold upd
    beta_reduce
    by_cases h1 : j' = j
    · subst h1
      by_cases h2 : i' = n
      · subst h2
        rw [if_pos ⟨rfl, rfl⟩, if_pos ⟨rfl, by omega⟩]
        exact hf _ _ (fun i h => by rw [if_neg (by omega)]) (fun i => by rw [if_neg (by omega)])
      · rw [if_neg (by omega)]
        by_cases h3 : i' < n
        · rw [if_pos ⟨rfl, h3⟩, if_pos ⟨rfl, by omega⟩]
        · rw [if_neg (by omega), if_neg (by omega)]
    · rw [if_neg (by omega), if_neg (by omega), if_neg (by omega)]

/-- The in-place double loop computes every entry from the old array. -/
theorem fill_eq (m n : Nat) (W : Arr2 K) (f : Nat → Nat → Arr2 K → K)
    (hf : ∀ j i V V', V j i = V' j i → V (1 + j) i = V' (1 + j) i → f j i V = f j i V') :
    fill m n W f = fun j i => if j < m ∧ i < n then f j i W else W j i := by
  unfold fill
  induction m with
  | zero => funext j i; simp [forRange]
  | succ m ih =>
    rw [forRange_succ, ih, fill_inner]
    · funext j i
      by_cases h1 : j = m
      · subst h1
        by_cases h2 : i < n
        · rw [if_pos ⟨rfl, h2⟩, if_pos ⟨by omega, h2⟩]
          exact hf _ _ _ _ (by rw [if_neg (by omega)]) (by rw [if_neg (by omega)])
        · rw [if_neg (by omega), if_neg (by omega), if_neg (by omega)]
      · rw [if_neg (by omega)]
        by_cases h2 : j < m ∧ i < n
        · rw [if_pos h2, if_pos ⟨by omega, h2.2⟩]
        · rw [if_neg h2, if_neg (by omega)]
    · intro i V h1 h2
      exact hf _ _ _ _ (h1 i (Nat.le_refl _)) (h2 i)

section
variable [Field K]

/-- Polynomials of Neville's scheme: basis polynomial `i` on the nodes `j, ..., j + k`. -/
noncomputable def nev (x : Nat → K) (i : Nat) : Nat → Nat → K[X]
  | 0, j => if j = i then 1 else 0
  | k + 1, j => C (1 / (x j - x (k + 1 + j))) *
      (nev x i k j * (X - C (x (k + 1 + j))) - nev x i k (1 + j) * (X - C (x j)))

theorem nev_degree (x : Nat → K) (i k : Nat) : ∀ j, (nev x i k j).natDegree ≤ k := by
  induction k with
  | zero => intro j; unfold nev; split <;> simp
  | succ k ih =>
    intro j
    unfold nev
    refine (natDegree_C_mul_le _ _).trans ((natDegree_sub_le _ _).trans (max_le ?_ ?_))
    · refine natDegree_mul_le.trans ?_
      have := ih j
      have h2 := natDegree_X_sub_C_le (x (k + 1 + j))
      omega
    · refine natDegree_mul_le.trans ?_
      have := ih (1 + j)
      have h2 := natDegree_X_sub_C_le (x j)
      omega

theorem nev_eval (x : Nat → K) (n : Nat) (hx : ∀ a b, a < n → b < n → x a = x b → a = b) (i k : Nat) :
    ∀ j m, k + j < n → j ≤ m → m ≤ k + j → (nev x i k j).eval (x m) = if m = i then 1 else 0 := by
  induction k with
  | zero =>
    intro j m _ h1 h2
    obtain rfl : m = j := by omega
    unfold nev
    split <;> simp
  | succ k ih =>
    intro j m hn h1 h2
    have hne : x j - x (k + 1 + j) ≠ 0 := fun e => by
      have := hx j (k + 1 + j) (by omega) (by omega) (sub_eq_zero.1 e); omega
    unfold nev
    simp only [eval_mul, eval_C, eval_sub, eval_X]
    by_cases hj : m = j
    · rw [ih j m (by omega) (by omega) (by omega), hj]
      field_simp
      ring
    · by_cases hk : m = k + 1 + j
      · rw [ih (1 + j) m (by omega) (by omega) (by omega), hk]
        field_simp
        ring
      · rw [ih j m (by omega) (by omega) (by omega), ih (1 + j) m (by omega) (by omega) (by omega)]
        field_simp
        ring

/-- The last polynomials are the Lagrange basis. -/
theorem nev_basis [DecidableEq K] (x : Nat → K) (n : Nat) (hn : 0 < n) (hx : ∀ a b, a < n → b < n → x a = x b → a = b) (i : Nat)
    (hi : i < n) : nev x i (n - 1) 0 = Lagrange.basis (Finset.range n) x i := by
  have hinj : Set.InjOn x (Finset.range n) := fun a ha b hb h =>
    hx a b (Finset.mem_range.1 ha) (Finset.mem_range.1 hb) h
  refine Polynomial.eq_of_degrees_lt_of_eval_index_eq (Finset.range n) hinj ?_ ?_ fun m hm => ?_
  · rw [Finset.card_range]
    refine lt_of_le_of_lt degree_le_natDegree ?_
    have := nev_degree x i (n - 1) 0
    exact_mod_cast (show (nev x i (n - 1) 0).natDegree < n by omega)
  · rw [Lagrange.degree_basis hinj (Finset.mem_range.2 hi), Finset.card_range]
    exact_mod_cast (show n - 1 < n by omega)
  · have hm' := Finset.mem_range.1 hm
    rw [nev_eval x n hx i (n - 1) 0 m (by omega) (by omega) (by omega)]
    by_cases h : m = i
    · subst h; rw [if_pos rfl, Lagrange.eval_basis_self hinj hm]
    · rw [if_neg h, Lagrange.eval_basis_of_ne (fun e => h e.symm) hm]

variable (nodes : List K) (val : K)

/-- Node `j`. -/
def nd (j : Nat) : K := nodes.getD j 0

theorem stepW_eq (n k : Nat) (W : Arr2 K) : stepW n k nodes val W = fun j i => if j < n - k ∧ i < n then
    (W j i * (val - nd nodes (k + j)) - W (1 + j) i * (val - nd nodes j)) / (nd nodes j - nd nodes (k + j)) else W j i :=
  fill_eq _ _ _ _ fun j i V V' h1 h2 => by rw [h1, h2]

theorem stepW1_eq (n k : Nat) (W W1 : Arr2 K) : stepW1 n k nodes val W W1 = fun j i => if j < n - k ∧ i < n then
    (W1 j i * (val - nd nodes (k + j)) + W j i - W1 (1 + j) i * (val - nd nodes j) - W (1 + j) i) / (nd nodes j - nd nodes (k + j))
    else W1 j i :=
  fill_eq _ _ _ _ fun j i V V' h1 h2 => by rw [h1, h2]

theorem stepW2_eq (n k : Nat) (W1 W2 : Arr2 K) : stepW2 n k nodes val W1 W2 = fun j i => if j < n - k ∧ i < n then
    (W2 j i * (val - nd nodes (k + j)) + 2 * W1 j i - W2 (1 + j) i * (val - nd nodes j) - 2 * W1 (1 + j) i) /
      (nd nodes j - nd nodes (k + j)) else W2 j i :=
  fill_eq _ _ _ _ fun j i V V' h1 h2 => by rw [h1, h2]

/-- The table holds derivative `d` of the polynomials. -/
def Holds (n k d : Nat) (W : Arr2 K) : Prop :=
  ∀ j i, j < n - k → i < n → W j i = ((derivative^[d]) (nev (nd nodes) i k j)).eval val

theorem initW_holds (n : Nat) (W : Arr2 K) : Holds nodes val n 0 0 (initW n W) := by
  intro j i hj hi
  unfold initW
  rw [fill_eq _ _ _ _ fun _ _ _ _ _ _ => rfl]
  beta_reduce
  rw [if_pos ⟨by omega, hi⟩]
  simp only [Function.iterate_zero, id_eq, nev]
  split <;> simp

theorem initZero_holds (n d : Nat) (hd : 0 < d) (W : Arr2 K) : Holds nodes val n 0 d (initZero n W) := by
  intro j i hj hi
  unfold initZero
  rw [fill_eq _ _ _ _ fun _ _ _ _ _ _ => rfl]
  beta_reduce
  rw [if_pos ⟨by omega, hi⟩]
  obtain ⟨e, rfl⟩ : ∃ e, d = e + 1 := ⟨d - 1, by omega⟩
  have : ∀ p : K[X], p = 1 ∨ p = 0 → derivative p = 0 := fun p h => by rcases h with h | h <;> simp [h]
  rw [Function.iterate_succ_apply, this _ (by unfold nev; split <;> simp)]
  simp

theorem stepW_holds (n k : Nat) (W : Arr2 K) (h : Holds nodes val n k 0 W) :
    Holds nodes val n (k + 1) 0 (stepW n (k + 1) nodes val W) := by
  intro j i hj hi
  rw [stepW_eq]
  beta_reduce
  rw [if_pos ⟨hj, hi⟩, h j i (by omega) hi, h (1 + j) i (by omega) hi]
  simp only [Function.iterate_zero, id_eq, nev, eval_mul, eval_C, eval_sub, eval_X]
  ring

theorem stepW1_holds (n k : Nat) (W W1 : Arr2 K) (h : Holds nodes val n k 0 W) (h1 : Holds nodes val n k 1 W1) :
    Holds nodes val n (k + 1) 1 (stepW1 n (k + 1) nodes val W W1) := by
  intro j i hj hi
  rw [stepW1_eq]
  beta_reduce
  rw [if_pos ⟨hj, hi⟩, h j i (by omega) hi, h (1 + j) i (by omega) hi, h1 j i (by omega) hi, h1 (1 + j) i (by omega) hi]
  simp only [Function.iterate_zero, id_eq, Function.iterate_one, nev, derivative_mul, derivative_C, derivative_sub, derivative_X,
    eval_mul, eval_C, eval_sub, eval_X, eval_add, eval_zero, eval_one]
  ring

theorem stepW2_holds (n k : Nat) (W1 W2 : Arr2 K) (h1 : Holds nodes val n k 1 W1) (h2 : Holds nodes val n k 2 W2) :
    Holds nodes val n (k + 1) 2 (stepW2 n (k + 1) nodes val W1 W2) := by
  intro j i hj hi
  rw [stepW2_eq]
  beta_reduce
  rw [if_pos ⟨hj, hi⟩, h1 j i (by omega) hi, h1 (1 + j) i (by omega) hi, h2 j i (by omega) hi, h2 (1 + j) i (by omega) hi]
  simp only [Function.iterate_succ, Function.iterate_zero, Function.comp_apply, id_eq, nev, derivative_mul, derivative_C, derivative_sub, derivative_X,
    derivative_add, derivative_one, eval_mul, eval_C, eval_sub, eval_X, eval_add, eval_zero, eval_one, derivative_zero]
  ring

theorem forRange_from_one {σ : Type} (n : Nat) (s : σ) (f : σ → Nat → σ) (hn : 0 < n) (I : Nat → σ → Prop) (h0 : I 0 s)
    (hs : ∀ k t, k + 1 < n → I k t → I (k + 1) (f t (k + 1))) : I (n - 1) (forRange 1 n s f) := by
  have key : ∀ m, m < n → I m (forRange 1 (m + 1) s f) := by
    intro m
    induction m with
    | zero => intro _; exact h0
    | succ m ih =>
      intro hm
      have e : forRange 1 (m + 1 + 1) s f = f (forRange 1 (m + 1) s f) (m + 1) := by
        unfold forRange
        rw [show m + 1 + 1 - 1 = m + 1 by omega, show m + 1 - 1 = m by omega, List.range'_concat, List.foldl_append]
        simp [Nat.add_comm]
      rw [e]
      exact hs m _ hm (ih (by omega))
  have := key (n - 1) (by omega)
  rwa [show n - 1 + 1 = n by omega] at this

/-- The first row of the table that is used for derivative `d`. -/
theorem table_row (n d : Nat) (hn : 0 < n) (hd : d ≤ 2) (s : Arr2 K × Arr2 K × Arr2 K) (i : Nat) (hi : i < n) :
    (match d with
      | 0 => (table n nodes val d s).1
      | 1 => (table n nodes val d s).2.1
      | _ => (table n nodes val d s).2.2) 0 i = ((derivative^[d]) (nev (nd nodes) i (n - 1) 0)).eval val := by
  match d, hd with
  | 0, _ =>
    have := forRange_from_one n (initW n s.1, s.2.1, s.2.2) (fun s k => (stepW n k nodes val s.1, s.2.1, s.2.2)) hn
      (fun k t => Holds nodes val n k 0 t.1) (initW_holds nodes val n s.1) fun k t _ h => stepW_holds nodes val n k t.1 h
    exact this 0 i (by omega) hi
  | 1, _ =>
    have := forRange_from_one n (initW n s.1, initZero n s.2.1, s.2.2)
      (fun s k => (stepW n k nodes val s.1, stepW1 n k nodes val s.1 s.2.1, s.2.2)) hn
      (fun k t => Holds nodes val n k 0 t.1 ∧ Holds nodes val n k 1 t.2.1)
      ⟨initW_holds nodes val n s.1, initZero_holds nodes val n 1 (by omega) s.2.1⟩
      fun k t _ h => ⟨stepW_holds nodes val n k t.1 h.1, stepW1_holds nodes val n k t.1 t.2.1 h.1 h.2⟩
    exact this.2 0 i (by omega) hi
  | 2, _ =>
    have := forRange_from_one n (initW n s.1, initZero n s.2.1, initZero n s.2.2)
      (fun s k => (stepW n k nodes val s.1, stepW1 n k nodes val s.1 s.2.1, stepW2 n k nodes val s.2.1 s.2.2)) hn
      (fun k t => Holds nodes val n k 0 t.1 ∧ Holds nodes val n k 1 t.2.1 ∧ Holds nodes val n k 2 t.2.2)
      ⟨initW_holds nodes val n s.1, initZero_holds nodes val n 1 (by omega) s.2.1, initZero_holds nodes val n 2 (by omega) s.2.2⟩
      fun k t _ h => ⟨stepW_holds nodes val n k t.1 h.1, stepW1_holds nodes val n k t.1 t.2.1 h.1 h.2.1,
        stepW2_holds nodes val n k t.2.1 t.2.2 h.2.1 h.2.2⟩
    exact this.2.2 0 i (by omega) hi

/-! ### Sum of scaled operators -/

theorem sumMatvec_ok (ops : List (Blk K)) (coeffs : List K) (r c : Nat) (M : Nat → Nat → Nat → K) (hc : 0 < coeffs.length)
    (hr : ∀ i, i < coeffs.length → (ops.getD i default).rows = r) (hcol : ∀ i, i < coeffs.length → (ops.getD i default).cols = c)
    (hM : ∀ i, i < coeffs.length → (ops.getD i default).Is (M i)) (x y z : List K) (hx : x.length = c) (hy : y.length = r)
    (hz : z.length = r) :
    (sumMatvec ops coeffs x y z).1.length = r ∧ (sumMatvec ops coeffs x y z).2.length = r ∧
    ∀ a, a < r → (sumMatvec ops coeffs x y z).1.getD a 0 = ∑ i ∈ Finset.range coeffs.length, coeffs.getD i 0 * mulVec c (M i) x a := by
  unfold sumMatvec
  simp only
  have h0 := hM 0 hc x y (by rw [hcol 0 hc, hx]) (by rw [hr 0 hc, hy])
  have hs := scaleScalar_eq ((ops.getD 0 default).apply x y) (coeffs.getD 0 0)
  rw [hr 0 hc] at h0
  have := forRange_from_one coeffs.length (scaleScalar ((ops.getD 0 default).apply x y) (coeffs.getD 0 0), z)
    (fun s i => (assign3Self s.1 1 ((ops.getD i default).apply x s.2) (coeffs.getD i 0), (ops.getD i default).apply x s.2)) hc
    (fun k s => s.1.length = r ∧ s.2.length = r ∧
      ∀ a, a < r → s.1.getD a 0 = ∑ i ∈ Finset.range (k + 1), coeffs.getD i 0 * mulVec c (M i) x a)
    ⟨hs.1.trans h0.1, hz, fun a ha => ?_⟩ fun k s hk h => ?_
  · rw [show coeffs.length - 1 + 1 = coeffs.length by omega] at this
    exact this
  · rw [hs.2 a (by omega), h0.2 a ha, hcol 0 hc]
    simp [mul_comm]
  · have h1 := hM (k + 1) hk x s.2 (by rw [hcol _ hk, hx]) (by rw [hr _ hk, h.2.1])
    rw [hr _ hk, hcol _ hk] at h1
    have h2 := assign3Self_eq s.1 1 ((ops.getD (k + 1) default).apply x s.2) (coeffs.getD (k + 1) 0)
    refine ⟨h2.1.trans h.1, h1.1, fun a ha => ?_⟩
    rw [h2.2 a (by omega), h.2.2 a ha, h1.2 a ha, Finset.sum_range_succ _ (k + 1), one_mul]

theorem sumMatvecNoOverwrite_ok (ops : List (Blk K)) (coeffs : List K) (r c : Nat) (M : Nat → Nat → Nat → K)
    (hr : ∀ i, i < coeffs.length → (ops.getD i default).rows = r) (hcol : ∀ i, i < coeffs.length → (ops.getD i default).cols = c)
    (hM : ∀ i, i < coeffs.length → (ops.getD i default).Is (M i)) (x y z : List K) (hx : x.length = c) (hy : y.length = r)
    (hz : z.length = r) :
    (sumMatvecNoOverwrite ops coeffs x y z).1.length = r ∧
    ∀ a, a < r → (sumMatvecNoOverwrite ops coeffs x y z).1.getD a 0 =
      y.getD a 0 + ∑ i ∈ Finset.range coeffs.length, coeffs.getD i 0 * mulVec c (M i) x a := by
  unfold sumMatvecNoOverwrite
  have key : ∀ m, m ≤ coeffs.length → ∀ s, s = forRange 0 m (y, z) (fun s i =>
      (assign3Self s.1 1 ((ops.getD i default).apply x s.2) (coeffs.getD i 0), (ops.getD i default).apply x s.2)) →
      s.1.length = r ∧ s.2.length = r ∧
      ∀ a, a < r → s.1.getD a 0 = y.getD a 0 + ∑ i ∈ Finset.range m, coeffs.getD i 0 * mulVec c (M i) x a := by
    intro m
    induction m with
    | zero => intro _ s hs; subst hs; exact ⟨hy, hz, fun a _ => by simp [forRange]⟩
    | succ k ih =>
      intro hk t ht
      obtain ⟨i1, i2, i3⟩ := ih (by omega) _ rfl
      rw [forRange_succ] at ht
      generalize (forRange 0 k (y, z) (fun (s : List K × List K) i =>
        (assign3Self s.1 1 ((ops.getD i default).apply x s.2) (coeffs.getD i 0), (ops.getD i default).apply x s.2))) = s at i1 i2 i3 ht
      subst ht
      have hk' : k < coeffs.length := by omega
      have h1 := hM k hk' x s.2 (by rw [hcol _ hk', hx]) (by rw [hr _ hk', i2])
      rw [hr _ hk', hcol _ hk'] at h1
      have h2 := assign3Self_eq s.1 1 ((ops.getD k default).apply x s.2) (coeffs.getD k 0)
      refine ⟨h2.1.trans i1, h1.1, fun a ha => ?_⟩
      rw [h2.2 a (by omega), i3 a ha, h1.2 a ha, Finset.sum_range_succ, one_mul, add_assoc]
  obtain ⟨k1, _, k3⟩ := key coeffs.length (Nat.le_refl _) _ rfl
  exact ⟨k1, k3⟩

end

end PyNucleus.Interp
