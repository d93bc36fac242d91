import Verif.Proof.Interp
import Mathlib.Algebra.Field.Rat
import Mathlib.Algebra.Order.Ring.Rat

/-! # C22 Interpolation operators -/

namespace PyNucleus.Props.C22

open PyNucleus.Loops PyNucleus.Spec PyNucleus.Block PyNucleus.Interp Polynomial

variable {K : Type} [Field K] [LinearOrder K]

/-- States of an operator after its construction and any sequence of calls of `set`. -/
inductive Reach (nodes : List K) (left right : K) : InterpOp K → Prop
  | init {op} : InterpOp.init nodes left right = some op → Reach nodes left right op
  | set {op op' : InterpOp K} {t d b} : Reach nodes left right op → op.set t d = some (op', b) → Reach nodes left right op'

/-- Derivative `d` at `t` of the Lagrange basis polynomial `i`. -/
noncomputable def lag (nodes : List K) (d i : Nat) (t : K) : K :=
  ((derivative^[d]) (Lagrange.basis (Finset.range nodes.length) (fun j => nodes.getD j 0) i)).eval t

/-- The constructor accepts exactly increasing nodes. -/
theorem init_iff (nodes : List K) (left right : K) : (InterpOp.init nodes left right).isSome ↔ nodes.Pairwise (· < ·) := by
  unfold InterpOp.init
  rw [List.pairwise_iff_getElem]
  have key : ((List.range (nodes.length - 1)).all fun i => decide (nodes.getD i 0 < nodes.getD (i + 1) 0)) = true ↔
      ∀ i j (hi : i < nodes.length) (hj : j < nodes.length), i < j → nodes[i] < nodes[j] := by
    simp only [List.all_eq_true, List.mem_range, decide_eq_true_eq]
    constructor
    · intro h i j hi hj hij
      obtain ⟨k, rfl⟩ : ∃ k, j = i + 1 + k := ⟨j - i - 1, by omega⟩
      clear hij
      induction k with
      | zero =>
        have := h i (by omega)
        rwa [List.getD_eq_getElem?_getD, List.getD_eq_getElem?_getD, List.getElem?_eq_getElem hi, List.getElem?_eq_getElem hj] at this
      | succ k ih =>
        have h1 := ih (by omega)
        have h2 := h (i + 1 + k) (by omega)
        rw [List.getD_eq_getElem?_getD, List.getD_eq_getElem?_getD, List.getElem?_eq_getElem (by omega),
          List.getElem?_eq_getElem (by omega)] at h2
        exact lt_trans h1 h2
    · intro h i hi
      rw [List.getD_eq_getElem?_getD, List.getD_eq_getElem?_getD, List.getElem?_eq_getElem (by omega), List.getElem?_eq_getElem (by omega)]
      exact h i (i + 1) (by omega) (by omega) (by omega)
  by_cases h : ((List.range (nodes.length - 1)).all fun i => decide (nodes.getD i 0 < nodes.getD (i + 1) 0)) = true
  · rw [if_pos h]
    simp only [Option.isSome_some, true_iff]
    exact key.1 h
  · rw [if_neg h]
    simp only [Option.isSome_none, Bool.false_eq_true, false_iff]
    exact fun e => h (key.2 e)

private theorem set_lit (cs : List (Option K)) (n : Nat) (hn : n ≤ cs.length) (f : Nat → K) :
    (forRange 0 n cs fun c i => c.set i (some (f i))) = (List.range n).map (fun i => some (f i)) ++ cs.drop n := by
  induction n with
  | zero => simp [forRange]
  | succ n ih =>
    rw [forRange_succ, ih (by omega), List.range_succ, List.map_append, List.set_append_right _ _ (by simp)]
    rw [List.length_map, List.length_range, Nat.sub_self, List.drop_eq_getElem_cons (by omega), List.set_cons_zero, List.append_assoc]
    rfl

private theorem reach_inv {nodes : List K} {left right : K} {op : InterpOp K} (h : Reach nodes left right op) :
    nodes.Pairwise (· < ·) ∧ op.nodes = nodes ∧ op.left = left ∧ op.right = right ∧ op.coeffs.length = nodes.length := by
  induction h with
  | init e =>
    refine ⟨(init_iff nodes left right).1 (by rw [e]; rfl), ?_⟩
    unfold InterpOp.init at e
    split at e
    · cases e; simp
    · cases e
  | @set op op' t d b _ e ih =>
    obtain ⟨i1, i2, i3, i4, i5⟩ := ih
    refine ⟨i1, ?_⟩
    unfold InterpOp.set at e
    split at e
    · simp only at e
      split at e
      · cases e
        refine ⟨i2, i3, i4, ?_⟩
        simp only
        rw [set_lit _ _ (by rw [i5, i2])]
        simp [i2, i5]
      · cases e; exact ⟨i2, i3, i4, i5⟩
    · cases e

private theorem inj_nodes {nodes : List K} (h : nodes.Pairwise (· < ·)) (a b : Nat) (ha : a < nodes.length) (hb : b < nodes.length)
    (e : nd nodes a = nd nodes b) : a = b := by
  rw [List.pairwise_iff_getElem] at h
  unfold nd at e
  rw [List.getD_eq_getElem?_getD, List.getD_eq_getElem?_getD, List.getElem?_eq_getElem ha, List.getElem?_eq_getElem hb] at e
  simp only [Option.getD_some] at e
  rcases Nat.lt_trichotomy a b with h1 | h1 | h1
  · exact absurd e (ne_of_lt (h a b ha hb h1))
  · exact h1
  · exact absurd e.symm (ne_of_lt (h b a hb ha h1))

/-- After `set(t, d)` the coefficients are the derivatives `d` at `t` of the Lagrange basis
polynomials, whatever calls came before. -/
theorem set_coeffs {nodes : List K} {left right : K} {op : InterpOp K} (h : Reach nodes left right op) (hn : nodes ≠ [])
    (t : K) (ht : left ≤ t ∧ t ≤ right) (d : Nat) (hd : d ≤ 2) :
    ∃ op', op.set t d = some (op', true) ∧ op'.val = some t ∧ op'.derivative = d ∧ op'.nodes = nodes ∧
      op'.coeffs = (List.range nodes.length).map fun i => some (lag nodes d i t) := by
  obtain ⟨i1, i2, i3, i4, i5⟩ := reach_inv h
  have hpos : 0 < nodes.length := List.length_pos_of_ne_nil hn
  unfold InterpOp.set
  rw [if_pos (by rw [i3, i4]; exact ht)]
  simp only
  rw [if_pos hd]
  refine ⟨_, rfl, rfl, rfl, i2, ?_⟩
  simp only
  rw [set_lit _ _ (by rw [i5, i2]), i2, List.drop_eq_nil_of_le (by rw [i5]), List.append_nil]
  refine List.map_congr_left fun i hi => ?_
  have hi' := List.mem_range.1 hi
  have := table_row nodes t nodes.length d hpos hd (op.W, op.W1, op.W2) i hi'
  rw [nev_basis (nd nodes) nodes.length hpos (inj_nodes i1) i hi'] at this
  exact congrArg some this

/-- `set` fails its assertions exactly outside the range. -/
theorem set_out_of_range {nodes : List K} {left right : K} {op : InterpOp K} (h : Reach nodes left right op) (t : K) (d : Nat) :
    op.set t d = none ↔ ¬ (left ≤ t ∧ t ≤ right) := by
  obtain ⟨_, _, i3, i4, _⟩ := reach_inv h
  unfold InterpOp.set
  rw [i3, i4]
  split
  · rename_i hr
    simp only [hr, not_true, iff_false]
    split <;> simp
  · rename_i hr; simp [hr]

/-- A derivative above two raises an error, but the operator then reports the new value while its
coefficients are still those of the previous call. -/
theorem unsupported_is_stale {nodes : List K} {left right : K} {op : InterpOp K} (h : Reach nodes left right op) (t : K)
    (ht : left ≤ t ∧ t ≤ right) (d : Nat) (hd : 2 < d) :
    ∃ op', op.set t d = some (op', false) ∧ op'.val = some t ∧ op'.derivative = d ∧ op'.coeffs = op.coeffs := by
  obtain ⟨_, _, i3, i4, _⟩ := reach_inv h
  unfold InterpOp.set
  rw [if_pos (by rw [i3, i4]; exact ht)]
  simp only
  rw [if_neg (by omega)]
  exact ⟨_, rfl, rfl, rfl, rfl⟩

/-- Operators that apply the `r × c` matrices `M i`. -/
structure Ops (ops : List (Blk K)) (n r c : Nat) (M : Nat → Nat → Nat → K) : Prop where
  rows : ∀ i, i < n → (ops.getD i default).rows = r
  cols : ∀ i, i < n → (ops.getD i default).cols = c
  is : ∀ i, i < n → (ops.getD i default).Is (M i)

section
variable {nodes : List K} {left right : K} {op : InterpOp K} (h : Reach nodes left right op) (hn : nodes ≠ [])
  (t : K) (ht : left ≤ t ∧ t ≤ right) (d : Nat) (hd : d ≤ 2) {ops : List (Blk K)} {r c : Nat} {M : Nat → Nat → Nat → K}
  (hM : Ops ops nodes.length r c M) (x y z : List K) (hx : x.length = c) (hy : y.length = r) (hz : z.length = r)
include h hn ht hd hM hx hy hz

/-- After `set(t, d)` the product is `∑ i, l_i^(d)(t) A_i x`, whatever the output and the buffer held. -/
theorem matvec_interpolates : ∃ op' cs, op.set t d = some (op', true) ∧ op'.coeffs = cs.map some ∧
    (sumMatvec ops cs x y z).1.length = r ∧ ∀ a, a < r → (sumMatvec ops cs x y z).1.getD a 0 =
      ∑ i ∈ Finset.range nodes.length, lag nodes d i t * mulVec c (M i) x a := by
  obtain ⟨op', e, _, _, _, hc⟩ := set_coeffs h hn t ht d hd
  have hpos : 0 < nodes.length := List.length_pos_of_ne_nil hn
  refine ⟨op', (List.range nodes.length).map fun i => lag nodes d i t, e, by rw [hc, List.map_map]; rfl, ?_⟩
  have hl : ((List.range nodes.length).map fun i => lag nodes d i t).length = nodes.length := by simp
  have := sumMatvec_ok ops ((List.range nodes.length).map fun i => lag nodes d i t) r c M (by rw [hl]; exact hpos)
    (by rw [hl]; exact hM.rows) (by rw [hl]; exact hM.cols) (by rw [hl]; exact hM.is) x y z hx hy hz
  refine ⟨this.1, fun a ha => ?_⟩
  rw [this.2.2 a ha, hl]
  refine Finset.sum_congr rfl fun i hi => ?_
  rw [List.getD_eq_getElem?_getD, List.getElem?_map, List.getElem?_range (Finset.mem_range.1 hi)]
  rfl

/-- The product that accumulates adds the same sum. -/
theorem matvec_no_overwrite_interpolates : ∃ op' cs, op.set t d = some (op', true) ∧ op'.coeffs = cs.map some ∧
    ∀ a, a < r → (sumMatvecNoOverwrite ops cs x y z).1.getD a 0 =
      y.getD a 0 + ∑ i ∈ Finset.range nodes.length, lag nodes d i t * mulVec c (M i) x a := by
  obtain ⟨op', e, _, _, _, hc⟩ := set_coeffs h hn t ht d hd
  refine ⟨op', (List.range nodes.length).map fun i => lag nodes d i t, e, by rw [hc, List.map_map]; rfl, ?_⟩
  have hl : ((List.range nodes.length).map fun i => lag nodes d i t).length = nodes.length := by simp
  have := sumMatvecNoOverwrite_ok ops ((List.range nodes.length).map fun i => lag nodes d i t) r c M
    (by rw [hl]; exact hM.rows) (by rw [hl]; exact hM.cols) (by rw [hl]; exact hM.is) x y z hx hy hz
  intro a ha
  rw [this.2 a ha, hl]
  refine congrArg _ (Finset.sum_congr rfl fun i hi => ?_)
  rw [List.getD_eq_getElem?_getD, List.getElem?_map, List.getElem?_range (Finset.mem_range.1 hi)]
  rfl

/-- If the operators are the values at the nodes of a matrix whose entries are polynomials of degree
below the number of nodes, the product is that of derivative `d` of this matrix at `t`. -/
theorem reproduces_polynomials (Q : Nat → Nat → K[X]) (hQ : ∀ a b, a < r → b < c → (Q a b).degree < nodes.length)
    (hMQ : ∀ i a b, i < nodes.length → a < r → b < c → M i a b = (Q a b).eval (nodes.getD i 0)) :
    ∃ op' cs, op.set t d = some (op', true) ∧ op'.coeffs = cs.map some ∧
    ∀ a, a < r → (sumMatvec ops cs x y z).1.getD a 0 = mulVec c (fun a b => ((derivative^[d]) (Q a b)).eval t) x a := by
  obtain ⟨op', cs, e, hc, _, hv⟩ := matvec_interpolates h hn t ht d hd hM x y z hx hy hz
  refine ⟨op', cs, e, hc, fun a ha => ?_⟩
  rw [hv a ha]
  unfold mulVec
  simp_rw [Finset.mul_sum]
  rw [Finset.sum_comm]
  refine Finset.sum_congr rfl fun b hb => ?_
  have hb' := Finset.mem_range.1 hb
  have hinj : Set.InjOn (fun j => nodes.getD j 0) (Finset.range nodes.length : Set Nat) := fun u hu v hv e =>
    inj_nodes (reach_inv h).1 u v (Finset.mem_range.1 hu) (Finset.mem_range.1 hv) e
  have hq : Q a b = Lagrange.interpolate (Finset.range nodes.length) (fun j => nodes.getD j 0) fun i => (Q a b).eval (nodes.getD i 0) :=
    Lagrange.eq_interpolate hinj (by rw [Finset.card_range]; exact hQ a b ha hb')
  rw [hq, Lagrange.interpolate_apply]
  have hsum : ∀ (m : Nat) (f : Nat → K[X]) (s : Finset Nat), (derivative^[m]) (∑ i ∈ s, f i) = ∑ i ∈ s, (derivative^[m]) (f i) := by
    intro m f s
    induction m generalizing f with
    | zero => rfl
    | succ m ih => simp only [Function.iterate_succ_apply, derivative_sum]; exact ih _
  rw [hsum, eval_finsetSum, Finset.sum_mul]
  refine Finset.sum_congr rfl fun i hi => ?_
  rw [iterate_derivative_C_mul, eval_mul, eval_C, hMQ i a b (Finset.mem_range.1 hi) ha hb']
  unfold lag
  ring

end

/-- At a node the operator is exactly the given operator. -/
theorem at_node {nodes : List K} {left right : K} {op : InterpOp K} (h : Reach nodes left right op)
    (m : Nat) (hm : m < nodes.length) (ht : left ≤ nodes.getD m 0 ∧ nodes.getD m 0 ≤ right) {ops : List (Blk K)} {r c : Nat}
    {M : Nat → Nat → Nat → K} (hM : Ops ops nodes.length r c M) (x y z : List K) (hx : x.length = c) (hy : y.length = r)
    (hz : z.length = r) : ∃ op' cs, op.set (nodes.getD m 0) 0 = some (op', true) ∧ op'.coeffs = cs.map some ∧
    ∀ a, a < r → (sumMatvec ops cs x y z).1.getD a 0 = mulVec c (M m) x a := by
  have hn : nodes ≠ [] := fun e => by rw [e] at hm; exact absurd hm (Nat.not_lt_zero _)
  obtain ⟨op', cs, e, hc, _, hv⟩ := matvec_interpolates h hn _ ht 0 (by omega) hM x y z hx hy hz
  refine ⟨op', cs, e, hc, fun a ha => ?_⟩
  have hinj : Set.InjOn (fun j => nodes.getD j 0) (Finset.range nodes.length : Set Nat) := fun u hu v hv e =>
    inj_nodes (reach_inv h).1 u v (Finset.mem_range.1 hu) (Finset.mem_range.1 hv) e
  rw [hv a ha, Finset.sum_eq_single m]
  · unfold lag
    have := Lagrange.eval_basis_self hinj (Finset.mem_range.2 hm)
    simp only [Function.iterate_zero, id_eq]
    rw [this, one_mul]
  · intro i _ him
    unfold lag
    have := Lagrange.eval_basis_of_ne (v := fun j => nodes.getD j 0) him (Finset.mem_range.2 hm)
    simp only [Function.iterate_zero, id_eq]
    rw [this, zero_mul]
  · exact fun hn => absurd (Finset.mem_range.2 hm) hn

/-! ### Several intervals -/

/-- States of an operator on several intervals after its construction and any successful calls of `set`. -/
inductive MReach (intervals : List (K × K)) (nodes : List (List K)) : MultiOp K → Prop
  | init {m} : MultiOp.init intervals nodes = some m → MReach intervals nodes m
  | set {m m' : MultiOp K} {t d} : MReach intervals nodes m → m.set t d = some m' → MReach intervals nodes m'

private theorem mapM_ok {α β : Type} (f : α → Option β) : ∀ (l : List α) (r : List β), l.mapM f = some r →
    r.length = l.length ∧ ∀ (k : Nat) (a : α), l[k]? = some a → ∃ b, r[k]? = some b ∧ f a = some b := by
  intro l
  induction l with
  | nil => intro r h; rw [List.mapM_nil] at h; cases h; simp
  | cons a l ih =>
    intro r h
    rw [List.mapM_cons] at h
    cases hf : f a with
    | none => rw [hf] at h; cases h
    | some b =>
      rw [hf] at h
      cases hl : l.mapM f with
      | none => rw [hl] at h; cases h
      | some s =>
        rw [hl] at h
        cases h
        obtain ⟨h1, h2⟩ := ih s hl
        refine ⟨by simp [h1], fun k c hk => ?_⟩
        cases k with
        | zero => simp only [List.getElem?_cons_zero, Option.some.injEq] at hk; subst hk; exact ⟨b, rfl, hf⟩
        | succ k => simp only [List.getElem?_cons_succ] at hk ⊢; exact h2 k c hk

private theorem foldl_min (l : List (K × K)) (a : K) : l.foldl (fun l iv => min l iv.1) a ≤ a ∧
    ∀ iv ∈ l, l.foldl (fun l iv => min l iv.1) a ≤ iv.1 := by
  induction l generalizing a with
  | nil => simp
  | cons b l ih =>
    obtain ⟨h1, h2⟩ := ih (min a b.1)
    simp only [List.foldl_cons, List.mem_cons]
    refine ⟨h1.trans (min_le_left _ _), fun iv hiv => ?_⟩
    rcases hiv with rfl | hiv
    · exact h1.trans (min_le_right _ _)
    · exact h2 iv hiv

private theorem foldl_max (l : List (K × K)) (a : K) : a ≤ l.foldl (fun l iv => max l iv.2) a ∧
    ∀ iv ∈ l, iv.2 ≤ l.foldl (fun l iv => max l iv.2) a := by
  induction l generalizing a with
  | nil => simp
  | cons b l ih =>
    obtain ⟨h1, h2⟩ := ih (max a b.2)
    simp only [List.foldl_cons, List.mem_cons]
    refine ⟨(le_max_left _ _).trans h1, fun iv hiv => ?_⟩
    rcases hiv with rfl | hiv
    · exact (le_max_right _ _).trans h1
    · exact h2 iv hiv

private theorem mreach_inv {intervals : List (K × K)} {nodes : List (List K)} (hl : nodes.length = intervals.length) {m : MultiOp K}
    (h : MReach intervals nodes m) : m.ops.length = intervals.length ∧
      (∀ (k : Nat) (iv : K × K) (ns : List K), intervals[k]? = some iv → nodes[k]? = some ns → ∃ op, m.ops[k]? = some op ∧ Reach ns iv.1 iv.2 op) ∧
      (∀ iv ∈ intervals, m.left ≤ iv.1 ∧ iv.2 ≤ m.right) := by
  induction h with
  | @init m e =>
    unfold MultiOp.init at e
    split at e
    · cases e
    · rename_i iv ivs
      cases hm : ((iv :: ivs).zip nodes).mapM fun p => InterpOp.init p.2 p.1.1 p.1.2 with
      | none => rw [hm] at e; cases e
      | some ops =>
        rw [hm] at e
        cases e
        obtain ⟨h1, h2⟩ := mapM_ok _ _ _ hm
        refine ⟨h1.trans (by rw [List.length_zip, hl, Nat.min_self]), fun k jv ns hk hs => ?_, fun jv hjv => ?_⟩
        · obtain ⟨op, h3, h4⟩ := h2 k (jv, ns) (by rw [List.getElem?_zip_eq_some]; exact ⟨hk, hs⟩)
          exact ⟨op, h3, Reach.init h4⟩
        · obtain ⟨a1, a2⟩ := foldl_min ivs iv.1
          obtain ⟨b1, b2⟩ := foldl_max ivs iv.2
          rcases List.mem_cons.1 hjv with rfl | hj
          · exact ⟨a1, b1⟩
          · exact ⟨a2 _ hj, b2 _ hj⟩
  | @set m m' t d _ e ih =>
    obtain ⟨i1, i2, i3⟩ := ih
    unfold MultiOp.set at e
    split at e
    · split at e
      · rename_i k hk
        split at e
        · rename_i op hop
          split at e
          · rename_i op' hs
            cases e
            have hkl : k < m.ops.length := (List.getElem?_eq_some_iff.1 hop).1
            refine ⟨by simp [i1], fun j jv ns hj hs' => ?_, i3⟩
            obtain ⟨o, ho, hR⟩ := i2 j jv ns hj hs'
            by_cases hjk : j = k
            · subst hjk
              rw [hop] at ho; cases ho
              exact ⟨op', by rw [List.getElem?_set_self hkl], Reach.set hR hs⟩
            · exact ⟨o, by rw [List.getElem?_set_ne (Ne.symm hjk)]; exact ho, hR⟩
          · cases e
        · cases e
      · cases e
    · cases e

/-- With several intervals, `set(t, d)` succeeds exactly if an interval contains `t`; it selects the
first such interval and gives the operator of this interval the Lagrange coefficients at `t`. -/
theorem multi_set {intervals : List (K × K)} {nodes : List (List K)} (hl : nodes.length = intervals.length)
    (hne : ∀ ns ∈ nodes, ns ≠ []) {m : MultiOp K} (h : MReach intervals nodes m) (t : K) (d : Nat) (hd : d ≤ 2) :
    ((m.set t d).isSome ↔ ∃ iv ∈ intervals, iv.1 ≤ t ∧ t ≤ iv.2) ∧
    ∀ m', m.set t d = some m' → ∃ (k : Nat) (iv : K × K) (ns : List K) (op : InterpOp K), m'.selected = some k ∧ intervals[k]? = some iv ∧ nodes[k]? = some ns ∧
      (iv.1 ≤ t ∧ t ≤ iv.2) ∧ (∀ (j : Nat) (jv : K × K), j < k → intervals[j]? = some jv → ¬ (jv.1 ≤ t ∧ t ≤ jv.2)) ∧
      m'.ops[k]? = some op ∧ op.val = some t ∧ op.coeffs = (List.range ns.length).map fun i => some (lag ns d i t) := by
  obtain ⟨i1, i2, i3⟩ := mreach_inv hl h
  -- the operator of every interval
  have hop : ∀ k, k < intervals.length → ∃ iv ns op, intervals[k]? = some iv ∧ nodes[k]? = some ns ∧ m.ops[k]? = some op ∧
      Reach ns iv.1 iv.2 op ∧ ns ≠ [] := by
    intro k hk
    obtain ⟨op, ho, hR⟩ := i2 k intervals[k] (nodes[k]'(by omega)) (List.getElem?_eq_getElem hk) (List.getElem?_eq_getElem (by omega))
    exact ⟨_, _, op, List.getElem?_eq_getElem hk, List.getElem?_eq_getElem (by omega), ho, hR, hne _ (List.getElem_mem _)⟩
  by_cases hex : ∃ iv ∈ intervals, iv.1 ≤ t ∧ t ≤ iv.2
  · have hrange : m.left ≤ t ∧ t ≤ m.right := by
      obtain ⟨iv, hiv, h1, h2⟩ := hex
      exact ⟨(i3 iv hiv).1.trans h1, h2.trans (i3 iv hiv).2⟩
    -- a first interval
    have hfind : ∃ k, findInterval m.ops t = some k := by
      unfold findInterval
      rw [← Option.isSome_iff_exists, List.findIdx?_isSome, List.any_eq_true]
      obtain ⟨iv, hiv, h1⟩ := hex
      obtain ⟨k, hk, rfl⟩ := List.getElem_of_mem hiv
      obtain ⟨iv', ns, op, e1, e2, e3, hR, _⟩ := hop k hk
      rw [List.getElem?_eq_getElem hk] at e1; cases e1
      refine ⟨op, List.mem_of_getElem? e3, ?_⟩
      rw [(reach_inv hR).2.2.1, (reach_inv hR).2.2.2.1]
      exact decide_eq_true h1
    obtain ⟨k, hk⟩ := hfind
    have hk' := hk
    unfold findInterval at hk'
    rw [List.findIdx?_eq_some_iff_getElem] at hk'
    obtain ⟨hkl, hk1, hk2⟩ := hk'
    obtain ⟨iv, ns, op, e1, e2, e3, hR, hns⟩ := hop k (by omega)
    have e3' := e3
    rw [List.getElem?_eq_getElem hkl] at e3'
    simp only [Option.some.injEq] at e3'
    rw [e3', (reach_inv hR).2.2.1, (reach_inv hR).2.2.2.1] at hk1
    have hin := of_decide_eq_true hk1
    obtain ⟨op', s1, s2, _, _, s5⟩ := set_coeffs hR hns t hin d hd
    have hset : m.set t d = some { m with ops := m.ops.set k op', selected := some k } := by
      unfold MultiOp.set
      rw [if_pos hrange, hk]
      simp only [e3, s1]
    refine ⟨by rw [hset]; simp only [Option.isSome_some, true_iff]; exact hex, fun m' hm' => ?_⟩
    rw [hset] at hm'
    cases hm'
    refine ⟨k, iv, ns, op', rfl, e1, e2, hin, fun j jv hj hjv hc => ?_, by simp [hkl], s2, s5⟩
    obtain ⟨jv', _, jo, f1, _, f3, hRj, _⟩ := hop j (by omega)
    rw [hjv] at f1; cases f1
    have := hk2 j hj
    rw [List.getElem?_eq_getElem (by omega)] at f3
    simp only [Option.some.injEq] at f3
    rw [f3, (reach_inv hRj).2.2.1, (reach_inv hRj).2.2.2.1] at this
    exact this (decide_eq_true hc)
  · have hnone : m.set t d = none := by
      unfold MultiOp.set
      split
      · have : findInterval m.ops t = none := by
          unfold findInterval
          rw [List.findIdx?_eq_none_iff]
          intro op hop'
          obtain ⟨k, hk, rfl⟩ := List.getElem_of_mem hop'
          obtain ⟨iv, _, op, e1, _, e3, hR, _⟩ := hop k (by omega)
          rw [List.getElem?_eq_getElem hk] at e3
          simp only [Option.some.injEq] at e3
          rw [e3, (reach_inv hR).2.2.1, (reach_inv hR).2.2.2.1]
          exact decide_eq_false fun hc => hex ⟨iv, List.mem_of_getElem? e1, hc⟩
        rw [this]
      · rfl
    exact ⟨by rw [hnone]; simp only [Option.isSome_none, Bool.false_eq_true, false_iff]; exact hex, fun m' hm' => by rw [hnone] at hm'; cases hm'⟩

/-! ### Examples -/

/-- Nodes 0, 1, 3 at `t = 2`: values, first and second derivatives of the basis. -/
example : ((InterpOp.init ([0, 1, 3] : List ℚ) 0 3).bind fun op => (op.set 2 0).map fun r => r.1.coeffs) =
    some [some (-1/3), some 1, some (1/3)] := by decide +kernel
example : ((InterpOp.init ([0, 1, 3] : List ℚ) 0 3).bind fun op => (op.set 1 0).bind fun r => (r.1.set 2 1).map fun r => r.1.coeffs) =
    some [some 0, some (-1/2), some (1/2)] := by decide +kernel
example : ((InterpOp.init ([0, 1, 3] : List ℚ) 0 3).bind fun op => (op.set 2 2).map fun r => r.1.coeffs) =
    some [some (2/3), some (-1), some (1/3)] := by decide +kernel
/-- A value in a gap between the intervals is rejected, one in the second interval accepted. -/
example : ((MultiOp.init ([(0, 1), (2, 3)] : List (ℚ × ℚ)) [[0, 1], [2, 3]]).bind fun m => (m.set (3/2) 0).map fun m => m.selected) = none := by
  decide +kernel
example : ((MultiOp.init ([(0, 1), (2, 3)] : List (ℚ × ℚ)) [[0, 1], [2, 3]]).bind fun m => (m.set (5/2) 0).map fun m => m.selected) =
    some (some 1) := by
  decide +kernel
/-- Scalar operators `1`, `2`, `10` with coefficients `-1/3, 1, 1/3` applied to `x = 3`. -/
example : (sumMatvec ([⟨1, 1, false, fun x _ => x⟩, ⟨1, 1, false, fun x _ => x.map (2 * ·)⟩, ⟨1, 1, false, fun x _ => x.map (10 * ·)⟩] : List (Blk ℚ))
    [-1/3, 1, 1/3] [3] [7] [9]).1 = [15] := by decide +kernel

end PyNucleus.Props.C22
