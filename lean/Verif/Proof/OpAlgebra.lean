import Verif.Spec.OpAlgebra
import Verif.Proof.Blas
import Verif.Props.C08

/-! # Lemmas for the operator algebra -/

namespace PyNucleus.OpAlgebra

open PyNucleus.Loops PyNucleus.Spec PyNucleus.Blas

variable {K : Type}

/-- Length of the result and of the argument. -/
def outLen (op : Op K) (t : Bool) : Nat := if t then op.shape.2 else op.shape.1
def inLen (op : Op K) (t : Bool) : Nat := if t then op.shape.1 else op.shape.2

/-- Entry `i` of the product of the (transposed) matrix and `v`. -/
def mv [Field K] (op : Op K) (t : Bool) (v : List K) (i : Nat) : K :=
  mulVec (inLen op t) (if t then fun i j => op.mat j i else op.mat) v i

theorem mv_mult [Field K] (A : Op K) (f : K) (t : Bool) (v : List K) (i : Nat) :
    mv (.mult A f) t v i = mv A t v i * f := by
  unfold mv mulVec inLen
  rw [Finset.sum_mul]
  cases t <;> refine Finset.sum_congr rfl fun j _ => ?_ <;> simp [Op.mat] <;> ring

theorem mv_sum [Field K] (M S : Op K) (fs fm : K) (z : Nat) (h : M.shape = S.shape) (t : Bool) (v : List K) (i : Nat) :
    mv (.sum M S fs fm z) t v i = mv M t v i * fm + mv S t v i * fs := by
  unfold mv mulVec inLen
  simp only [Op.shape]
  rw [← h, Finset.sum_mul, Finset.sum_mul, ← Finset.sum_add_distrib]
  cases t <;> refine Finset.sum_congr rfl fun j _ => ?_ <;> simp [Op.mat] <;> ring

theorem mv_prod [Field K] (A B : Op K) (b : Nat) (v w : List K) (i : Nat)
    (hw : ∀ k, k < A.shape.2 → w.getD k 0 = mv B false v k) : mv (.prod A B b) false v i = mv A false w i := by
  have e : mv A false w i = ∑ k ∈ Finset.range A.shape.2, A.mat i k * mv B false v k := by
    conv => lhs; unfold mv mulVec
    exact Finset.sum_congr rfl fun k hk => by rw [hw k (Finset.mem_range.1 hk)]; rfl
  rw [e]
  unfold mv mulVec inLen
  simp only [Op.shape, Op.mat, Bool.false_eq_true, if_false, Finset.mul_sum, Finset.sum_mul]
  rw [Finset.sum_comm]
  exact Finset.sum_congr rfl fun j _ => Finset.sum_congr rfl fun k _ => by ring

theorem mv_prod_trans [Field K] (A B : Op K) (b : Nat) (hs : A.shape.2 = B.shape.1) (v w : List K) (i : Nat)
    (hw : ∀ k, k < A.shape.2 → w.getD k 0 = mv A true v k) : mv (.prod A B b) true v i = mv B true w i := by
  have e : mv B true w i = ∑ k ∈ Finset.range A.shape.2, B.mat k i * mv A true v k := by
    rw [hs]
    conv => lhs; unfold mv mulVec
    exact Finset.sum_congr rfl fun k hk => by rw [hw k (by rw [hs]; exact Finset.mem_range.1 hk)]; rfl
  rw [e]
  unfold mv mulVec inLen
  simp only [Op.shape, Op.mat, if_true, Finset.mul_sum, Finset.sum_mul]
  rw [Finset.sum_comm]
  exact Finset.sum_congr rfl fun j _ => Finset.sum_congr rfl fun k _ => by ring

theorem mv_congr [Field K] (op : Op K) (t : Bool) (v w : List K) (h : v = w) (i : Nat) : mv op t v i = mv op t w i := by rw [h]

/-- What a call leaves behind: the result at `y`, everything else but the buffers unchanged. -/
structure Good [Zero K] (h h' : Heap K) (y : Nat) (bufs : List Nat) (n : Nat) (w : Nat → K) : Prop where
  val : ∀ i, i < n → (h' y).getD i 0 = w i
  frame : ∀ a, a ≠ y → a ∉ bufs → h' a = h a
  len : ∀ a, (h' a).length = (h a).length

theorem Good.weaken [Zero K] {h h' : Heap K} {y : Nat} {bufs bufs' : List Nat} {n : Nat} {w : Nat → K} (g : Good h h' y bufs n w)
    (hb : ∀ a ∈ bufs, a ∈ bufs') : Good h h' y bufs' n w :=
  ⟨g.val, fun a h1 h2 => g.frame a h1 fun x => h2 (hb a x), g.len⟩

theorem put_self (h : Heap K) (a : Nat) (v : List K) : put h a v a = v := if_pos rfl
theorem put_other (h : Heap K) (a b : Nat) (v : List K) (hn : b ≠ a) : put h a v b = h b := if_neg hn

theorem scaleAt_good [Semiring K] (h : Heap K) (y n : Nat) (f : K) (hn : (h y).length = n) :
    Good h (scaleAt h y f) y [] n fun i => (h y).getD i 0 * f := by
  have e := scaleScalar_eq (h y) f
  refine ⟨fun i hi => ?_, fun a ha _ => put_other _ _ _ _ ha, fun a => ?_⟩
  · unfold scaleAt; rw [put_self]; exact e.2 i (by omega)
  · unfold scaleAt put; split
    · subst_vars; exact e.1
    · rfl

theorem assign3At_good [Semiring K] (h : Heap K) (y n z : Nat) (a b : K) (hn : (h y).length = n) (hz : (h z).length = n) :
    ∃ h', assign3At h y a z b = some h' ∧ Good h h' y [] n fun i => a * (h y).getD i 0 + b * (h z).getD i 0 := by
  have e := assign3Self_eq (h y) a (h z) b
  refine ⟨_, if_pos (by omega), fun i hi => ?_, fun a ha _ => put_other _ _ _ _ ha, fun a => ?_⟩
  · rw [put_self]; exact e.2 i (by omega)
  · unfold put; split
    · subst_vars; exact e.1
    · rfl

theorem kernel_good [Zero K] (r c x y : Nat) (h : Heap K) (f : List K → List K → List K) (w : Nat → K)
    (hx : (h x).length = c) (hy : (h y).length = r) (hl : (f (h x) (h y)).length = (h y).length)
    (hv : ∀ i, i < r → (f (h x) (h y)).getD i 0 = w i) :
    ∃ h', kernel r c x y h f = some h' ∧ Good h h' y [] r w := by
  refine ⟨_, if_pos ⟨by omega, by omega⟩, fun i hi => by rw [put_self]; exact hv i hi, fun a ha _ => put_other _ _ _ _ ha,
    fun a => ?_⟩
  unfold put; split
  · subst_vars; exact hl
  · rfl

theorem sized_of_len {h h' : Heap K} (hl : ∀ a, (h' a).length = (h a).length) (op : Op K) (hs : op.Sized h) : op.Sized h' := by
  induction op with
  | mult A f ih => exact ih hs
  | sum M S fs fm z ihM ihS => exact ⟨(hl z).trans hs.1, ihM hs.2.1, ihS hs.2.2⟩
  | prod A B b ihA ihB => exact ⟨(hl b).trans hs.1, ihA hs.2.1, ihB hs.2.2⟩
  | trans A ih => exact ih hs
  | _ => trivial

/-- Conditions for a call. -/
structure Pre [Field K] (op : Op K) (t : Bool) (x y : Nat) (h : Heap K) : Prop where
  wf : op.WF
  ok : if t then op.TransOK else op.Usable
  sized : op.Sized h
  xb : x ∉ op.bufs
  yb : y ∉ op.bufs
  xy : x ≠ y
  lx : (h x).length = inLen op t
  ly : (h y).length = outLen op t

/-- The claim for one operator. -/
def Claim [Field K] [DecidableEq K] (op : Op K) : Prop :=
  ∀ (t acc : Bool) (x y : Nat) (h : Heap K), Pre op t x y h →
    ∃ h', run op t acc x y h = some h' ∧
      Good h h' y op.bufs (outLen op t) fun i => (if acc then (h y).getD i 0 else 0) + mv op t (h x) i

theorem claim_csr [Field K] [DecidableEq K] (A : CSR K) : Claim (.csr A) := by
  intro t acc x y h p
  have hA : A.Valid := p.wf
  have lx := p.lx
  have ly := p.ly
  cases t <;> cases acc
  · have e := Props.C08.matvec_correct false A hA (h x) (h y) ly
    exact kernel_good _ _ x y h _ _ lx ly (by rw [e.1]; exact ly.symm) fun i hi => by
      rw [e.2 i hi]; simp [mv, inLen, Op.shape]; rfl
  · have e := Props.C08.matvec_no_overwrite_correct false A hA (h x) (h y) ly
    exact kernel_good _ _ x y h _ _ lx ly (by rw [e.1]; exact ly.symm) fun i hi => by
      rw [e.2 i hi]; rfl
  · have e := Props.C08.matvecTrans_correct_partial A hA (h x) (h y) ly
    exact kernel_good _ _ x y h _ _ lx ly (by rw [e.1]; exact ly.symm) fun i hi => by
      rw [e.2 i hi]; simp [mv, inLen, Op.shape]; rfl
  · have e := Props.C08.matvecTrans_no_overwrite_correct_partial A hA (h x) (h y) ly
    exact kernel_good _ _ x y h _ _ lx ly (by rw [e.1]; exact ly.symm) fun i hi => by
      rw [e.2 i hi]; rfl

theorem claim_dense [Field K] [DecidableEq K] (A : Dense K) : Claim (.dense A) := by
  intro t acc x y h p
  have lx := p.lx
  have ly := p.ly
  cases t
  · cases acc
    · have e := gemv_eq A (h x) (h y) 0 (by rw [ly]; exact Nat.le_refl _)
      exact kernel_good _ _ x y h _ _ lx ly e.1 fun i hi => by rw [e.2 i hi, zero_mul]; rfl
    · have e := gemv_eq A (h x) (h y) 1 (by rw [ly]; exact Nat.le_refl _)
      exact kernel_good _ _ x y h _ _ lx ly e.1 fun i hi => by rw [e.2 i hi, one_mul]; rfl
  · have hr : A.numRows ≤ A.numCols := p.ok
    cases acc
    · obtain ⟨v, e1, e2, e3⟩ := gemvT_eq A (h x) (h y) 0 ly (Or.inl rfl)
      simp only [run, e1, Option.bind_eq_bind, Option.bind_some]
      exact kernel_good _ _ x y h _ _ lx ly e2 fun i hi => by rw [e3 i hi, zero_mul]; rfl
    · obtain ⟨v, e1, e2, e3⟩ := gemvT_eq A (h x) (h y) 1 ly (Or.inr ⟨rfl, hr⟩)
      simp only [run, e1, Option.bind_eq_bind, Option.bind_some]
      exact kernel_good _ _ x y h _ _ lx ly e2 fun i hi => by rw [e3 i hi, one_mul]; rfl

theorem mulVec_diag [Field K] (n : Nat) (d : Nat → K) (v : List K) (i : Nat) (hi : i < n) :
    mulVec n (fun i j => if i = j then d i else 0) v i = d i * v.getD i 0 := by
  unfold mulVec
  rw [Finset.sum_eq_single_of_mem i (Finset.mem_range.2 hi)]
  · beta_reduce; rw [if_pos rfl]
  · intro j _ hj
    beta_reduce; rw [if_neg fun e => hj e.symm, zero_mul]

theorem claim_diag [Field K] [DecidableEq K] (d : List K) : Claim (.diag d) := by
  intro t acc x y h p
  have lx := p.lx
  have ly : (h y).length = outLen (.diag d) t := p.ly
  cases t
  swap
  · exact absurd p.ok (by simp [Op.TransOK])
  have ly' : (h y).length = d.length := ly
  have hm : ∀ i, i < d.length → mv (.diag d) false (h x) i = d.getD i 0 * (h x).getD i 0 := fun i hi =>
    mulVec_diag d.length (fun i => d.getD i 0) (h x) i hi
  cases acc
  · have z := CSR.forRange_set (h y) (h y).length (Nat.le_refl _) fun _ _ => (0 : K)
    have e := CSR.forRange_set (forRange 0 (h y).length (h y) fun y i => y.set i 0) d.length (by rw [z.1]; omega)
      fun i _ => d.getD i 0 * (h x).getD i 0
    exact kernel_good _ _ x y h _ _ lx ly (e.1.trans z.1) fun i hi => by
      rw [hm i hi]; refine (e.2 i).trans ?_; rw [if_pos hi]; simp
  · have e := CSR.forRange_set (h y) d.length (by omega) fun i o => o + d.getD i 0 * (h x).getD i 0
    exact kernel_good _ _ x y h _ _ lx ly e.1 fun i hi => by
      rw [hm i hi]; refine (e.2 i).trans ?_; rw [if_pos hi]; rfl

theorem claim_ident [Field K] [DecidableEq K] (n : Nat) (alpha : K) : Claim (.ident n alpha) := by
  intro t acc x y h p
  have lx := p.lx
  have ly : (h y).length = outLen (.ident n alpha) t := p.ly
  cases t
  swap
  · exact absurd p.ok (by simp [Op.TransOK])
  have ly' : (h y).length = n := ly
  have hm : ∀ i, i < n → mv (.ident n alpha) false (h x) i = alpha * (h x).getD i 0 := fun i hi =>
    mulVec_diag n (fun _ => alpha) (h x) i hi
  cases acc
  · have e := CSR.forRange_set (h y) n (by omega) fun i _ => alpha * (h x).getD i 0
    exact kernel_good _ _ x y h _ _ lx ly e.1 fun i hi => by
      rw [hm i hi]; refine (e.2 i).trans ?_; rw [if_pos hi]; simp
  · have e := CSR.forRange_set (h y) n (by omega) fun i o => o + alpha * (h x).getD i 0
    exact kernel_good _ _ x y h _ _ lx ly e.1 fun i hi => by
      rw [hm i hi]; refine (e.2 i).trans ?_; rw [if_pos hi]; rfl

theorem claim_null [Field K] [DecidableEq K] (r c : Nat) : Claim (.null r c : Op K) := by
  intro t acc x y h p
  have ly : (h y).length = outLen (.null r c) t := p.ly
  cases t
  swap
  · exact absurd p.ok (by simp [Op.TransOK])
  have ly' : (h y).length = r := ly
  have hm : ∀ i, mv (.null r c : Op K) false (h x) i = 0 := fun i => by
    unfold mv mulVec
    exact Finset.sum_eq_zero fun j _ => zero_mul _
  cases acc
  · have e := CSR.forRange_set (h y) r (by omega) fun _ _ => (0 : K)
    refine ⟨_, if_pos ⟨Nat.zero_le _, by omega⟩, fun i hi => ?_, fun a ha _ => put_other _ _ _ _ ha, fun a => ?_⟩
    · rw [put_self, hm]; refine (e.2 i).trans ?_; rw [if_pos (show i < r from hi)]; simp
    · unfold put; split
      · subst_vars; exact e.1
      · rfl
  · exact ⟨h, rfl, fun i _ => by rw [hm]; simp, fun _ _ _ => rfl, fun _ => rfl⟩

theorem claim_mult [Field K] [DecidableEq K] (A : Op K) (f : K) (ih : Claim A) : Claim (.mult A f) := by
  intro t acc x y h p
  have pA : Pre A t x y h := ⟨p.wf, by have := p.ok; cases t <;> exact this, p.sized, p.xb, p.yb, p.xy, p.lx, p.ly⟩
  have key0 : ∃ h', (run A t false x y h).bind (fun h => some (scaleAt h y f)) = some h' ∧
      Good h h' y A.bufs (outLen A t) fun i => mv (.mult A f) t (h x) i := by
    obtain ⟨h1, e1, g1⟩ := ih t false x y h pA
    have g2 := scaleAt_good h1 y (outLen A t) f (by rw [g1.len]; exact pA.ly)
    rw [e1]
    refine ⟨_, rfl, fun i hi => ?_, fun a h1 h2 => ?_, fun a => by rw [g2.len, g1.len]⟩
    · rw [g2.val i hi, g1.val i hi, mv_mult]; simp
    · rw [g2.frame a h1 (by simp), g1.frame a h1 h2]
  have key1 : f ≠ 0 → ∃ h', (run A t true x y (scaleAt h y (1 / f))).bind (fun h => some (scaleAt h y f)) = some h' ∧
      Good h h' y A.bufs (outLen A t) fun i => (h y).getD i 0 + mv (.mult A f) t (h x) i := by
    intro hf
    have g0 := scaleAt_good h y (outLen A t) (1 / f) pA.ly
    have pA' : Pre A t x y (scaleAt h y (1 / f)) :=
      ⟨pA.wf, pA.ok, sized_of_len g0.len A pA.sized, pA.xb, pA.yb, pA.xy, by rw [g0.len]; exact pA.lx, by rw [g0.len]; exact pA.ly⟩
    obtain ⟨h1, e1, g1⟩ := ih t true x y _ pA'
    have g2 := scaleAt_good h1 y (outLen A t) f (by rw [g1.len]; exact pA'.ly)
    rw [e1]
    refine ⟨_, rfl, fun i hi => ?_, fun a h1 h2 => ?_, fun a => by rw [g2.len, g1.len, g0.len]⟩
    · rw [g2.val i hi, g1.val i hi, mv_mult, g0.frame x pA.xy (by simp)]
      simp only [if_true]
      rw [g0.val i hi, add_mul, mul_assoc, one_div, inv_mul_cancel₀ hf, mul_one]
    · rw [g2.frame a h1 (by simp), g1.frame a h1 h2, g0.frame a h1 (by simp)]
  cases acc
  · cases t
    · obtain ⟨h', e, g⟩ := key0
      refine ⟨h', ?_, ?_⟩
      · simp only [run]
        rw [if_pos ⟨pA.lx.symm, pA.ly.symm⟩]
        exact e
      · refine ⟨fun i hi => ?_, g.frame, g.len⟩
        rw [g.val i hi]; simp
    · obtain ⟨h', e, g⟩ := key0
      refine ⟨h', e, fun i hi => ?_, g.frame, g.len⟩
      rw [g.val i hi]; simp
  · by_cases hf : f = 0
    · refine ⟨h, ?_, fun i _ => ?_, fun _ _ _ => rfl, fun _ => rfl⟩
      · cases t <;> simp [run, hf]
      · rw [mv_mult, hf]; simp
    · obtain ⟨h', e, g⟩ := key1 hf
      refine ⟨h', ?_, g⟩
      cases t <;> simp only [run] <;> rw [if_pos hf] <;> exact e

theorem claim_prod [Field K] [DecidableEq K] (A B : Op K) (b : Nat) (ihA : Claim A) (ihB : Claim B) : Claim (.prod A B b) := by
  intro t acc x y h p
  obtain ⟨hs, hbA, hbB, wA, wB⟩ := p.wf
  obtain ⟨sb, sA, sB⟩ := p.sized
  have xb := p.xb
  have yb := p.yb
  simp only [Op.bufs, List.mem_cons, List.mem_append, not_or] at xb yb
  have lx := p.lx
  have ly := p.ly
  cases t
  · obtain ⟨okA, okB⟩ : A.Usable ∧ B.Usable := p.ok
    obtain ⟨h1, e1, g1⟩ := ihB false false x b h ⟨wB, okB, sB, xb.2.2, hbB, xb.1, lx, by rw [sb, hs]; rfl⟩
    obtain ⟨h2, e2, g2⟩ := ihA false acc b y h1 ⟨wA, okA, sized_of_len g1.len A sA, hbA, yb.2.1, fun e => yb.1 e.symm,
      by rw [g1.len, sb]; rfl, by rw [g1.len]; exact ly⟩
    refine ⟨h2, ?_, fun i hi => ?_, fun a ha hab => ?_, fun a => by rw [g2.len, g1.len]⟩
    · simp only [run, e1, Option.bind_eq_bind, Option.bind_some]; exact e2
    · rw [g2.val i hi, g1.frame y yb.1 yb.2.2, mv_prod A B b (h x) (h1 b) i]
      intro k hk
      rw [g1.val k (by rw [hs] at hk; exact hk)]; simp
    · simp only [Op.bufs, List.mem_cons, List.mem_append, not_or] at hab
      rw [g2.frame a ha hab.2.1, g1.frame a hab.1 hab.2.2]
  · obtain ⟨okA, okB⟩ : A.TransOK ∧ B.TransOK := p.ok
    obtain ⟨h1, e1, g1⟩ := ihA true false x b h ⟨wA, okA, sA, xb.2.1, hbA, xb.1, lx, by rw [sb]; rfl⟩
    obtain ⟨h2, e2, g2⟩ := ihB true acc b y h1 ⟨wB, okB, sized_of_len g1.len B sB, hbB, yb.2.2, fun e => yb.1 e.symm,
      by rw [g1.len, sb, hs]; rfl, by rw [g1.len]; exact ly⟩
    refine ⟨h2, ?_, fun i hi => ?_, fun a ha hab => ?_, fun a => by rw [g2.len, g1.len]⟩
    · simp only [run, e1, Option.bind_eq_bind, Option.bind_some]; exact e2
    · rw [g2.val i hi, g1.frame y yb.1 yb.2.1, mv_prod_trans A B b hs (h x) (h1 b) i]
      intro k hk
      rw [g1.val k hk]; simp
    · simp only [Op.bufs, List.mem_cons, List.mem_append, not_or] at hab
      rw [g2.frame a ha hab.2.2, g1.frame a hab.1 hab.2.1]

theorem claim_trans [Field K] [DecidableEq K] (A : Op K) (ih : Claim A) : Claim (.trans A) := by
  intro t acc x y h p
  cases t
  swap
  · exact absurd p.ok (by simp [Op.TransOK])
  obtain ⟨h', e, g⟩ := ih true acc x y h ⟨p.wf, p.ok, p.sized, p.xb, p.yb, p.xy, p.lx, p.ly⟩
  exact ⟨h', e, g⟩

/-- Part `+ facS*S x`, accumulated onto `y`. -/
theorem acc_step [Field K] [DecidableEq K] (S : Op K) (ih : Claim S) (t : Bool) (f : K) (x y z : Nat) (h : Heap K)
    (p : Pre S t x y h) (hz : f = 1 ∨ (h z).length = outLen S t) (hzS : z ∉ S.bufs) (hzy : z ≠ y) (hzx : x ≠ z) :
    ∃ h', (if f = 1 then run S t true x y h
        else if f ≠ 0 then (run S t false x z h).bind fun h => assign3At h y 1 z f
        else some h) = some h' ∧
      Good h h' y (z :: S.bufs) (outLen S t) fun i => (h y).getD i 0 + mv S t (h x) i * f := by
  by_cases hf : f = 1
  · rw [if_pos hf]
    obtain ⟨h1, e1, g1⟩ := ih t true x y h p
    refine ⟨h1, e1, (?_ : Good h h1 y S.bufs _ _).weaken fun a ha => List.mem_cons_of_mem _ ha⟩
    refine ⟨fun i hi => ?_, g1.frame, g1.len⟩
    rw [g1.val i hi, hf]; simp
  · rw [if_neg hf]
    by_cases h0 : f = 0
    · rw [if_neg (fun e => e h0)]
      exact ⟨h, rfl, fun i _ => by rw [h0]; simp, fun _ _ _ => rfl, fun _ => rfl⟩
    · rw [if_pos h0]
      have hzl := hz.resolve_left hf
      obtain ⟨h1, e1, g1⟩ := ih t false x z h ⟨p.wf, p.ok, p.sized, p.xb, hzS, hzx, p.lx, hzl⟩
      obtain ⟨h2, e2, g2⟩ := assign3At_good h1 y (outLen S t) z 1 f (by rw [g1.len]; exact p.ly) (by rw [g1.len]; exact hzl)
      rw [e1]
      refine ⟨h2, e2, fun i hi => ?_, fun a ha hab => ?_, fun a => by rw [g2.len, g1.len]⟩
      · rw [g2.val i hi, g1.val i hi, g1.frame y (fun e => hzy e.symm) p.yb, one_mul]
        simp only [Bool.false_eq_true, if_false, zero_add]
        rw [mul_comm f]
      · simp only [List.mem_cons, not_or] at hab
        rw [g2.frame a ha (by simp), g1.frame a hab.1 hab.2]

/-- Part `facS*S x`, written to `y`. -/
theorem set_step [Field K] [DecidableEq K] (S : Op K) (ih : Claim S) (t : Bool) (f : K) (x y : Nat) (h : Heap K)
    (p : Pre S t x y h) :
    ∃ h', ((run S t false x y h).bind fun h => some (if f ≠ 1 then scaleAt h y f else h)) = some h' ∧
      Good h h' y S.bufs (outLen S t) fun i => mv S t (h x) i * f := by
  obtain ⟨h1, e1, g1⟩ := ih t false x y h p
  rw [e1]
  by_cases hf : f = 1
  · refine ⟨h1, by simp [hf], fun i hi => ?_, g1.frame, g1.len⟩
    rw [g1.val i hi, hf]; simp
  · have g2 := scaleAt_good h1 y (outLen S t) f (by rw [g1.len]; exact p.ly)
    refine ⟨_, by simp only [Option.bind_some]; rw [if_pos hf], fun i hi => ?_, fun a ha hab => ?_, fun a => by rw [g2.len, g1.len]⟩
    · rw [g2.val i hi, g1.val i hi]; simp
    · rw [g2.frame a ha (by simp), g1.frame a ha hab]

theorem claim_sum [Field K] [DecidableEq K] (M S : Op K) (fs fm : K) (z : Nat) (ihM : Claim M) (ihS : Claim S) :
    Claim (.sum M S fs fm z) := by
  intro t acc x y h p
  obtain ⟨hs, hzM, hzS, wM, wS⟩ := p.wf
  obtain ⟨sz, sM, sS⟩ := p.sized
  have xb := p.xb
  have yb := p.yb
  simp only [Op.bufs, List.mem_cons, List.mem_append, not_or] at xb yb
  have lx := p.lx
  have ly := p.ly
  have okM : if t then M.TransOK else M.Usable := by
    have := p.ok
    cases t
    · exact this.1
    · exact this.2.2.1
  have okS : if t then S.TransOK else S.Usable := by
    have := p.ok
    cases t
    · exact this.2
    · exact this.2.2.2
  have hout : outLen (.sum M S fs fm z) t = outLen M t := rfl
  have hoS : outLen S t = outLen M t := by unfold outLen; rw [hs]
  have hiS : inLen S t = inLen M t := by unfold inLen; rw [hs]
  have pS : Pre S t x y h := ⟨wS, okS, sS, xb.2.2, yb.2.2, p.xy, by rw [hiS]; exact lx, by rw [hoS]; exact ly⟩
  -- the buffer has the right length, or is not needed
  have hzl : (h z).length = outLen M t ∨ fs = 1 ∧ fm = 1 := by
    have ok := p.ok
    cases t
    · exact Or.inl sz
    · rcases ok.2.1 with e | e
      · left; rw [sz, e]; rfl
      · exact Or.inr e
  have finish : ∀ (w : Nat → K) (h1 : Heap K), Good h h1 y (z :: S.bufs) (outLen S t) w →
      ∃ h', (if fm = 1 then run M t true x y h1 else if fm ≠ 0 then (run M t false x z h1).bind fun h => assign3At h y 1 z fm
        else some h1) = some h' ∧ Good h h' y (z :: (M.bufs ++ S.bufs)) (outLen M t) fun i => w i + mv M t (h x) i * fm := by
    intro w h1 g1
    have hx : h1 x = h x := g1.frame x p.xy (by simp only [List.mem_cons, not_or]; exact ⟨xb.1, xb.2.2⟩)
    obtain ⟨h2, e2, g2⟩ := acc_step M ihM t fm x y z h1
      ⟨wM, okM, sized_of_len g1.len M sM, xb.2.1, yb.2.1, p.xy, by rw [g1.len]; exact lx, by rw [g1.len]; exact ly⟩
      (by rw [g1.len]; exact hzl.symm.imp And.right id) hzM (fun e => yb.1 e.symm) xb.1
    refine ⟨h2, e2, fun i hi => ?_, fun a ha hab => ?_, fun a => by rw [g2.len, g1.len]⟩
    · rw [g2.val i hi, hx, g1.val i (by rw [hoS]; exact hi)]
    · simp only [List.mem_cons, List.mem_append, not_or] at hab
      rw [g2.frame a ha (by simp only [List.mem_cons, not_or]; exact ⟨hab.1, hab.2.1⟩),
        g1.frame a ha (by simp only [List.mem_cons, not_or]; exact ⟨hab.1, hab.2.2⟩)]
  -- with fm = 0 the code of `matvec` goes through the buffer
  have finish0 : ∀ (w : Nat → K) (h1 : Heap K), Good h h1 y (z :: S.bufs) (outLen S t) w →
      ∃ h', (if fm = 1 then run M t true x y h1 else (run M t false x z h1).bind fun h => assign3At h y 1 z fm) = some h' ∧
        Good h h' y (z :: (M.bufs ++ S.bufs)) (outLen M t) fun i => w i + mv M t (h x) i * fm := by
    intro w h1 g1
    by_cases hfm : fm = 0
    · have hx : h1 x = h x := g1.frame x p.xy (by simp only [List.mem_cons, not_or]; exact ⟨xb.1, xb.2.2⟩)
      have h01 : ¬ fm = 1 := by rw [hfm]; exact zero_ne_one
      rw [if_neg h01]
      have hz' : (h z).length = outLen M t := hzl.resolve_right fun e => h01 e.2
      obtain ⟨h2, e2, g2⟩ := ihM t false x z h1
        ⟨wM, okM, sized_of_len g1.len M sM, xb.2.1, hzM, xb.1, by rw [g1.len]; exact lx, by rw [g1.len]; exact hz'⟩
      obtain ⟨h3, e3, g3⟩ := assign3At_good h2 y (outLen M t) z 1 fm (by rw [g2.len, g1.len]; exact ly) (by rw [g2.len, g1.len]; exact hz')
      rw [e2]
      refine ⟨h3, e3, fun i hi => ?_, fun a ha hab => ?_, fun a => by rw [g3.len, g2.len, g1.len]⟩
      · rw [g3.val i hi, g2.frame y yb.1 yb.2.1, g1.val i (by rw [hoS]; exact hi), hfm]; simp
      · simp only [List.mem_cons, List.mem_append, not_or] at hab
        rw [g3.frame a ha (by simp), g2.frame a hab.1 hab.2.1,
          g1.frame a ha (by simp only [List.mem_cons, not_or]; exact ⟨hab.1, hab.2.2⟩)]
    · obtain ⟨h', e, g⟩ := finish w h1 g1
      rw [if_pos hfm] at e
      exact ⟨h', e, g⟩
  have hval : ∀ i, mv (.sum M S fs fm z) t (h x) i = mv M t (h x) i * fm + mv S t (h x) i * fs := mv_sum M S fs fm z hs t (h x)
  cases acc
  · by_cases hfs : fs = 0
    · cases t
      swap
      · exact absurd hfs p.ok.1
      obtain ⟨h1, e1, g1⟩ := set_step M ihM false fm x y h
        ⟨wM, okM, sM, xb.2.1, yb.2.1, p.xy, lx, ly⟩
      refine ⟨h1, ?_, fun i hi => ?_, fun a ha hab => ?_, g1.len⟩
      · simp only [run]
        rw [if_neg (fun e => e hfs)]
        by_cases hfm : fm = 1
        · rw [if_pos hfm]
          simpa [hfm] using e1
        · rw [if_neg hfm]
          simp only [ne_eq, hfm, not_false_eq_true, if_true] at e1
          exact e1
      · rw [g1.val i hi, hval, hfs]; simp
      · simp only [Op.bufs, List.mem_cons, List.mem_append, not_or] at hab
        exact g1.frame a ha hab.2.1
    · obtain ⟨h1, e1, g1⟩ := set_step S ihS t fs x y h pS
      obtain ⟨h2, e2, g2⟩ := finish0 _ h1 (g1.weaken fun a ha => List.mem_cons_of_mem _ ha)
      refine ⟨h2, ?_, ⟨fun i hi => ?_, g2.frame, g2.len⟩⟩
      · cases t
        · simp only [run]
          rw [if_pos hfs]
          cases hr : run S false false x y h with
          | none => rw [hr] at e1; simp at e1
          | some h0 =>
            rw [hr] at e1
            simp only [Option.bind_some, Option.some.injEq] at e1
            simp only [Option.bind_eq_bind, Option.bind_some]
            rw [e1]; exact e2
        · simp only [run]
          rw [if_pos hfs]
          cases hr : run S true false x y h with
          | none => rw [hr] at e1; simp at e1
          | some h0 =>
            rw [hr] at e1
            simp only [Option.bind_some, Option.some.injEq] at e1
            simp only [Option.bind_eq_bind, Option.bind_some]
            rw [e1]; exact e2
      · rw [g2.val i hi, hval]; simp [add_comm]
  · obtain ⟨h1, e1, g1⟩ := acc_step S ihS t fs x y z h pS (by rw [hoS]; exact hzl.symm.imp And.left id) hzS (fun e => yb.1 e.symm) xb.1
    obtain ⟨h2, e2, g2⟩ := finish _ h1 g1
    refine ⟨h2, ?_, ⟨fun i hi => ?_, g2.frame, g2.len⟩⟩
    · have e : run (.sum M S fs fm z) t true x y h = (if fs = 1 then run S t true x y h
          else if fs ≠ 0 then (run S t false x z h).bind fun h => assign3At h y 1 z fs
          else some h).bind fun h1 => if fm = 1 then run M t true x y h1 else if fm ≠ 0 then
            (run M t false x z h1).bind fun h => assign3At h y 1 z fm else some h1 := by
        cases t <;> simp only [run, Option.bind_eq_bind] <;> by_cases hf : fs = 1 <;>
          simp only [hf, if_true, if_false] <;> by_cases h0 : fs = 0 <;>
          simp only [h0, if_false, if_true, ne_eq, not_true_eq_false, not_false_eq_true, Option.bind_assoc]
      rw [e, e1]; exact e2
    · rw [g2.val i hi, hval]; simp only [if_true]; ring

/-- All operators. -/
theorem claim_all [Field K] [DecidableEq K] (op : Op K) : Claim op := by
  induction op with
  | csr A => exact claim_csr A
  | dense A => exact claim_dense A
  | diag d => exact claim_diag d
  | ident n a => exact claim_ident n a
  | null r c => exact claim_null r c
  | mult A f ih => exact claim_mult A f ih
  | sum M S fs fm z ihM ihS => exact claim_sum M S fs fm z ihM ihS
  | prod A B b ihA ihB => exact claim_prod A B b ihA ihB
  | trans A ih => exact claim_trans A ih

end PyNucleus.OpAlgebra
