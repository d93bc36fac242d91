import Verif.Proof.OpAlgebra

/-! # Programs that build operators -/

namespace PyNucleus.OpAlgebra

open PyNucleus.Spec PyNucleus.Blas

variable {K : Type}

theorem sized_congr {h h' : Heap K} (op : Op K) (hl : ∀ a ∈ op.bufs, (h' a).length = (h a).length) (hs : op.Sized h) :
    op.Sized h' := by
  induction op with
  | mult A f ih => exact ih hl hs
  | sum M S fs fm z ihM ihS =>
    exact ⟨(hl z (by simp [Op.bufs])).trans hs.1, ihM (fun a ha => hl a (by simp [Op.bufs, ha])) hs.2.1,
      ihS (fun a ha => hl a (by simp [Op.bufs, ha])) hs.2.2⟩
  | prod A B b ihA ihB =>
    exact ⟨(hl b (by simp [Op.bufs])).trans hs.1, ihA (fun a ha => hl a (by simp [Op.bufs, ha])) hs.2.1,
      ihB (fun a ha => hl a (by simp [Op.bufs, ha])) hs.2.2⟩
  | trans A ih => exact ih hl hs
  | _ => trivial

/-- An operator object stands for a matrix. -/
structure Means [Field K] (P : Prop) (h : Heap K) (n : Nat) (op : Op K) (d : Den K) : Prop where
  shape : op.shape = d.1
  mat : op.mat = d.2
  wf : op.WF
  sized : op.Sized h
  fresh : ∀ a ∈ op.bufs, a < n
  us : P → op.Usable
  asrt : assertion op = true

theorem asrt_of_wf (op : Op K) (w : op.WF) : assertion op = true := by
  cases op <;> simp_all [assertion, Op.WF]

theorem Means.mono [Field K] {P : Prop} {h h' : Heap K} {n n' : Nat} {op : Op K} {d : Den K} (m : Means P h n op d)
    (hn : n ≤ n') (hh : ∀ a, a < n → h' a = h a) : Means P h' n' op d :=
  ⟨m.shape, m.mat, m.wf, sized_congr op (fun a ha => by rw [hh a (m.fresh a ha)]) m.sized,
    fun a ha => Nat.lt_of_lt_of_le (m.fresh a ha) hn, m.us, m.asrt⟩

section
variable [Field K] {P : Prop} {h : Heap K} {n : Nat}

theorem sum_means {M S : Op K} {dM dS : Den K} (fs fm : K) (mM : Means P h n M dM) (mS : Means P h n S dS) (hs : dM.1 = dS.1)
    (z : Nat) (h1 : z ∉ M.bufs) (h2 : z ∉ S.bufs) (hz : z < n) (hz' : (h z).length = dM.1.1) :
    Means P h n (.sum M S fs fm z) (dM.1, fun i j => fm * dM.2 i j + fs * dS.2 i j) := by
  have w : (Op.sum M S fs fm z).WF := ⟨by rw [mM.shape, mS.shape, hs], h1, h2, mM.wf, mS.wf⟩
  refine ⟨mM.shape, ?_, w, ⟨by rw [mM.shape]; exact hz', mM.sized, mS.sized⟩, fun a ha => ?_,
    fun hP => ⟨mM.us hP, mS.us hP⟩, asrt_of_wf _ w⟩
  · funext i j; simp only [Op.mat, mM.mat, mS.mat]
  · simp only [Op.bufs, List.mem_cons, List.mem_append] at ha
    rcases ha with ha | ha | ha
    · omega
    · exact mM.fresh a ha
    · exact mS.fresh a ha

/-- Operand of a scaled operator. -/
theorem mult_arg {A : Op K} {f : K} {d : Den K} (m : Means P h n (.mult A f) d) :
    Means P h n A (d.1, A.mat) ∧ ∀ i j, d.2 i j = f * A.mat i j :=
  ⟨⟨m.shape, rfl, m.wf, m.sized, m.fresh, m.us, asrt_of_wf _ m.wf⟩, fun i j => by rw [← m.mat]; rfl⟩

theorem sum_arg {M S : Op K} {fs fm : K} {z : Nat} {d : Den K} (m : Means P h n (.sum M S fs fm z) d) :
    Means P h n M (d.1, M.mat) ∧ Means P h n S (d.1, S.mat) ∧ ∀ i j, d.2 i j = fm * M.mat i j + fs * S.mat i j :=
  ⟨⟨m.shape, rfl, m.wf.2.2.2.1, m.sized.2.1, fun a ha => m.fresh a (by simp [Op.bufs, ha]), fun hP => (m.us hP).1,
      asrt_of_wf _ m.wf.2.2.2.1⟩,
    ⟨m.wf.1.symm.trans m.shape, rfl, m.wf.2.2.2.2, m.sized.2.2, fun a ha => m.fresh a (by simp [Op.bufs, ha]),
      fun hP => (m.us hP).2, asrt_of_wf _ m.wf.2.2.2.2⟩, fun i j => by rw [← m.mat]; rfl⟩

theorem means_eq {op : Op K} {d d' : Den K} (m : Means P h n op d) (h1 : d.1 = d'.1) (h2 : ∀ i j, d.2 i j = d'.2 i j) :
    Means P h n op d' :=
  ⟨m.shape.trans h1, by rw [m.mat]; funext i j; exact h2 i j, m.wf, m.sized, m.fresh, m.us, m.asrt⟩

theorem add_means {a b : Op K} {da db : Den K} (ma : Means P h n a da) (mb : Means P h n b db) (hs : da.1 = db.1)
    (z : Nat) (h1 : z ∉ a.bufs) (h2 : z ∉ b.bufs) (hz : z < n) (hz' : (h z).length = da.1.1) :
    Means P h n (add a b z) (da.1, fun i j => da.2 i j + db.2 i j) := by
  unfold add
  split
  · refine means_eq ma rfl fun i j => ?_
    rw [← mb.mat]; simp [Op.mat]
  · refine means_eq mb hs.symm fun i j => ?_
    rw [← ma.mat]; simp [Op.mat]
  · obtain ⟨m1, e1⟩ := mult_arg ma
    obtain ⟨m2, e2⟩ := mult_arg mb
    exact means_eq (sum_means _ _ m1 m2 hs z h1 h2 hz hz') rfl fun i j => by simp only [e1, e2]
  · obtain ⟨m1, e1⟩ := mult_arg ma
    exact means_eq (sum_means _ _ m1 mb hs z h1 h2 hz hz') rfl fun i j => by simp only [e1, one_mul]
  · obtain ⟨m2, e2⟩ := mult_arg mb
    exact means_eq (sum_means _ _ ma m2 hs z h1 h2 hz hz') rfl fun i j => by simp only [e2, one_mul]
  · exact means_eq (sum_means _ _ ma mb hs z h1 h2 hz hz') rfl fun i j => by simp only [one_mul]

variable [DecidableEq K]

theorem rmul_means {a : Op K} {da : Den K} (c : K) (ma : Means P h n a da)
    (z : Nat) (h1 : z ∉ a.bufs) (hz : z < n) (hz' : (h z).length = da.1.1) :
    Means P h n (rmul c a z) (da.1, fun i j => c * da.2 i j) := by
  unfold rmul
  split
  · obtain ⟨m1, m2, e⟩ := sum_arg ma
    exact means_eq (sum_means _ _ m1 m2 rfl z (fun e => h1 (by simp [Op.bufs, e])) (fun e => h1 (by simp [Op.bufs, e])) hz hz') rfl fun i j => by simp only [e]; ring
  · split
    · rename_i hc
      exact ⟨ma.shape, by funext i j; simp [Op.mat, hc], trivial, trivial, by simp [Op.bufs], fun _ => trivial, rfl⟩
    · exact ⟨ma.shape, by funext i j; simp only [Op.mat, ma.mat], ma.wf, ma.sized, ma.fresh, ma.us, rfl⟩

theorem mulr_means {a : Op K} {da : Den K} (c : K) (ma : Means P h n a da)
    (z : Nat) (h1 : z ∉ a.bufs) (hz : z < n) (hz' : (h z).length = da.1.1) :
    Means P h n (mulr a c z) (da.1, fun i j => da.2 i j * c) := by
  unfold mulr
  split
  · obtain ⟨m1, m2, e⟩ := sum_arg ma
    exact means_eq (sum_means _ _ m1 m2 rfl z (fun e => h1 (by simp [Op.bufs, e])) (fun e => h1 (by simp [Op.bufs, e])) hz hz') rfl fun i j => by simp only [e]; ring
  · obtain ⟨m1, e⟩ := mult_arg ma
    exact ⟨m1.shape, by funext i j; simp only [Op.mat, e]; ring, m1.wf, m1.sized, m1.fresh, m1.us, rfl⟩
  · split
    · rename_i hc
      exact ⟨ma.shape, by funext i j; simp [Op.mat, hc], trivial, trivial, by simp [Op.bufs], fun _ => trivial, rfl⟩
    · exact ⟨ma.shape, by funext i j; simp only [Op.mat, ma.mat]; ring, ma.wf, ma.sized, ma.fresh, ma.us, rfl⟩

/-- Objects and matrices correspond. -/
structure Inv (P : Prop) (st : St K) (ds : List (Den K)) : Prop where
  len : st.vars.length = ds.length
  means : ∀ (k : Nat) (op : Op K) (d : Den K), st.vars[k]? = some op → ds[k]? = some d → Means P st.heap st.next op d

theorem Inv.get {st : St K} {ds : List (Den K)} (I : Inv P st ds) {k : Nat} {d : Den K} (hd : ds[k]? = some d) :
    ∃ op, st.vars[k]? = some op ∧ Means P st.heap st.next op d := by
  obtain ⟨hk, _⟩ := List.getElem?_eq_some_iff.1 hd
  have hk' : k < st.vars.length := by rw [I.len]; exact hk
  exact ⟨_, List.getElem?_eq_getElem hk', I.means k _ d (List.getElem?_eq_getElem hk') hd⟩

theorem create_ok (junk : Nat → Nat → List K) (hj : ∀ a m, (junk a m).length = m) (s : Stmt K) (st : St K) (ds : List (Den K))
    (d : Den K) (I : Inv P st ds) (hv : s.Valid) (hP : P → s.NoT) (hd : s.den ds = some d) :
    ∃ op m m', create s st.vars st.next = some (op, m, m') ∧
      Means P (put (put st.heap st.next (junk st.next m)) (st.next + 1) (junk (st.next + 1) m')) (st.next + 2) op d := by
  have hput : ∀ m m' a, a < st.next → put (put st.heap st.next (junk st.next m)) (st.next + 1) (junk (st.next + 1) m') a = st.heap a := by
    intro m m' a ha
    rw [put_other _ _ _ _ (by omega), put_other _ _ _ _ (by omega)]
  have hl0 : ∀ m m', (put (put st.heap st.next (junk st.next m)) (st.next + 1) (junk (st.next + 1) m') st.next).length = m := by
    intro m m'
    rw [put_other _ _ _ _ (by omega), put_self, hj]
  have hl1 : ∀ m m', (put (put st.heap st.next (junk st.next m)) (st.next + 1) (junk (st.next + 1) m') (st.next + 1)).length = m' := by
    intro m m'
    rw [put_self, hj]
  have nb : ∀ {op : Op K} {d : Den K}, Means P st.heap st.next op d → st.next ∉ op.bufs :=
    fun m e => Nat.lt_irrefl _ (m.fresh _ e)
  cases s with
  | csr A =>
    simp only [Stmt.den, Option.some.injEq] at hd; subst hd
    exact ⟨_, _, _, rfl, rfl, rfl, hv, trivial, by simp [Op.bufs], fun _ => trivial, rfl⟩
  | dense A =>
    simp only [Stmt.den, Option.some.injEq] at hd; subst hd
    exact ⟨_, _, _, rfl, rfl, rfl, trivial, trivial, by simp [Op.bufs], fun _ => trivial, rfl⟩
  | diag A =>
    simp only [Stmt.den, Option.some.injEq] at hd; subst hd
    exact ⟨_, _, _, rfl, rfl, rfl, trivial, trivial, by simp [Op.bufs], fun _ => trivial, rfl⟩
  | ident A =>
    simp only [Stmt.den, Option.some.injEq] at hd; subst hd
    exact ⟨_, _, _, rfl, rfl, rfl, trivial, trivial, by simp [Op.bufs], fun _ => trivial, rfl⟩
  | null A =>
    simp only [Stmt.den, Option.some.injEq] at hd; subst hd
    exact ⟨_, _, _, rfl, rfl, rfl, trivial, trivial, by simp [Op.bufs], fun _ => trivial, rfl⟩
  | add i j =>
    simp only [Stmt.den, Option.bind_eq_bind, Option.bind_eq_some_iff] at hd
    obtain ⟨a, ha, b, hb, hd⟩ := hd
    split at hd
    case isFalse => exact absurd hd (by simp)
    rename_i hs
    simp only [Option.some.injEq] at hd; subst hd
    obtain ⟨oa, hoa, ma⟩ := I.get ha
    obtain ⟨ob, hob, mb⟩ := I.get hb
    exact ⟨_, _, _, by simp only [create, hoa, hob]; rfl,
      add_means (ma.mono (by omega) (hput _ _)) (mb.mono (by omega) (hput _ _)) hs _ (nb ma) (nb mb) (by omega) (by rw [hl0, ma.shape])⟩
  | sub i j =>
    simp only [Stmt.den, Option.bind_eq_bind, Option.bind_eq_some_iff] at hd
    obtain ⟨a, ha, b, hb, hd⟩ := hd
    split at hd
    case isFalse => exact absurd hd (by simp)
    rename_i hs
    simp only [Option.some.injEq] at hd; subst hd
    obtain ⟨oa, hoa, ma⟩ := I.get ha
    obtain ⟨ob, hob, mb⟩ := I.get hb
    refine ⟨_, oa.shape.1, ob.shape.1, by simp only [create, hoa, hob]; rfl, ?_⟩
    generalize hH : put (put st.heap st.next (junk st.next oa.shape.1)) (st.next + 1) (junk (st.next + 1) ob.shape.1) = H
    have hH0 : (H st.next).length = a.1.1 := by rw [← hH, hl0, ma.shape]
    have hH1 : (H (st.next + 1)).length = b.1.1 := by rw [← hH, hl1, mb.shape]
    have hHp : ∀ a, a < st.next → H a = st.heap a := by rw [← hH]; exact hput _ _
    have mr := rmul_means (-1) (mb.mono (show st.next ≤ st.next + 2 by omega) hHp) (st.next + 1)
      (fun e => by have := mb.fresh _ e; omega) (by omega) hH1
    -- the buffer of the sum lies below that of the second operand
    have hz : st.next ∉ (rmul (-1) ob (st.next + 1)).bufs := by
      have hf : ∀ a ∈ ob.bufs, a ≠ st.next := fun a ha e => by have := mb.fresh a ha; omega
      unfold rmul
      split
      · rename_i M S fs fm z
        simp only [Op.bufs, List.mem_cons, List.mem_append, not_or]
        exact ⟨by omega, fun e => hf _ (by simp [Op.bufs, e]) rfl, fun e => hf _ (by simp [Op.bufs, e]) rfl⟩
      · split
        · simp [Op.bufs]
        · exact fun e => hf _ e rfl
    exact means_eq (add_means (ma.mono (by omega) hHp) mr hs st.next (nb ma) hz (by omega) hH0)
      rfl fun i j => by ring
  | rmul c i =>
    simp only [Stmt.den, Option.bind_eq_bind, Option.bind_eq_some_iff, Option.some.injEq] at hd
    obtain ⟨a, ha, hd⟩ := hd
    subst hd
    obtain ⟨oa, hoa, ma⟩ := I.get ha
    exact ⟨_, _, _, by simp only [create, hoa]; rfl,
      rmul_means c (ma.mono (by omega) (hput _ _)) _ (nb ma) (by omega) (by rw [hl0, ma.shape])⟩
  | mulr i c =>
    simp only [Stmt.den, Option.bind_eq_bind, Option.bind_eq_some_iff, Option.some.injEq] at hd
    obtain ⟨a, ha, hd⟩ := hd
    subst hd
    obtain ⟨oa, hoa, ma⟩ := I.get ha
    exact ⟨_, _, _, by simp only [create, hoa]; rfl,
      mulr_means c (ma.mono (by omega) (hput _ _)) _ (nb ma) (by omega) (by rw [hl0, ma.shape])⟩
  | neg i =>
    simp only [Stmt.den, Option.bind_eq_bind, Option.bind_eq_some_iff, Option.some.injEq] at hd
    obtain ⟨a, ha, hd⟩ := hd
    subst hd
    obtain ⟨oa, hoa, ma⟩ := I.get ha
    refine ⟨_, _, _, by simp only [create, hoa]; rfl, ?_⟩
    have ma' := ma.mono (show st.next ≤ st.next + 2 by omega) (hput 0 0)
    exact ⟨ma.shape, by funext i j; simp [neg, Op.mat, ma.mat], ma.wf, ma'.sized, ma'.fresh, ma.us, rfl⟩
  | matmul i j =>
    simp only [Stmt.den, Option.bind_eq_bind, Option.bind_eq_some_iff] at hd
    obtain ⟨a, ha, b, hb, hd⟩ := hd
    split at hd
    case isFalse => exact absurd hd (by simp)
    rename_i hs
    simp only [Option.some.injEq] at hd; subst hd
    obtain ⟨oa, hoa, ma⟩ := I.get ha
    obtain ⟨ob, hob, mb⟩ := I.get hb
    refine ⟨_, _, _, by simp only [create, hoa, hob]; rfl, ?_⟩
    have ma' := ma.mono (show st.next ≤ st.next + 2 by omega) (hput oa.shape.2 0)
    have mb' := mb.mono (show st.next ≤ st.next + 2 by omega) (hput oa.shape.2 0)
    have w : (Op.prod oa ob st.next).WF := ⟨by rw [ma.shape, mb.shape, hs], fun e => by have := ma.fresh _ e; omega,
      fun e => by have := mb.fresh _ e; omega, ma.wf, mb.wf⟩
    refine ⟨by simp only [matmul, Op.shape, ma.shape, mb.shape], ?_, w, ⟨hl0 _ _, ma'.sized, mb'.sized⟩, fun a ha => ?_,
      fun hP => ⟨ma.us hP, mb.us hP⟩, asrt_of_wf _ w⟩
    · funext i j; simp only [matmul, Op.mat, ma.mat, mb.mat, ma.shape]
    · simp only [matmul, Op.bufs, List.mem_cons, List.mem_append] at ha
      rcases ha with ha | ha | ha
      · omega
      · exact ma'.fresh a ha
      · exact mb'.fresh a ha
  | T i =>
    simp only [Stmt.den, Option.bind_eq_bind, Option.bind_eq_some_iff, Option.some.injEq] at hd
    obtain ⟨a, ha, hd⟩ := hd
    subst hd
    obtain ⟨oa, hoa, ma⟩ := I.get ha
    refine ⟨_, _, _, by simp only [create, hoa]; rfl, ?_⟩
    have ma' := ma.mono (show st.next ≤ st.next + 2 by omega) (hput 0 0)
    exact ⟨by simp only [transpose, Op.shape, ma.shape], by funext i j; simp only [transpose, Op.mat, ma.mat], ma.wf, ma'.sized,
      ma'.fresh, fun h => absurd (hP h) (by simp [Stmt.NoT]), rfl⟩

theorem exec_ok (junk : Nat → Nat → List K) (hj : ∀ a m, (junk a m).length = m) (prog : List (Stmt K)) :
    ∀ (st : St K) (ds ds' : List (Den K)), Inv P st ds → (∀ s ∈ prog, s.Valid) → (P → ∀ s ∈ prog, s.NoT) →
      denote prog ds = some ds' → ∃ st', exec junk prog st = some st' ∧ Inv P st' ds' := by
  induction prog with
  | nil => intro st ds ds' I _ _ hd; simp only [denote, Option.some.injEq] at hd; subst hd; exact ⟨st, rfl, I⟩
  | cons s ss ih =>
    intro st ds ds' I hv hP hd
    simp only [denote, Option.bind_eq_bind, Option.bind_eq_some_iff] at hd
    obtain ⟨d, hd1, hd2⟩ := hd
    obtain ⟨op, m, m', hc, hm⟩ := create_ok junk hj s st ds d I (hv s (by simp)) (fun h => hP h s (by simp)) hd1
    have hI : Inv P ⟨st.vars ++ [op], put (put st.heap st.next (junk st.next m)) (st.next + 1) (junk (st.next + 1) m'), st.next + 2⟩
        (ds ++ [d]) := by
      refine ⟨by simp [I.len], fun k o e ho he => ?_⟩
      by_cases hk : k < ds.length
      · rw [List.getElem?_append_left (by rw [I.len]; exact hk)] at ho
        rw [List.getElem?_append_left hk] at he
        exact (I.means k o e ho he).mono (by simp) fun a ha => by
          simp only; rw [put_other _ _ _ _ (by omega), put_other _ _ _ _ (by omega)]
      · have hk2 : k = ds.length := by
          obtain ⟨h1, _⟩ := List.getElem?_eq_some_iff.1 he
          simp at h1; omega
        subst hk2
        rw [List.getElem?_append_right (by rw [I.len]), I.len] at ho
        rw [List.getElem?_append_right (Nat.le_refl _)] at he
        simp only [Nat.sub_self, List.getElem?_cons_zero, Option.some.injEq] at ho he
        subst ho; subst he
        exact hm
    obtain ⟨st', e, I'⟩ := ih _ _ ds' hI (fun x hx => hv x (by simp [hx])) (fun h x hx => hP h x (by simp [hx])) hd2
    refine ⟨st', ?_, I'⟩
    simp only [exec, exec1, hc, Option.bind_eq_bind, Option.bind_some, hm.asrt, if_true]
    exact e

end

end PyNucleus.OpAlgebra
