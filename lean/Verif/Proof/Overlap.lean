import Verif.Spec.Overlap
import Verif.Proof.Loops
import Mathlib.Data.List.Perm.Basic
import Mathlib.Data.List.Nodup
import Mathlib.Data.List.GetD
import Mathlib.Tactic.Common
import Mathlib.Tactic.Abel

namespace PyNucleus.Overlap

open PyNucleus.Loops

/-! ## Processing of messages -/

theorem ext_getD' {A : Type} (d : A) (p q : List A) (h : p.length = q.length) (h2 : ∀ i, i < p.length → p.getD i d = q.getD i d) : p = q := by
  refine List.ext_getElem h fun i h3 h4 => ?_
  have := h2 i h3
  rwa [List.getD_eq_getElem _ _ h3, List.getD_eq_getElem _ _ h4] at this

section
variable {K : Type} [AddCommMonoid K]

theorem accumulateProcess_loop (sh : List Nat) (msg v : List K) (m : Nat) :
    (forRange 0 m v fun v j => v.set (sh.getD j 0) (v.getD (sh.getD j 0) 0 + msg.getD j 0)).length = v.length ∧
    ∀ i, i < v.length → (forRange 0 m v fun v j => v.set (sh.getD j 0) (v.getD (sh.getD j 0) 0 + msg.getD j 0)).getD i 0 =
      v.getD i 0 + ∑ j ∈ Finset.range m, if sh.getD j 0 = i then msg.getD j 0 else 0 := by
  induction m with
  | zero => exact ⟨rfl, fun i _ => by rw [Finset.range_zero, Finset.sum_empty, add_zero]; rfl⟩
  | succ m ih =>
    obtain ⟨h1, h2⟩ := ih
    refine ⟨by rw [forRange_succ, List.length_set, h1], fun i hi => ?_⟩
    rw [forRange_succ, getD_set, Finset.sum_range_succ, h1]
    by_cases e : sh.getD m 0 = i
    · rw [if_pos ⟨e, hi⟩, if_pos e, e, h2 i hi, add_assoc]
    · rw [if_neg (fun h => e h.1), if_neg e, h2 i hi, add_zero]

theorem accumulateProcess_length (sh : List Nat) (msg v : List K) : (accumulateProcess sh msg v).length = v.length :=
  (accumulateProcess_loop sh msg v _).1

theorem accumulateProcess_getD (sh : List Nat) (msg v : List K) (i : Nat) (hi : i < v.length) :
    (accumulateProcess sh msg v).getD i 0 = v.getD i 0 + ∑ j ∈ Finset.range sh.length, if sh.getD j 0 = i then msg.getD j 0 else 0 :=
  (accumulateProcess_loop sh msg v _).2 i hi

theorem accumulateProcess_comm (sh sh' : List Nat) (msg msg' v : List K) :
    accumulateProcess sh msg (accumulateProcess sh' msg' v) = accumulateProcess sh' msg' (accumulateProcess sh msg v) := by
  refine ext_getD' 0 _ _ (by simp only [accumulateProcess_length]) fun i hi => ?_
  simp only [accumulateProcess_length] at hi
  rw [accumulateProcess_getD _ _ _ _ (by rwa [accumulateProcess_length]), accumulateProcess_getD _ _ _ _ hi,
    accumulateProcess_getD _ _ _ _ (by rwa [accumulateProcess_length]), accumulateProcess_getD _ _ _ _ hi]
  abel

omit [AddCommMonoid K] in
theorem uniqueProcess_loop [Zero K] (sh : List Nat) (msg v : List K) (m : Nat) :
    (forRange 0 m v fun v j => v.set (sh.getD j 0) (msg.getD j 0)).length = v.length ∧
    (∀ i, (∀ j, j < m → sh.getD j 0 ≠ i) → (forRange 0 m v fun v j => v.set (sh.getD j 0) (msg.getD j 0)).getD i 0 = v.getD i 0) ∧
    ∀ j, j < m → sh.getD j 0 < v.length → (∀ j', j < j' → j' < m → sh.getD j' 0 ≠ sh.getD j 0) →
      (forRange 0 m v fun v j => v.set (sh.getD j 0) (msg.getD j 0)).getD (sh.getD j 0) 0 = msg.getD j 0 := by
  induction m with
  | zero => exact ⟨rfl, fun i _ => rfl, fun j hj => absurd hj (by omega)⟩
  | succ m ih =>
    obtain ⟨h1, h2, h3⟩ := ih
    refine ⟨by rw [forRange_succ, List.length_set, h1], fun i hi => ?_, fun j hj hl hn => ?_⟩
    · rw [forRange_succ, getD_set, if_neg (fun h => hi m (by omega) h.1)]
      exact h2 i fun j hj => hi j (by omega)
    · rw [forRange_succ, getD_set, h1]
      by_cases e : j = m
      · subst e; rw [if_pos ⟨rfl, hl⟩]
      · rw [if_neg (fun h => hn m (by omega) (by omega) h.1)]
        exact h3 j (by omega) hl fun j' h4 h5 => hn j' h4 (by omega)

theorem process_length (k : Kind) (sh : List Nat) (msg v : List K) : (process k sh msg v).length = v.length := by
  cases k with
  | accumulate => exact accumulateProcess_length sh msg v
  | unique => exact (uniqueProcess_loop sh msg v _).1

/-! ## Reference execution -/

/-- Result of a call on one rank if the messages are processed in the order of the dictionary. -/
def callResult (ov : Nat → Manager) (k : Kind) (x : Nat → List K) (r : Nat) : List K :=
  (recvList k (ov r) r).foldl (fun v s => process k ((ov r).shared s) (gather (x s) ((ov s).shared r)) v) (x r)

/-- The same for all calls. -/
def ref {M : Type} (ov : Nat → Manager) (prog : List Kind) (f : Nat → Nat → M × List K → M × List K) (x : Nat → M × List K) : Nat → Nat → M × List K
  | 0, r => x r
  | c + 1, r =>
    match prog[c]? with
    | some k => f r c ((ref ov prog f x c r).1, callResult ov k (fun s => (ref ov prog f x c s).2) r)
    | none => ref ov prog f x c r

theorem ref_succ {M : Type} (ov : Nat → Manager) (prog : List Kind) (f : Nat → Nat → M × List K → M × List K) (x : Nat → M × List K) (c r : Nat) (k : Kind)
    (h : prog[c]? = some k) :
    ref ov prog f x (c + 1) r = f r c ((ref ov prog f x c r).1, callResult ov k (fun s => (ref ov prog f x c s).2) r) := by
  conv => lhs; unfold ref
  rw [h]

/-- The order does not matter for `accumulate`. -/
theorem callResult_perm (ov : Nat → Manager) (k : Kind) (x : Nat → List K) (r : Nat) (order : List Nat)
    (hp : List.Perm order (recvList k (ov r) r)) (hu : k = .unique → order = recvList k (ov r) r) :
    order.foldl (fun v s => process k ((ov r).shared s) (gather (x s) ((ov s).shared r)) v) (x r) = callResult ov k x r := by
  cases k with
  | unique => rw [hu rfl]; rfl
  | accumulate =>
    refine hp.foldl_eq' (fun s _ t _ v => ?_) _
    exact accumulateProcess_comm _ _ _ _ _

/-! ## Invariant -/

/-- Pairs of ranks list each other. -/
structure Paired (P : Nat) (ov : Nat → Manager) : Prop where
  nodup : ∀ r, r < P → (ov r).keys.Nodup
  lt : ∀ r, r < P → ∀ s ∈ (ov r).keys, s < P ∧ s ≠ r
  symm : ∀ r, r < P → ∀ s ∈ (ov r).keys, r ∈ (ov s).keys

theorem sendList_nodup {P : Nat} {ov : Nat → Manager} (h : Paired P ov) (k : Kind) (r : Nat) (hr : r < P) : (sendList k (ov r) r).Nodup := by
  cases k with
  | accumulate => exact h.nodup r hr
  | unique => exact (h.nodup r hr).filter _

theorem recvList_nodup {P : Nat} {ov : Nat → Manager} (h : Paired P ov) (k : Kind) (r : Nat) (hr : r < P) : (recvList k (ov r) r).Nodup := by
  cases k with
  | accumulate => exact h.nodup r hr
  | unique => exact (h.nodup r hr).filter _

theorem recv_send {P : Nat} {ov : Nat → Manager} (h : Paired P ov) (k : Kind) (r s : Nat) (hr : r < P) (hs : s ∈ recvList k (ov r) r) :
    s < P ∧ r ∈ sendList k (ov s) s := by
  cases k with
  | accumulate => exact ⟨(h.lt r hr s hs).1, h.symm r hr s hs⟩
  | unique =>
    obtain ⟨h1, h2⟩ := List.mem_filter.1 hs
    have h2 := of_decide_eq_true h2
    obtain ⟨h3, h4⟩ := h.lt r hr s h1
    exact ⟨h3, List.mem_filter.2 ⟨h.symm r hr s h1, decide_eq_true (by omega)⟩⟩

variable {M : Type}

/-- State of one rank and its buffers. -/
structure LInv (ov : Nat → Manager) (prog : List Kind) (R : Nat → Nat → M × List K) (r : Nat) (l : Local K M) (b : Nat → List K) : Prop where
  idle : l.inCall = false → l.toSend = [] ∧ l.toRecv = [] ∧ (l.mem, l.vec) = R l.call r ∧
    ∀ e ∈ l.pend, ∃ c, l.call = c + 1 ∧ prog[c]? = some .accumulate ∧ e.2 = c
  busy : l.inCall = true → ∃ k done sent, prog[l.call]? = some k ∧ l.mem = (R l.call r).1 ∧
    List.Perm (done ++ l.toRecv) (recvList k (ov r) r) ∧ (k = .unique → done ++ l.toRecv = recvList k (ov r) r) ∧
    l.vec = done.foldl (fun v s => process k ((ov r).shared s) (gather (R l.call s).2 ((ov s).shared r)) v) (R l.call r).2 ∧
    (l.toSend ≠ [] → done = []) ∧ sent ++ l.toSend = sendList k (ov r) r ∧ ∀ e ∈ l.pend, e.2 = l.call ∧ e.1 ∈ sent
  buffers : ∀ e ∈ l.pend, b e.1 = gather (R e.2 r).2 ((ov r).shared e.1)

/-- The call `t` of a rank has posted its send to `s`. -/
def Local.posted (l : Local K M) (s t : Nat) : Prop := t < l.call ∨ (t = l.call ∧ l.inCall = true ∧ s ∉ l.toSend)

/-- The message of call `t` from `s` has been processed. -/
def Local.received (l : Local K M) (s t : Nat) : Prop := t < l.call ∨ (t = l.call ∧ l.inCall = true ∧ s ∉ l.toRecv)

structure Inv (P : Nat) (ov : Nat → Manager) (prog : List Kind) (R : Nat → Nat → M × List K) (σ : State K M) : Prop where
  loc : ∀ r, r < P → LInv ov prog R r (σ.loc r) (σ.buf r)
  net : ∀ r s t msg, σ.net r s t = some msg → msg = gather (R t r).2 ((ov r).shared s)
  acct : ∀ r s t k, r < P → s < P → prog[t]? = some k → s ∈ sendList k (ov r) r → (σ.loc r).posted s t →
    (s, t) ∈ (σ.loc r).pend ∨ (σ.net r s t).isSome = true ∨ (σ.loc s).received r t

theorem inv_initial (P : Nat) (ov : Nat → Manager) (prog : List Kind) (f : Nat → Nat → M × List K → M × List K) (x : Nat → M × List K) (buf : Nat → Nat → List K) :
    Inv P ov prog (ref ov prog f x) (initial x buf) where
  loc := fun r _ => ⟨fun _ => ⟨rfl, rfl, rfl, fun e he => by cases he⟩, (fun h => by cases h), fun e he => by cases he⟩
  net := fun r s t msg h => by cases h
  acct := fun r s t k _ _ _ _ h => by
    rcases h with h | ⟨_, h, _⟩
    · exact absurd h (Nat.not_lt_zero _)
    · cases h

/-- Assembling the invariant after a step of rank `r`. -/
theorem inv_of {P : Nat} {ov : Nat → Manager} {prog : List Kind} {R : Nat → Nat → M × List K} {σ : State K M} (h : Inv P ov prog R σ) (r : Nat)
    (l : Local K M) (buf : Nat → Nat → List K) (net : Nat → Nat → Nat → Option (List K)) (hb : ∀ r', r' ≠ r → buf r' = σ.buf r')
    (h1 : LInv ov prog R r l (buf r)) (h2 : ∀ r s t msg, net r s t = some msg → msg = gather (R t r).2 ((ov r).shared s))
    (h3 : ∀ r' s t k, r' < P → s < P → prog[t]? = some k → s ∈ sendList k (ov r') r' → (Function.update σ.loc r l r').posted s t →
      (s, t) ∈ (Function.update σ.loc r l r').pend ∨ (net r' s t).isSome = true ∨ (Function.update σ.loc r l s).received r' t) :
    Inv P ov prog R ⟨Function.update σ.loc r l, buf, net⟩ where
  loc := fun r' hr' => by
    by_cases e : r' = r
    · subst e; dsimp only; rw [Function.update_self]; exact h1
    · dsimp only; rw [Function.update_of_ne e, hb r' e]; exact h.loc r' hr'
  net := h2
  acct := h3

theorem inv_step {P : Nat} {ov : Nat → Manager} {prog : List Kind} (hp : Paired P ov) (hsafe : Safe prog) (f : Nat → Nat → M × List K → M × List K)
    (x : Nat → M × List K) {σ τ : State K M} (h : Inv P ov prog (ref ov prog f x) σ) (hst : Step P ov prog f σ τ) : Inv P ov prog (ref ov prog f x) τ := by
  cases hst with
  | start r k hr hin hk hwait =>
    obtain ⟨i1, i2, i3, i4⟩ := (h.loc r hr).idle hin
    have hpend : (σ.loc r).pend = [] := by
      cases k with
      | accumulate => exact hwait rfl
      | unique =>
        cases hq : (σ.loc r).pend with
        | nil => rfl
        | cons e q =>
          exfalso
          obtain ⟨c, c1, c2, c3⟩ := i4 e (by rw [hq]; exact List.mem_cons_self)
          rw [c1] at hk
          exact hsafe c c2 hk
    have i3' := Prod.ext_iff.1 i3
    refine inv_of h r _ _ _ (fun _ _ => rfl) ⟨fun e => (by cases e), fun _ => ⟨k, [], [], hk, i3'.1, List.Perm.refl _, fun _ => rfl, i3'.2, fun _ => rfl, rfl,
      fun e he => (by dsimp only at he; rw [hpend] at he; cases he)⟩, fun e he => (by dsimp only at he; rw [hpend] at he; cases he)⟩ h.net ?_
    intro r' s t k' hr' hs hk' hsl hpost
    have hrecv : ∀ q r'', (σ.loc q).received r'' t → (Function.update σ.loc r { σ.loc r with
        inCall := true, toSend := sendList k (ov r) r, toRecv := recvList k (ov r) r } q).received r'' t := by
      intro q r'' hq
      by_cases e : q = r
      · subst e
        rw [Function.update_self]
        rcases hq with hq | ⟨_, hq, _⟩
        · exact Or.inl hq
        · rw [hin] at hq; cases hq
      · rw [Function.update_of_ne e]; exact hq
    by_cases e : r' = r
    · subst e
      rw [Function.update_self] at hpost ⊢
      have : (σ.loc r').posted s t := by
        rcases hpost with hq | ⟨q1, q2, q3⟩
        · exact Or.inl hq
        · exfalso
          dsimp only at q1 q3
          rw [q1, hk] at hk'
          cases hk'
          exact q3 hsl
      rcases h.acct r' s t k' hr' hs hk' hsl this with a | a | a
      · exact Or.inl a
      · exact Or.inr (Or.inl a)
      · exact Or.inr (Or.inr (hrecv s r' a))
    · rw [Function.update_of_ne e] at hpost ⊢
      rcases h.acct r' s t k' hr' hs hk' hsl hpost with a | a | a
      · exact Or.inl a
      · exact Or.inr (Or.inl a)
      · exact Or.inr (Or.inr (hrecv s r' a))
  | send r s rest hr hin hs =>
    obtain ⟨k, done, sent, b1, b2, b3, b4, b5, b6, b7, b8⟩ := (h.loc r hr).busy hin
    have hdone := b6 (by rw [hs]; exact List.cons_ne_nil _ _)
    subst hdone
    have hnd : (sent ++ s :: rest).Nodup := by rw [← hs, b7]; exact sendList_nodup hp k r hr
    have hs1 : s ∉ sent := fun q => (List.nodup_append.1 hnd).2.2 s q s List.mem_cons_self rfl
    refine inv_of h r _ _ _ (fun r' e => by funext q; simp [upd2, e]) ⟨fun e => (by dsimp only at e; rw [hin] at e; cases e),
      fun _ => ⟨k, [], sent ++ [s], b1, b2, b3, b4, b5, fun _ => rfl, ?_, ?_⟩, ?_⟩ h.net ?_
    · dsimp only
      rw [List.append_assoc, List.singleton_append, ← hs]; exact b7
    · intro e he
      rcases List.mem_cons.1 he with rfl | he
      · exact ⟨rfl, by simp⟩
      · exact ⟨(b8 e he).1, List.mem_append_left _ (b8 e he).2⟩
    · intro e he
      dsimp only [upd2]
      rcases List.mem_cons.1 he with rfl | he
      · rw [if_pos ⟨rfl, rfl⟩, b5]; rfl
      · rw [if_neg (fun q : r = r ∧ e.1 = s => hs1 (q.2 ▸ (b8 e he).2))]
        exact (h.loc r hr).buffers e he
    · intro r' s' t k' hr' hs' hk' hsl hpost
      have hrecv : ∀ q r'', (σ.loc q).received r'' t → (Function.update σ.loc r { σ.loc r with toSend := rest, pend := (s, (σ.loc r).call) :: (σ.loc r).pend } q).received r'' t := by
        intro q r'' hq
        by_cases e : q = r
        · subst e
          rw [Function.update_self]
          exact hq
        · rw [Function.update_of_ne e]; exact hq
      by_cases e : r' = r
      · subst e
        rw [Function.update_self] at hpost ⊢
        by_cases hq : s' = s ∧ t = (σ.loc r').call
        · exact Or.inl (by rw [hq.1, hq.2]; exact List.mem_cons_self)
        · have : (σ.loc r').posted s' t := by
            rcases hpost with hp | ⟨q1, q2, q3⟩
            · exact Or.inl hp
            · refine Or.inr ⟨q1, hin, fun hm => ?_⟩
              rw [hs] at hm
              rcases List.mem_cons.1 hm with hm | hm
              · exact hq ⟨hm, q1⟩
              · exact q3 hm
          rcases h.acct r' s' t k' hr' hs' hk' hsl this with a | a | a
          · exact Or.inl (List.mem_cons_of_mem _ a)
          · exact Or.inr (Or.inl a)
          · exact Or.inr (Or.inr (hrecv s' r' a))
      · rw [Function.update_of_ne e] at hpost ⊢
        rcases h.acct r' s' t k' hr' hs' hk' hsl hpost with a | a | a
        · exact Or.inl a
        · exact Or.inr (Or.inl a)
        · exact Or.inr (Or.inr (hrecv s' r' a))
  | copy r s t hr hpd =>
    have hsub : ∀ e, e ∈ (σ.loc r).pend.erase (s, t) → e ∈ (σ.loc r).pend := fun e he => List.mem_of_mem_erase he
    refine inv_of h r _ _ _ (fun _ _ => rfl) ⟨fun e => ?_, fun e => ?_, fun e he => (h.loc r hr).buffers e (hsub e he)⟩ ?_ ?_
    · obtain ⟨i1, i2, i3, i4⟩ := (h.loc r hr).idle e
      exact ⟨i1, i2, i3, fun e he => i4 e (hsub e he)⟩
    · obtain ⟨k, done, sent, b1, b2, b3, b4, b5, b6, b7, b8⟩ := (h.loc r hr).busy e
      exact ⟨k, done, sent, b1, b2, b3, b4, b5, b6, b7, fun e he => b8 e (hsub e he)⟩
    · intro r' s' t' msg hm
      unfold upd3 at hm
      split at hm
      · rename_i q
        obtain ⟨rfl, rfl, rfl⟩ := q
        cases hm
        exact (h.loc _ hr).buffers _ hpd
      · exact h.net _ _ _ _ hm
    · intro r' s' t' k' hr' hs' hk' hsl hpost
      have hrecv : ∀ q r'', (σ.loc q).received r'' t' → (Function.update σ.loc r { σ.loc r with pend := (σ.loc r).pend.erase (s, t) } q).received r'' t' := by
        intro q r'' hq
        by_cases e : q = r
        · subst e
          rw [Function.update_self]
          exact hq
        · rw [Function.update_of_ne e]; exact hq
      have hnet : ∀ r' s' t', (σ.net r' s' t').isSome = true → (upd3 σ.net r s t (some (σ.buf r s)) r' s' t').isSome = true := by
        intro r' s' t' q
        unfold upd3
        split
        · rfl
        · exact q
      by_cases e : r' = r
      · subst e
        rw [Function.update_self] at hpost ⊢
        rcases h.acct r' s' t' k' hr' hs' hk' hsl hpost with a | a | a
        · by_cases q : (s', t') = (s, t)
          · cases q
            exact Or.inr (Or.inl (by unfold upd3; rw [if_pos ⟨rfl, rfl, rfl⟩]; rfl))
          · exact Or.inl ((List.mem_erase_of_ne q).2 a)
        · exact Or.inr (Or.inl (hnet _ _ _ a))
        · exact Or.inr (Or.inr (hrecv s' r' a))
      · rw [Function.update_of_ne e] at hpost ⊢
        rcases h.acct r' s' t' k' hr' hs' hk' hsl hpost with a | a | a
        · exact Or.inl a
        · exact Or.inr (Or.inl (hnet _ _ _ a))
        · exact Or.inr (Or.inr (hrecv s' r' a))
  | recv r s k msg hr hin hsend hk hs horder hmsg =>
    obtain ⟨k', done, sent, b1, b2, b3, b4, b5, b6, b7, b8⟩ := (h.loc r hr).busy hin
    rw [hk] at b1
    cases b1
    have hmsg' := h.net _ _ _ _ hmsg
    have hnd : (done ++ (σ.loc r).toRecv).Nodup := b3.nodup_iff.2 (recvList_nodup hp k r hr)
    have hnd2 : (σ.loc r).toRecv.Nodup := (List.nodup_append.1 hnd).2.1
    refine inv_of h r _ _ _ (fun _ _ => rfl) ⟨fun e => (by dsimp only at e; rw [hin] at e; cases e),
      fun _ => ⟨k, done ++ [s], sent, hk, b2, ?_, ?_, ?_, fun e => absurd hsend e, b7, b8⟩, (h.loc r hr).buffers⟩ ?_ ?_
    · dsimp only
      rw [List.append_assoc, List.singleton_append]
      exact (List.Perm.append_left _ (List.perm_cons_erase hs).symm).trans b3
    · intro e
      dsimp only
      have h1 := horder e
      rw [← b4 e, List.append_assoc, List.singleton_append]
      cases hq : (σ.loc r).toRecv with
      | nil => rw [hq] at hs; cases hs
      | cons a q =>
        rw [hq, List.head?_cons] at h1
        cases h1
        rw [List.erase_cons_head]
    · dsimp only
      rw [List.foldl_append, ← b5, hmsg']; rfl
    · intro r' s' t' msg' hm
      unfold upd3 at hm
      split at hm
      · cases hm
      · exact h.net _ _ _ _ hm
    · intro r' s' t' k' hr' hs' hk' hsl hpost
      have hrecv : ∀ q r'', (σ.loc q).received r'' t' → (Function.update σ.loc r { σ.loc r with
          toRecv := (σ.loc r).toRecv.erase s, vec := process k ((ov r).shared s) msg (σ.loc r).vec } q).received r'' t' := by
        intro q r'' hq
        by_cases e : q = r
        · subst e
          rw [Function.update_self]
          rcases hq with hq | ⟨q1, q2, q3⟩
          · exact Or.inl hq
          · exact Or.inr ⟨q1, q2, fun hm => q3 (List.mem_of_mem_erase hm)⟩
        · rw [Function.update_of_ne e]; exact hq
      have hpost' : (σ.loc r').posted s' t' := by
        by_cases e : r' = r
        · subst e; rw [Function.update_self] at hpost; exact hpost
        · rw [Function.update_of_ne e] at hpost; exact hpost
      have hpend : (Function.update σ.loc r { σ.loc r with
          toRecv := (σ.loc r).toRecv.erase s, vec := process k ((ov r).shared s) msg (σ.loc r).vec } r').pend = (σ.loc r').pend := by
        by_cases e : r' = r
        · subst e; rw [Function.update_self]
        · rw [Function.update_of_ne e]
      rw [hpend]
      rcases h.acct r' s' t' k' hr' hs' hk' hsl hpost' with a | a | a
      · exact Or.inl a
      · by_cases q : r' = s ∧ s' = r ∧ t' = (σ.loc r).call
        · obtain ⟨rfl, rfl, rfl⟩ := q
          right; right
          rw [Function.update_self]
          exact Or.inr ⟨rfl, hin, fun hm => (List.Nodup.mem_erase_iff hnd2).1 hm |>.1 rfl⟩
        · right; left
          unfold upd3
          rw [if_neg q]; exact a
      · exact Or.inr (Or.inr (hrecv s' r' a))
  | finish r hr hin hsend hrecv hwait =>
    obtain ⟨k, done, sent, b1, b2, b3, b4, b5, b6, b7, b8⟩ := (h.loc r hr).busy hin
    rw [hrecv, List.append_nil] at b3 b4
    have hres := callResult_perm ov k (fun s => (ref ov prog f x (σ.loc r).call s).2) r done b3 b4
    refine inv_of h r _ _ _ (fun _ _ => rfl) ⟨fun _ => ⟨hsend, hrecv, ?_, fun e he => ?_⟩, fun e => (by cases e), (h.loc r hr).buffers⟩ h.net ?_
    · dsimp only
      rw [ref_succ _ _ _ _ _ _ _ b1, ← hres, ← b5, ← b2]
    · refine ⟨_, rfl, ?_, (b8 e he).1⟩
      cases k with
      | accumulate => exact b1
      | unique => exact absurd (b8 e he).1 (hwait b1 e he)
    · intro r' s' t' k' hr' hs' hk' hsl hpost
      have hrecv' : ∀ q r'', (σ.loc q).received r'' t' → (Function.update σ.loc r { σ.loc r with
          call := (σ.loc r).call + 1, inCall := false, mem := (f r (σ.loc r).call ((σ.loc r).mem, (σ.loc r).vec)).1
          vec := (f r (σ.loc r).call ((σ.loc r).mem, (σ.loc r).vec)).2 } q).received r'' t' := by
        intro q r'' hq
        by_cases e : q = r
        · subst e
          rw [Function.update_self]
          rcases hq with hq | ⟨q1, q2, q3⟩
          · exact Or.inl (Nat.lt_succ_of_lt hq)
          · exact Or.inl (by dsimp only; omega)
        · rw [Function.update_of_ne e]; exact hq
      by_cases e : r' = r
      · subst e
        rw [Function.update_self] at hpost ⊢
        have : (σ.loc r').posted s' t' := by
          rcases hpost with hq | ⟨_, q2, _⟩
          · dsimp only at hq
            by_cases e : t' = (σ.loc r').call
            · exact Or.inr ⟨e, hin, by rw [hsend]; exact List.not_mem_nil⟩
            · exact Or.inl (by omega)
          · cases q2
        rcases h.acct r' s' t' k' hr' hs' hk' hsl this with a | a | a
        · exact Or.inl a
        · exact Or.inr (Or.inl a)
        · exact Or.inr (Or.inr (hrecv' s' r' a))
      · rw [Function.update_of_ne e] at hpost ⊢
        rcases h.acct r' s' t' k' hr' hs' hk' hsl hpost with a | a | a
        · exact Or.inl a
        · exact Or.inr (Or.inl a)
        · exact Or.inr (Or.inr (hrecv' s' r' a))

theorem inv_steps {P : Nat} {ov : Nat → Manager} {prog : List Kind} (hp : Paired P ov) (hsafe : Safe prog) (f : Nat → Nat → M × List K → M × List K)
    (x : Nat → M × List K) (buf : Nat → Nat → List K) {n : Nat} {τ : State K M} (hst : Steps P ov prog f (initial x buf) n τ) :
    Inv P ov prog (ref ov prog f x) τ := by
  generalize hσ : initial x buf = σ at hst
  induction hst with
  | refl => rw [← hσ]; exact inv_initial P ov prog f x buf
  | tail τ ρ n _ h2 ih => exact inv_step hp hsafe f x ih h2

end

end PyNucleus.Overlap
