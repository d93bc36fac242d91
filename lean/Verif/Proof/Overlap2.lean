import Verif.Proof.Overlap
import Mathlib.Algebra.BigOperators.Intervals
import Mathlib.Algebra.BigOperators.Ring.Finset
import Mathlib.Tactic.Linarith

namespace PyNucleus.Overlap

open PyNucleus.Loops

section
variable {K M : Type} [AddCommMonoid K]

/-! ## No deadlock -/

theorem progress {P : Nat} {ov : Nat → Manager} {prog : List Kind} (hp : Paired P ov) (f : Nat → Nat → M × List K → M × List K)
    {R : Nat → Nat → M × List K} {σ : State K M} (h : Inv P ov prog R σ)
    (hu : ∃ r, r < P ∧ ((σ.loc r).inCall = true ∨ (σ.loc r).call < prog.length)) : ∃ τ, Step P ov prog f σ τ := by
  classical
  -- a rank in the earliest call
  have hex : ∃ c, ∃ r, r < P ∧ ((σ.loc r).inCall = true ∨ (σ.loc r).call < prog.length) ∧ (σ.loc r).call = c := by
    obtain ⟨r, h1, h2⟩ := hu
    exact ⟨_, r, h1, h2, rfl⟩
  obtain ⟨r, hr, hun, hc⟩ := Nat.find_spec hex
  have hmin : ∀ s, s < P → ((σ.loc s).inCall = true ∨ (σ.loc s).call < prog.length) → (σ.loc r).call ≤ (σ.loc s).call := by
    intro s hs h2
    rw [hc]
    exact Nat.find_min' hex ⟨s, hs, h2, rfl⟩
  -- an idle rank can start or has a send to complete
  have hidle : ∀ q, q < P → (σ.loc q).inCall = false → (σ.loc q).call < prog.length → ∃ τ, Step P ov prog f σ τ := by
    intro q hq h1 h2
    cases e : (σ.loc q).pend with
    | nil => exact ⟨_, Step.start σ q _ hq h1 (List.getElem?_eq_getElem h2) (fun _ => e)⟩
    | cons a l =>
      obtain ⟨s, t⟩ := a
      exact ⟨_, Step.copy σ q s t hq (by rw [e]; exact List.mem_cons_self)⟩
  cases hin : (σ.loc r).inCall with
  | false =>
    rw [hin] at hun
    exact hidle r hr hin (hun.resolve_left (by decide))
  | true =>
    obtain ⟨k, done, sent, b1, b2, b3, b4, b5, b6, b7, b8⟩ := (h.loc r hr).busy hin
    have hlt : (σ.loc r).call < prog.length := (List.getElem?_eq_some_iff.1 b1).1
    cases hsend : (σ.loc r).toSend with
    | cons s rest => exact ⟨_, Step.send σ r s rest hr hin hsend⟩
    | nil =>
      cases hrecv : (σ.loc r).toRecv with
      | nil =>
        cases e : (σ.loc r).pend with
        | nil => exact ⟨_, Step.finish σ r hr hin hsend hrecv (fun _ e he => by rw [‹(σ.loc r).pend = []›] at he; cases he)⟩
        | cons a l =>
          obtain ⟨s, t⟩ := a
          exact ⟨_, Step.copy σ r s t hr (by rw [e]; exact List.mem_cons_self)⟩
      | cons s rest =>
        have hsm : s ∈ recvList k (ov r) r := b3.mem_iff.1 (List.mem_append_right _ (by rw [hrecv]; exact List.mem_cons_self))
        obtain ⟨hs, hrs⟩ := recv_send hp k r s hr hsm
        by_cases hpost : (σ.loc s).posted r (σ.loc r).call
        · rcases h.acct s r _ k hs hr b1 hrs hpost with a | a | a
          · exact ⟨_, Step.copy σ s r _ hs a⟩
          · obtain ⟨msg, hm⟩ := Option.isSome_iff_exists.1 a
            exact ⟨_, Step.recv σ r s k msg hr hin hsend b1 (by rw [hrecv]; exact List.mem_cons_self) (fun _ => by rw [hrecv]; rfl) hm⟩
          · exfalso
            rcases a with a | ⟨_, _, a⟩
            · exact Nat.lt_irrefl _ a
            · exact a (by rw [hrecv]; exact List.mem_cons_self)
        · have hcs : (σ.loc s).call ≤ (σ.loc r).call := by
            by_contra hlt2
            exact hpost (Or.inl (by omega))
          have hcs2 : (σ.loc s).call = (σ.loc r).call := Nat.le_antisymm hcs (hmin s hs (Or.inr (by omega)))
          cases hins : (σ.loc s).inCall with
          | false => exact hidle s hs hins (by omega)
          | true =>
            cases hss : (σ.loc s).toSend with
            | cons a l => exact ⟨_, Step.send σ s a l hs hins hss⟩
            | nil =>
              exfalso
              exact hpost (Or.inr ⟨hcs2.symm, hins, by rw [hss]; exact List.not_mem_nil⟩)

/-! ## Number of steps -/

/-- Steps of one call of one rank, including the copies of its messages. -/
def work (ov : Nat → Manager) (prog : List Kind) (r c : Nat) : Nat :=
  match prog[c]? with
  | some k => 2 + 2 * (sendList k (ov r) r).length + (recvList k (ov r) r).length
  | none => 0

/-- Steps left. -/
def left (ov : Nat → Manager) (prog : List Kind) (r : Nat) (l : Local K M) : Nat :=
  l.pend.length + if l.inCall then 1 + 2 * l.toSend.length + l.toRecv.length + ∑ c ∈ Finset.Ico (l.call + 1) prog.length, work ov prog r c
    else ∑ c ∈ Finset.Ico l.call prog.length, work ov prog r c

omit [AddCommMonoid K] in
theorem sum_update (P r : Nat) (hr : r < P) (loc : Nat → Local K M) (l : Local K M) (g : Nat → Local K M → Nat) (h : g r l + 1 = g r (loc r)) :
    ∑ q ∈ Finset.range P, g q (Function.update loc r l q) + 1 = ∑ q ∈ Finset.range P, g q (loc q) := by
  rw [← Finset.add_sum_erase _ _ (Finset.mem_range.2 hr), ← Finset.add_sum_erase (Finset.range P) (fun q => g q (loc q)) (Finset.mem_range.2 hr),
    Function.update_self, ← h]
  have : ∑ q ∈ (Finset.range P).erase r, g q (Function.update loc r l q) = ∑ q ∈ (Finset.range P).erase r, g q (loc q) :=
    Finset.sum_congr rfl fun q hq => by rw [Function.update_of_ne (Finset.ne_of_mem_erase hq)]
  rw [this]; omega

theorem left_step {P : Nat} {ov : Nat → Manager} {prog : List Kind} {f : Nat → Nat → M × List K → M × List K} {σ τ : State K M}
    (h : Step P ov prog f σ τ) : ∑ q ∈ Finset.range P, left ov prog q (τ.loc q) + 1 = ∑ q ∈ Finset.range P, left ov prog q (σ.loc q) := by
  cases h with
  | start r k hr hin hk hwait =>
    refine sum_update P r hr _ _ (left ov prog) ?_
    have hlt : (σ.loc r).call < prog.length := (List.getElem?_eq_some_iff.1 hk).1
    unfold left
    rw [if_pos rfl, if_neg (by simp [hin]), Finset.sum_eq_sum_Ico_succ_bot hlt]
    dsimp only
    rw [show work ov prog r (σ.loc r).call = 2 + 2 * (sendList k (ov r) r).length + (recvList k (ov r) r).length by unfold work; rw [hk]]
    omega
  | send r s rest hr hin hs =>
    refine sum_update P r hr _ _ (left ov prog) ?_
    unfold left
    dsimp only
    rw [if_pos hin, if_pos hin, hs, List.length_cons, List.length_cons]
    omega
  | copy r s t hr hpd =>
    refine sum_update P r hr _ _ (left ov prog) ?_
    unfold left
    dsimp only
    have := List.length_erase_add_one hpd
    omega
  | recv r s k msg hr hin hsend hk hs horder hmsg =>
    refine sum_update P r hr _ _ (left ov prog) ?_
    unfold left
    dsimp only
    rw [if_pos hin, if_pos hin]
    have := List.length_erase_add_one hs
    omega
  | finish r hr hin hsend hrecv hwait =>
    refine sum_update P r hr _ _ (left ov prog) ?_
    unfold left
    dsimp only
    rw [if_pos hin, if_neg (by decide), hsend, hrecv]
    simp only [List.length_nil]
    omega

theorem steps_count {P : Nat} {ov : Nat → Manager} {prog : List Kind} {f : Nat → Nat → M × List K → M × List K} {x : Nat → M × List K}
    {buf : Nat → Nat → List K} {n : Nat} {τ : State K M} (h : Steps P ov prog f (initial x buf) n τ) :
    n + ∑ q ∈ Finset.range P, left ov prog q (τ.loc q) = ∑ q ∈ Finset.range P, ∑ c ∈ Finset.range prog.length, work ov prog q c := by
  generalize hσ : initial x buf = σ at h
  induction h with
  | refl =>
    rw [← hσ, Nat.zero_add]
    refine Finset.sum_congr rfl fun q _ => ?_
    unfold left initial
    simp
  | tail τ ρ n _ h2 ih =>
    have := left_step h2
    omega

/-! ## Meaning of a call -/

theorem gather_getD (x : List K) (sh : List Nat) (j : Nat) (hj : j < sh.length) : (gather x sh).getD j 0 = x.getD (sh.getD j 0) 0 := by
  unfold gather
  rw [List.getD_eq_getElem _ _ (by rw [List.length_map]; exact hj), List.getElem_map, List.getD_eq_getElem _ _ hj]

theorem fold_length (ov : Nat → Manager) (k : Kind) (x : Nat → List K) (r : Nat) (l : List Nat) : ∀ v : List K,
    (l.foldl (fun v s => process k ((ov r).shared s) (gather (x s) ((ov s).shared r)) v) v).length = v.length := by
  induction l with
  | nil => intro v; rfl
  | cons s l ih => intro v; rw [List.foldl_cons, ih, process_length]

theorem fold_accumulate (ov : Nat → Manager) (x : Nat → List K) (r i : Nat) (l : List Nat) : ∀ v : List K, i < v.length →
    (l.foldl (fun v s => process .accumulate ((ov r).shared s) (gather (x s) ((ov s).shared r)) v) v).getD i 0 =
      v.getD i 0 + (l.map fun s => ∑ j ∈ Finset.range ((ov r).shared s).length,
        if ((ov r).shared s).getD j 0 = i then (gather (x s) ((ov s).shared r)).getD j 0 else 0).sum := by
  induction l with
  | nil => intro v _; simp
  | cons s l ih =>
    intro v hi
    rw [List.foldl_cons, ih _ (by rw [process_length]; exact hi), List.map_cons, List.sum_cons, ← add_assoc]
    congr 1
    exact accumulateProcess_getD _ _ _ _ hi

variable {P : Nat} {ov : Nat → Manager} {gid : Nat → Nat → Nat}

theorem Consistent.paired (hc : Consistent P ov gid) : Paired P ov := ⟨hc.keys_nodup, hc.keys_lt, hc.symm⟩

/-- The partner of a shared dof. -/
theorem Consistent.partner (hc : Consistent P ov gid) {r s : Nat} (hr : r < P) (hs : s < P) {j : Nat} (hj : j < ((ov r).shared s).length) :
    j < ((ov s).shared r).length ∧ gid r (((ov r).shared s).getD j 0) = gid s (((ov s).shared r).getD j 0) ∧
      ((ov s).shared r).getD j 0 < (ov s).n := by
  have h := hc.same r s hr hs
  have hl : ((ov r).shared s).length = ((ov s).shared r).length := by simpa using congrArg List.length h
  have hj2 : j < ((ov s).shared r).length := by omega
  refine ⟨hj2, ?_, hc.shared_lt s hs r _ (by rw [List.getD_eq_getElem _ _ hj2]; exact List.getElem_mem hj2)⟩
  rw [List.getD_eq_getElem _ _ hj, List.getD_eq_getElem _ _ hj2]
  have := congrArg (fun l => l[j]?) h
  simp only [List.getElem?_map, List.getElem?_eq_getElem hj, List.getElem?_eq_getElem hj2, Option.map_some, Option.some.injEq] at this
  exact this

theorem single_sum (n i : Nat) (hi : i < n) (g : Nat → K) (p : Nat → Prop) [DecidablePred p] (h : ∀ j, j < n → (p j ↔ j = i)) :
    ∑ j ∈ Finset.range n, (if p j then g j else 0) = g i := by
  rw [Finset.sum_eq_single_of_mem i (Finset.mem_range.2 hi)]
  · rw [if_pos ((h i hi).2 rfl)]
  · intro j hj hne
    rw [if_neg fun q => hne ((h j (Finset.mem_range.1 hj)).1 q)]

/-- Contribution of one neighbour. -/
theorem Consistent.contribution (hc : Consistent P ov gid) (x : Nat → List K) {r s i : Nat} (hr : r < P) (hs : s < P) (hne : s ≠ r) (hi : i < (ov r).n) :
    (∑ j ∈ Finset.range ((ov r).shared s).length, if ((ov r).shared s).getD j 0 = i then (gather (x s) ((ov s).shared r)).getD j 0 else 0) =
      ∑ j ∈ Finset.range (ov s).n, if gid s j = gid r i then (x s).getD j 0 else 0 := by
  by_cases hm : i ∈ (ov r).shared s
  · obtain ⟨j, hj, rfl⟩ := List.getElem_of_mem hm
    obtain ⟨p1, p2, p3⟩ := hc.partner hr hs hj
    rw [List.getD_eq_getElem _ _ hj] at p2
    rw [single_sum _ j hj _ _ fun j' hj' => ?_, single_sum _ _ p3 _ _ fun j' hj' => ?_, gather_getD _ _ _ p1]
    · rw [p2]
      exact ⟨fun q => hc.inj s hs _ _ hj' p3 q, fun q => by rw [q]⟩
    · rw [List.getD_eq_getElem _ _ hj', List.Nodup.getElem_inj_iff (hc.nodup r hr s)]
  · rw [Finset.sum_eq_zero, Finset.sum_eq_zero]
    · intro j hj
      rw [if_neg fun q => hm (hc.complete r s i j hr hs hne.symm hi (Finset.mem_range.1 hj) q.symm).2]
    · intro j hj
      rw [if_neg fun q => hm ?_]
      rw [← q, List.getD_eq_getElem _ _ (Finset.mem_range.1 hj)]
      exact List.getElem_mem _

theorem Consistent.own (hc : Consistent P ov gid) (x : Nat → List K) {r i : Nat} (hr : r < P) (hi : i < (ov r).n) :
    (∑ j ∈ Finset.range (ov r).n, if gid r j = gid r i then (x r).getD j 0 else 0) = (x r).getD i 0 :=
  single_sum _ _ hi _ _ fun j hj => ⟨fun q => hc.inj r hr j i hj hi q, fun q => by rw [q]⟩

theorem sum_keys (P r : Nat) (hr : r < P) (l : List Nat) (hl : l.Nodup) (h : ∀ s ∈ l, s < P ∧ s ≠ r) (g : Nat → K)
    (h0 : ∀ s, s < P → s ≠ r → s ∉ l → g s = 0) : ∑ s ∈ Finset.range P, g s = g r + (l.map g).sum := by
  rw [← List.sum_toFinset _ hl, ← Finset.add_sum_erase _ _ (Finset.mem_range.2 hr)]
  congr 1
  symm
  refine Finset.sum_subset ?_ ?_
  · intro s hs
    obtain ⟨h1, h2⟩ := h s (List.mem_toFinset.1 hs)
    exact Finset.mem_erase.2 ⟨h2, Finset.mem_range.2 h1⟩
  · intro s hs hn
    obtain ⟨h1, h2⟩ := Finset.mem_erase.1 hs
    exact h0 s (Finset.mem_range.1 h2) h1 fun q => hn (List.mem_toFinset.2 q)

theorem Consistent.accumulate (hc : Consistent P ov gid) (x : Nat → List K) (hx : ∀ r, r < P → (x r).length = (ov r).n) :
    Result P ov gid .accumulate x (callResult ov .accumulate x) := by
  intro r hr
  refine ⟨by unfold callResult; rw [fold_length, hx r hr], fun i hi => ?_⟩
  change (callResult ov .accumulate x r).getD i 0 = _
  unfold callResult
  rw [fold_accumulate _ _ _ _ _ _ (by rw [hx r hr]; exact hi)]
  unfold total
  rw [sum_keys P r hr (ov r).keys (hc.keys_nodup r hr) (hc.keys_lt r hr), hc.own x hr hi]
  · congr 2
    refine List.map_congr_left fun s hs => ?_
    obtain ⟨h1, h2⟩ := hc.keys_lt r hr s hs
    exact hc.contribution x hr h1 h2 hi
  · intro s hs hne hn
    refine Finset.sum_eq_zero fun j hj => ?_
    rw [if_neg fun q => hn (hc.complete r s i j hr hs hne.symm hi (Finset.mem_range.1 hj) q.symm).1]

theorem fold_unique_other (x : Nat → List K) (r i : Nat) (l : List Nat) : ∀ v : List K,
    (∀ s ∈ l, i ∉ (ov r).shared s) → (l.foldl (fun v s => process .unique ((ov r).shared s) (gather (x s) ((ov s).shared r)) v) v).getD i 0 = v.getD i 0 := by
  induction l with
  | nil => intro v _; rfl
  | cons s l ih =>
    intro v h
    rw [List.foldl_cons, ih _ fun s hs => h s (List.mem_cons_of_mem _ hs)]
    refine (uniqueProcess_loop _ _ _ _).2.1 i fun j hj e => h s List.mem_cons_self ?_
    rw [← e, List.getD_eq_getElem _ _ hj]
    exact List.getElem_mem hj

theorem Consistent.unique (hc : Consistent P ov gid) (hsorted : ∀ r, r < P → (ov r).keys.Pairwise (· < ·)) (x : Nat → List K)
    (hx : ∀ r, r < P → (x r).length = (ov r).n) : Result P ov gid .unique x (callResult ov .unique x) := by
  intro r hr
  refine ⟨by unfold callResult; rw [fold_length, hx r hr], fun i hi => ?_⟩
  change ∀ s j, s < P → j < (ov s).n → gid s j = gid r i → (∀ s' j', s' < P → j' < (ov s').n → gid s' j' = gid r i → s' ≤ s) →
    (callResult ov .unique x r).getD i 0 = (x s).getD j 0
  intro s j hs hj hg hmax
  have hrs := hmax r i hr hi rfl
  -- ranks above `s` do not share the dof
  have habove : ∀ q ∈ (ov r).keys, s < q → i ∉ (ov r).shared q := by
    intro q hq hlt hm
    obtain ⟨j', hj', rfl⟩ := List.getElem_of_mem hm
    obtain ⟨h1, _⟩ := hc.keys_lt r hr q hq
    obtain ⟨p1, p2, p3⟩ := hc.partner hr h1 hj'
    rw [List.getD_eq_getElem _ _ hj'] at p2
    have := hmax q _ h1 p3 p2.symm
    omega
  unfold callResult
  by_cases e : s = r
  · subst e
    rw [hc.inj s hs j i hj hi hg]
    refine fold_unique_other x s i _ _ fun q hq => ?_
    obtain ⟨h1, h2⟩ := List.mem_filter.1 hq
    have h2 := of_decide_eq_true h2
    have h3 := (hc.keys_lt s hs q h1).2
    exact habove q h1 (by omega)
  · obtain ⟨hk, hm⟩ := hc.complete r s i j hr hs (Ne.symm e) hi hj hg.symm
    have hmem : s ∈ recvList .unique (ov r) r := List.mem_filter.2 ⟨hk, decide_eq_true (by omega)⟩
    have hso : (recvList .unique (ov r) r).Pairwise (· < ·) := (hsorted r hr).filter _
    have hsub : ∀ q ∈ recvList .unique (ov r) r, q ∈ (ov r).keys := fun q hq => (List.mem_filter.1 hq).1
    obtain ⟨l1, l2, hl⟩ := List.append_of_mem hmem
    rw [hl] at hso hsub ⊢
    rw [List.foldl_append, List.foldl_cons, fold_unique_other]
    · obtain ⟨j', hj', rfl⟩ := List.getElem_of_mem hm
      obtain ⟨p1, p2, p3⟩ := hc.partner hr hs hj'
      rw [List.getD_eq_getElem _ _ hj'] at p2
      have hval := (uniqueProcess_loop ((ov r).shared s) (gather (x s) ((ov s).shared r))
        (l1.foldl (fun v s => process .unique ((ov r).shared s) (gather (x s) ((ov s).shared r)) v) (x r)) ((ov r).shared s).length).2.2 j' hj'
        (by rw [fold_length, hx r hr, List.getD_eq_getElem _ _ hj']; exact hi) (fun j'' h1 h2 h3 => by
          rw [List.getD_eq_getElem _ _ hj', List.getD_eq_getElem _ _ h2, List.Nodup.getElem_inj_iff (hc.nodup r hr s)] at h3
          omega)
      rw [gather_getD _ _ _ p1, List.getD_eq_getElem _ _ hj'] at hval
      rw [hc.inj s hs j _ hj p3 (hg.trans p2)]
      exact hval
    · intro q hq
      refine habove q (hsub q (by simp [hq])) ?_
      have := (List.pairwise_append.1 hso).2.1
      exact (List.pairwise_cons.1 this).1 q hq

/-! ## All together -/

theorem schedule (hc : Consistent P ov gid) {prog : List Kind} (hsafe : Safe prog)
    (hsorted : Kind.unique ∈ prog → ∀ r, r < P → (ov r).keys.Pairwise (· < ·))
    (f : Nat → Nat → M × List K → M × List K) (hf : ∀ r c z, z.2.length = (ov r).n → (f r c z).2.length = (ov r).n)
    (x : Nat → M × List K) (hx : ∀ r, r < P → (x r).2.length = (ov r).n) :
    ∃ (Z : Nat → Nat → M × List K) (Y : Nat → Nat → List K) (N : Nat), Follows P ov gid prog f x Z Y ∧
      ∀ buf n σ, Steps P ov prog f (initial x buf) n σ →
        (∀ r, r < P → (σ.loc r).inCall = false → ((σ.loc r).mem, (σ.loc r).vec) = Z (σ.loc r).call r) ∧
        ((∃ r, r < P ∧ ((σ.loc r).inCall = true ∨ (σ.loc r).call < prog.length)) → ∃ τ, Step P ov prog f σ τ) ∧
        n ≤ N ∧ ((¬ ∃ τ, Step P ov prog f σ τ) → n = N ∧ ∀ r, r < P → (σ.loc r).call = prog.length ∧ (σ.loc r).inCall = false) := by
  have hlen : ∀ c r, r < P → (ref ov prog f x c r).2.length = (ov r).n := by
    intro c
    induction c with
    | zero => exact hx
    | succ c ih =>
      intro r hr
      cases e : prog[c]? with
      | none => unfold ref; rw [e]; exact ih r hr
      | some k =>
        rw [ref_succ _ _ _ _ _ _ _ e]
        refine hf r c _ ?_
        dsimp only [callResult]
        rw [fold_length]
        exact ih r hr
  refine ⟨ref ov prog f x, fun c r => match prog[c]? with | some k => callResult ov k (fun s => (ref ov prog f x c s).2) r | none => [],
    ∑ q ∈ Finset.range P, ∑ c ∈ Finset.range prog.length, work ov prog q c, ⟨fun _ _ => rfl, ?_, ?_⟩, ?_⟩
  · intro c k hk
    rw [hk]
    cases k with
    | accumulate => exact hc.accumulate _ (hlen c)
    | unique => exact hc.unique (hsorted (List.mem_of_getElem? hk)) _ (hlen c)
  · intro c hlt r _
    have e := List.getElem?_eq_getElem hlt
    rw [ref_succ _ _ _ _ _ _ _ e, e]
  · intro buf n σ hst
    have hinv := inv_steps hc.paired hsafe f x buf hst
    have hcount := steps_count hst
    have hprog := progress hc.paired f hinv
    refine ⟨fun r hr hin => ((hinv.loc r hr).idle hin).2.2.1, hprog, by omega, fun hno => ?_⟩
    have hdone : ∀ r, r < P → (σ.loc r).inCall = false ∧ prog.length ≤ (σ.loc r).call := by
      intro r hr
      constructor
      · cases e : (σ.loc r).inCall with
        | false => rfl
        | true => exact absurd (hprog ⟨r, hr, Or.inl e⟩) hno
      · by_contra hlt
        exact hno (hprog ⟨r, hr, Or.inr (by omega)⟩)
    have hpend : ∀ r, r < P → (σ.loc r).pend = [] := by
      intro r hr
      cases e : (σ.loc r).pend with
      | nil => rfl
      | cons a l =>
        obtain ⟨s, t⟩ := a
        exact absurd ⟨_, Step.copy σ r s t hr (by rw [e]; exact List.mem_cons_self)⟩ hno
    have hzero : ∑ q ∈ Finset.range P, left ov prog q (σ.loc q) = 0 := by
      refine Finset.sum_eq_zero fun q hq => ?_
      have hq := Finset.mem_range.1 hq
      unfold left
      rw [hpend q hq, if_neg (by rw [(hdone q hq).1]; decide), Finset.Ico_eq_empty_of_le (hdone q hq).2]
      simp
    refine ⟨by omega, fun r hr => ⟨?_, (hdone r hr).1⟩⟩
    have hle : ∀ {n : Nat} {τ : State K M}, Steps P ov prog f (initial x buf) n τ → (τ.loc r).call ≤ prog.length ∧
        ((τ.loc r).inCall = true → (τ.loc r).call < prog.length) := by
      intro n τ h
      generalize hσ : initial x buf = σ0 at h
      induction h with
      | refl => rw [← hσ]; exact ⟨Nat.zero_le _, fun h => by cases h⟩
      | tail τ ρ n h1 h2 ih =>
        cases h2 with
        | start q k hq hin hk hwait =>
          by_cases e : r = q
          · subst e; dsimp only; rw [Function.update_self]; exact ⟨ih.1, fun _ => (List.getElem?_eq_some_iff.1 hk).1⟩
          · dsimp only; rw [Function.update_of_ne e]; exact ih
        | send q s rest hq hin hs =>
          by_cases e : r = q
          · subst e; dsimp only; rw [Function.update_self]; exact ih
          · dsimp only; rw [Function.update_of_ne e]; exact ih
        | copy q s t hq hpd =>
          by_cases e : r = q
          · subst e; dsimp only; rw [Function.update_self]; exact ih
          · dsimp only; rw [Function.update_of_ne e]; exact ih
        | recv q s k msg hq hin hsend hk hs horder hmsg =>
          by_cases e : r = q
          · subst e; dsimp only; rw [Function.update_self]; exact ih
          · dsimp only; rw [Function.update_of_ne e]; exact ih
        | finish q hq hin hsend hrecv hwait =>
          by_cases e : r = q
          · subst e; dsimp only; rw [Function.update_self]; exact ⟨ih.2 hin, fun h => by cases h⟩
          · dsimp only; rw [Function.update_of_ne e]; exact ih
    exact Nat.le_antisymm (hle hst).1 (hdone r hr).2

end

end PyNucleus.Overlap
