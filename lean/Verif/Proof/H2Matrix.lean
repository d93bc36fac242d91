import Verif.Spec.H2Matrix
import Mathlib.Algebra.BigOperators.Ring.Finset
import Mathlib.Algebra.BigOperators.Group.Finset.Sigma
import Mathlib.Algebra.BigOperators.Group.List.Basic
import Mathlib.Data.List.Nodup
import Mathlib.Tactic.Ring
import Mathlib.Tactic.Push

/-! # Lemmas on hierarchical matrices -/

namespace PyNucleus.H2

variable {K : Type} [CommSemiring K]

omit [CommSemiring K] in
theorem node_ind {p : Node K → Prop} (hl : ∀ id size T dofs value, p (.leaf id size T dofs value)) (hn : ∀ id size T cs, (∀ c ∈ cs, p c) → p (.inner id size T cs)) : ∀ t, p t
  | .leaf id size T dofs value => hl id size T dofs value
  | .inner id size T cs => hn id size T cs fun c hc =>
    have : sizeOf c < sizeOf cs := List.sizeOf_lt_of_mem hc
    node_ind hl hn c

omit [CommSemiring K] in
theorem nodes_head (t : Node K) : ∃ tl, t.nodes = t :: tl := by
  cases t <;> exact ⟨_, rfl⟩

omit [CommSemiring K] in
theorem self_mem (t : Node K) : t ∈ t.nodes := by
  obtain ⟨tl, h⟩ := nodes_head t
  rw [h]
  exact List.mem_cons_self ..

omit [CommSemiring K] in
theorem put_same (s : Store K) (id : Nat) (v : Nat → K) : s.put id v id = v := if_pos rfl

omit [CommSemiring K] in
theorem put_other (s : Store K) (id : Nat) (v : Nat → K) {j : Nat} (h : j ≠ id) : s.put id v j = s j := if_neg h

/-! ## Upward pass -/

theorem leafUp_eq (x : Nat → K) (v : Nat → Nat → K) (ds : List Nat) (k : Nat) (c : Nat → K) (i : Nat) : leafUp x v ds k c i = c i + ((ds.zipIdx k).map fun e => x e.1 * v e.2 i).sum := by
  induction ds generalizing k c with
  | nil => simp [leafUp]
  | cons d ds ih =>
    simp only [leafUp, ih, List.zipIdx_cons, List.map_cons, List.sum_cons]
    rw [add_assoc]

theorem sum_pick (n : Nat) (x : Nat → K) (l : List (Nat × Nat)) (h : ∀ e ∈ l, e.1 < n) (w : Nat → K) :
    ∑ j ∈ Finset.range n, (l.map fun e => if e.1 = j then w e.2 else 0).sum * x j = (l.map fun e => x e.1 * w e.2).sum := by
  induction l with
  | nil => simp
  | cons e l ih =>
    simp only [List.map_cons, List.sum_cons, add_mul, Finset.sum_add_distrib]
    rw [ih fun e he => h e (List.mem_cons_of_mem _ he)]
    congr 1
    rw [Finset.sum_eq_single e.1]
    · rw [if_pos rfl, mul_comm]
    · intro j _ hj
      rw [if_neg (Ne.symm hj), zero_mul]
    · intro hn
      exact absurd (Finset.mem_range.2 (h e (List.mem_cons_self ..))) hn

/-- `Σ_j U(j, p) x_j` for a node. -/
def coeff (comp n : Nat) (x : Nat → K) (m : Node K) (p : Nat) : K := ∑ j ∈ Finset.range n, basis comp m j p * x j

theorem coeff_leaf (comp n : Nat) (x : Nat → K) (id size : Nat) (T : Mat K) (dofs : List Nat) (value : Nat → Nat → Nat → K) (h : ∀ d ∈ dofs, d < n) (p : Nat) :
    coeff comp n x (.leaf id size T dofs value) p = leafUp x (value comp) dofs 0 (fun _ => 0) p := by
  rw [leafUp_eq, zero_add]
  unfold coeff
  simp only [basis]
  refine sum_pick n x dofs.zipIdx ?_ (fun k => value comp k p)
  intro e he
  exact h _ (List.fst_mem_of_mem_zipIdx he)

theorem coeff_inner (comp n : Nat) (x : Nat → K) (cs : List (Node K)) (p : Nat) :
    ∑ j ∈ Finset.range n, basisList comp cs j p * x j = (cs.map fun c => ∑ q ∈ Finset.range c.T.cols, c.T.entry p q * coeff comp n x c q).sum := by
  induction cs with
  | nil => simp [basisList]
  | cons c cs ih =>
    simp only [basisList, add_mul, Finset.sum_add_distrib, List.map_cons, List.sum_cons, ih]
    congr 1
    simp only [Finset.sum_mul, coeff, Finset.mul_sum]
    rw [Finset.sum_comm]
    refine Finset.sum_congr rfl fun q _ => Finset.sum_congr rfl fun j _ => ?_
    rw [mul_assoc]

/-- Leaves whose arrays are left alone have the right content already. -/
def LeavesSet (comp n : Nat) (x : Nat → K) (t : Node K) (up : Store K) : Prop := ∀ m ∈ t.nodes, (∃ id size T dofs value, m = Node.leaf id size T dofs value) → ∀ p, p < m.size → up m.id p = coeff comp n x m p

theorem upward_spec (comp n : Nat) (x : Nat → K) (skip : Bool) (t : Node K) (hs : Shaped t) (hid : (t.nodes.map Node.id).Nodup) (hd : ∀ d ∈ dofsOf t, d < n) (up : Store K)
    (hskip : skip = true → LeavesSet comp n x t up) :
    (∀ j, j ∉ t.nodes.map Node.id → upward x comp skip t up j = up j) ∧ ∀ m ∈ t.nodes, ∀ p, p < m.size → upward x comp skip t up m.id p = coeff comp n x m p := by
  induction t using node_ind generalizing up with
  | hl id size T dofs value =>
    simp only [Node.nodes, List.map_cons, List.map_nil, List.mem_singleton, forall_eq, Node.id, upward]
    by_cases hk : skip = true
    · rw [if_pos hk]
      exact ⟨fun j _ => rfl, fun p hp => hskip hk _ (self_mem _) ⟨_, _, _, _, _, rfl⟩ p hp⟩
    · rw [if_neg hk]
      refine ⟨fun j hj => put_other _ _ _ hj, fun p _ => ?_⟩
      rw [put_same, coeff_leaf comp n x id size T dofs value (by simpa [dofsOf] using hd)]
  | hn id size T cs ih =>
    cases hs with
    | inner _ _ _ _ hsh1 hsh2 =>
    have hsh : ∀ c ∈ cs, c.T.rows = size ∧ c.T.cols = c.size ∧ Shaped c := fun c hc => ⟨(hsh1 c hc).1, (hsh1 c hc).2, hsh2 c hc⟩
    clear hsh1 hsh2
    simp only [Node.nodes, List.map_cons, List.nodup_cons] at hid
    obtain ⟨hid0, hid⟩ := hid
    change id ∉ _ at hid0
    have hskip' : skip = true → ∀ c ∈ cs, ∀ m ∈ c.nodes, (∃ id size T dofs value, m = Node.leaf id size T dofs value) → ∀ p, p < m.size → up m.id p = coeff comp n x m p := by
      intro hk c hc m hm hl p hp
      refine hskip hk m ?_ hl p hp
      simp only [Node.nodes, List.mem_cons]
      right
      clear ih hsh hid0 hid hskip hd
      induction cs with
      | nil => simp at hc
      | cons a cs ih =>
        simp only [nodesList, List.mem_append]
        rcases List.mem_cons.1 hc with rfl | hc
        · exact Or.inl hm
        · exact Or.inr (ih hc)
    have key : ∀ up' : Store K, (∀ j, j ≠ id → j ∈ (nodesList cs).map Node.id → up' j = up j) →
        (∀ j, j ≠ id → j ∉ (nodesList cs).map Node.id → upwardList x comp skip id cs up' j = up' j) ∧
        (∀ m ∈ nodesList cs, ∀ p, p < m.size → upwardList x comp skip id cs up' m.id p = coeff comp n x m p) ∧
        ∀ p, p < size → upwardList x comp skip id cs up' id p = up' id p + (cs.map fun c => ∑ q ∈ Finset.range c.T.cols, c.T.entry p q * coeff comp n x c q).sum := by
      clear hskip
      have hd' : ∀ d ∈ dofsOfList cs, d < n := hd
      clear hd
      induction cs with
      | nil => simp [upwardList, nodesList]
      | cons c cs ih2 =>
        intro up' hup'
        simp only [nodesList, List.map_append, List.nodup_append, List.mem_append, not_or] at hid hid0
        obtain ⟨hr, hcs, hcc⟩ := hsh c (List.mem_cons_self ..)
        have hkc : skip = true → LeavesSet comp n x c up' := by
          intro hk m hm hl p hp
          rw [hup' m.id (by intro h; exact hid0.1 (h ▸ List.mem_map_of_mem hm)) (by simp only [nodesList, List.map_append, List.mem_append]; exact Or.inl (List.mem_map_of_mem hm))]
          exact hskip' hk c (List.mem_cons_self ..) m hm hl p hp
        obtain ⟨a1, a2⟩ := ih c (List.mem_cons_self ..) hcc hid.1 (fun d h => hd' d (by simp only [dofsOfList, List.mem_append]; exact Or.inl h)) up' hkc
        simp only [upwardList]
        generalize hu : upward x comp skip c up' = u at *
        obtain ⟨b1, b2, b3⟩ := ih2 (fun c hc => ih c (List.mem_cons_of_mem _ hc)) (fun c hc => hsh c (List.mem_cons_of_mem _ hc)) hid.2.1 hid0.2
          (fun hk c hc => hskip' hk c (List.mem_cons_of_mem _ hc)) (fun d h => hd' d (by simp only [dofsOfList, List.mem_append]; exact Or.inr h))
          (u.put id (gemv c.T (u c.id) (u id))) (by
            intro j hj hm
            rw [put_other _ _ _ hj, a1 j (fun h => hid.2.2 j h j hm rfl), hup' j hj (by simp only [nodesList, List.map_append, List.mem_append]; exact Or.inr hm)])
        have hcid : ∀ m ∈ c.nodes, m.id ≠ id := by
          intro m hm h
          exact hid0.1 (h ▸ List.mem_map_of_mem hm)
        refine ⟨?_, ?_, ?_⟩
        · intro j hj hm
          simp only [nodesList, List.map_append, List.mem_append, not_or] at hm
          rw [b1 j hj hm.2, put_other _ _ _ hj, a1 j hm.1]
        · intro m hm p hp
          simp only [nodesList, List.mem_append] at hm
          rcases hm with hm | hm
          · rw [b1 m.id (hcid m hm) (fun h => hid.2.2 _ (List.mem_map_of_mem hm) _ h rfl), put_other _ _ _ (hcid m hm), a2 m hm p hp]
          · exact b2 m hm p hp
        · intro p hp
          rw [b3 p hp, put_same, List.map_cons, List.sum_cons, ← add_assoc]
          congr 1
          unfold gemv
          rw [if_pos (by omega), a1 id hid0.1]
          congr 1
          refine Finset.sum_congr rfl fun q hq => ?_
          rw [a2 c (self_mem c) q (by rw [← hcs]; exact Finset.mem_range.1 hq)]
    obtain ⟨k1, k2, k3⟩ := key (up.put id fun _ => 0) (fun j hj _ => put_other _ _ _ hj)
    simp only [Node.nodes, List.map_cons, List.mem_cons, not_or, upward, Node.id]
    refine ⟨?_, ?_⟩
    · rintro j ⟨hj, hm⟩
      rw [k1 j hj hm, put_other _ _ _ hj]
    · rintro m (rfl | hm) p hp
      · simp only [Node.id]
        rw [k3 p hp, put_same, zero_add]
        unfold coeff
        simp only [basis]
        rw [coeff_inner]
        rfl
      · exact k2 m hm p hp

/-! ## Downward pass -/

/-- What the nodes of a list contribute to an entry of the result. -/
def phi (comp : Nat) (L : List (Node K)) (s : Store K) (d : Nat) : K := (L.map fun m => ∑ p ∈ Finset.range m.size, basis comp m d p * s m.id p).sum

theorem phi_congr (comp : Nat) (L : List (Node K)) (s s' : Store K) (d : Nat) (h : ∀ m ∈ L, s m.id = s' m.id) : phi comp L s d = phi comp L s' d := by
  unfold phi
  congr 1
  refine List.map_congr_left fun m hm => ?_
  rw [h m hm]

theorem phi_put (comp : Nat) (L : List (Node K)) (hid : (L.map Node.id).Nodup) (s : Store K) (d : Nat) (n : Node K) (hn : n ∈ L) (v δ : Nat → K) (hv : ∀ p, p < n.size → v p = s n.id p + δ p) :
    phi comp L (s.put n.id v) d = phi comp L s d + ∑ p ∈ Finset.range n.size, basis comp n d p * δ p := by
  induction L with
  | nil => simp at hn
  | cons m L ih =>
    simp only [List.map_cons, List.nodup_cons] at hid
    have hc : ∀ s, phi comp (m :: L) s d = (∑ p ∈ Finset.range m.size, basis comp m d p * s m.id p) + phi comp L s d := fun s => by simp [phi]
    rw [hc, hc]
    rcases List.mem_cons.1 hn with rfl | hn
    · rw [put_same, phi_congr comp L (s.put n.id v) s d (by
        intro m hm
        refine put_other _ _ _ ?_
        intro h
        exact hid.1 (h ▸ List.mem_map_of_mem hm))]
      rw [add_right_comm, ← Finset.sum_add_distrib]
      congr 1
      refine Finset.sum_congr rfl fun p hp => ?_
      rw [hv p (Finset.mem_range.1 hp), mul_add]
    · rw [ih hid.2 hn, put_other _ _ _ (by
        intro h
        exact hid.1 (h ▸ List.mem_map_of_mem hn)), add_assoc]

theorem leafDown_eq (size : Nat) (c : Nat → K) (v : Nat → Nat → K) (ds : List Nat) (k : Nat) (y : Nat → K) (d : Nat) :
    leafDown size c v ds k y d = y d + ∑ p ∈ Finset.range size, ((ds.zipIdx k).map fun e => if e.1 = d then v e.2 p else 0).sum * c p := by
  induction ds generalizing k y with
  | nil => simp [leafDown]
  | cons a ds ih =>
    simp only [leafDown, ih, List.zipIdx_cons, List.map_cons, List.sum_cons, add_mul, Finset.sum_add_distrib]
    rw [← add_assoc]
    congr 1
    by_cases h : d = a
    · rw [if_pos h]
      simp only [if_pos h.symm]
    · rw [if_neg h]
      simp only [if_neg (Ne.symm h), zero_mul, Finset.sum_const_zero, add_zero]

theorem downward_spec (comp : Nat) (t : Node K) (hs : Shaped t) (hid : (t.nodes.map Node.id).Nodup) (s : Store K) (y : Nat → K) :
    (∀ j, j ∉ t.nodes.map Node.id → (downward comp t (s, y)).1 j = s j) ∧ ∀ d, (downward comp t (s, y)).2 d = y d + phi comp t.nodes s d := by
  induction t using node_ind generalizing s y with
  | hl id size T dofs value =>
    refine ⟨fun j _ => rfl, fun d => ?_⟩
    simp only [downward, leafDown_eq, phi, Node.nodes, List.map_cons, List.map_nil, List.sum_cons, List.sum_nil, add_zero, Node.size, Node.id, basis]
  | hn id size T cs ih =>
    cases hs with
    | inner _ _ _ _ hsh1 hsh2 =>
    have hsh : ∀ c ∈ cs, c.T.rows = size ∧ c.T.cols = c.size ∧ Shaped c := fun c hc => ⟨(hsh1 c hc).1, (hsh1 c hc).2, hsh2 c hc⟩
    clear hsh1 hsh2
    simp only [Node.nodes, List.map_cons, List.nodup_cons] at hid
    obtain ⟨hid0, hid⟩ := hid
    change id ∉ _ at hid0
    have key : ∀ (s : Store K) (y : Nat → K),
        (∀ j, j ∉ (nodesList cs).map Node.id → (downwardList comp id cs (s, y)).1 j = s j) ∧
        ∀ d, (downwardList comp id cs (s, y)).2 d = y d + phi comp (nodesList cs) s d + ∑ p ∈ Finset.range size, basisList comp cs d p * s id p := by
      induction cs with
      | nil => intro s y; simp [downwardList, nodesList, basisList, phi]
      | cons c cs ih2 =>
        intro s y
        simp only [nodesList, List.map_append, List.nodup_append, List.mem_append, not_or] at hid hid0
        obtain ⟨hr, hcs, hcc⟩ := hsh c (List.mem_cons_self ..)
        obtain ⟨a1, a2⟩ := ih c (List.mem_cons_self ..) hcc hid.1 (s.put c.id (gemvT c.T (s id) (s c.id))) y
        simp only [downwardList]
        generalize hu : downward comp c (s.put c.id (gemvT c.T (s id) (s c.id)), y) = u at *
        obtain ⟨b1, b2⟩ := ih2 (fun c hc => ih c (List.mem_cons_of_mem _ hc)) (fun c hc => hsh c (List.mem_cons_of_mem _ hc)) hid.2.1 hid0.2 u.1 u.2
        have hcid : c.id ∈ c.nodes.map Node.id := List.mem_map_of_mem (self_mem c)
        refine ⟨?_, ?_⟩
        · intro j hj
          simp only [nodesList, List.map_append, List.mem_append, not_or] at hj
          rw [show u = (u.1, u.2) from rfl, b1 j hj.2, a1 j hj.1, put_other _ _ _ (by rintro rfl; exact hj.1 hcid)]
        · intro d
          have hphi := phi_put comp c.nodes hid.1 s d c (self_mem c) (gemvT c.T (s id) (s c.id)) (fun q => ∑ i ∈ Finset.range c.T.rows, c.T.entry i q * s id i) (by
            intro q hq
            unfold gemvT
            rw [if_pos (by omega)])
          have hrest : phi comp (nodesList cs) u.1 d = phi comp (nodesList cs) s d := by
            refine phi_congr comp _ _ _ d fun m hm => ?_
            have hm' : m.id ∉ c.nodes.map Node.id := fun h => hid.2.2 _ h _ (List.mem_map_of_mem hm) rfl
            rw [a1 _ hm', put_other _ _ _ (by intro h; exact hm' (h ▸ hcid))]
          have hself : u.1 id = s id := by
            rw [a1 id hid0.1, put_other _ _ _ (by rintro rfl; exact hid0.1 hcid)]
          rw [show u = (u.1, u.2) from rfl, b2 d, a2 d, hphi, hrest, hself]
          have happ : phi comp (nodesList (c :: cs)) s d = phi comp c.nodes s d + phi comp (nodesList cs) s d := by
            simp [phi, nodesList, List.sum_append]
          have hswap : ∑ p ∈ Finset.range c.size, basis comp c d p * ∑ i ∈ Finset.range c.T.rows, c.T.entry i p * s id i =
              ∑ p ∈ Finset.range size, (∑ q ∈ Finset.range c.T.cols, c.T.entry p q * basis comp c d q) * s id p := by
            rw [hr, hcs]
            simp only [Finset.mul_sum, Finset.sum_mul]
            rw [Finset.sum_comm]
            refine Finset.sum_congr rfl fun p _ => Finset.sum_congr rfl fun q _ => ?_
            ring
          rw [happ, hswap]
          simp only [basisList, add_mul, Finset.sum_add_distrib]
          ring
    obtain ⟨k1, k2⟩ := key s y
    refine ⟨?_, ?_⟩
    · intro j hj
      simp only [Node.nodes, List.map_cons, List.mem_cons, not_or] at hj
      exact k1 j hj.2
    · intro d
      simp only [downward]
      rw [k2 d]
      simp only [Node.nodes, phi, List.map_cons, List.sum_cons, Node.size, Node.id, basis]
      rw [add_assoc, add_comm (List.sum _)]

/-! ## Far field -/

omit [CommSemiring K] in
theorem reset_aux [Zero K] (L : List (Node K)) (s : Store K) : (∀ j, j ∉ L.map Node.id → L.foldl (fun s n => s.put n.id fun _ => 0) s j = s j) ∧ ∀ m ∈ L, L.foldl (fun s n => s.put n.id fun _ => (0 : K)) s m.id = fun _ => 0 := by
  induction L generalizing s with
  | nil => simp
  | cons a L ih =>
    obtain ⟨h1, h2⟩ := ih (s.put a.id fun _ => 0)
    simp only [List.foldl_cons]
    refine ⟨?_, ?_⟩
    · intro j hj
      simp only [List.map_cons, List.mem_cons, not_or] at hj
      rw [h1 j hj.2, put_other _ _ _ hj.1]
    · intro m hm
      by_cases hmL : m.id ∈ L.map Node.id
      · obtain ⟨m', hm', he⟩ := List.mem_map.1 hmL
        rw [← he]
        exact h2 m' hm'
      · rw [h1 _ hmL]
        rcases List.mem_cons.1 hm with rfl | hm
        · exact put_same _ _ _
        · exact absurd (List.mem_map_of_mem hm) hmL

theorem phi_reset (comp : Nat) (t : Node K) (s : Store K) (d : Nat) : phi comp t.nodes (reset t s) d = 0 := by
  unfold phi
  refine List.sum_eq_zero ?_
  intro v hv
  obtain ⟨m, hm, rfl⟩ := List.mem_map.1 hv
  refine Finset.sum_eq_zero fun p _ => ?_
  rw [show reset t s m.id = fun _ => 0 from (reset_aux t.nodes s).2 m hm, mul_zero]

theorem phi_far (comp : Nat) (L : List (Node K)) (hid : (L.map Node.id).Nodup) (up : Store K) (d : Nat) (pairs : List (Pair K)) (hp : ∀ p ∈ pairs, p.n1 ∈ L ∧ p.S.rows = p.n1.size) (s : Store K) :
    phi comp L (far pairs up s) d = phi comp L s d + (pairs.map fun p => ∑ a ∈ Finset.range p.S.rows, basis comp p.n1 d a * ∑ b ∈ Finset.range p.S.cols, p.S.entry a b * up p.n2.id b).sum := by
  induction pairs generalizing s with
  | nil => simp [far]
  | cons p pairs ih =>
    have := ih (fun p h => hp p (List.mem_cons_of_mem _ h)) (s.put p.n1.id (gemv p.S (up p.n2.id) (s p.n1.id)))
    unfold far at this ⊢
    rw [List.foldl_cons, this, phi_put comp L hid s d p.n1 (hp p (List.mem_cons_self ..)).1 _ (fun a => ∑ b ∈ Finset.range p.S.cols, p.S.entry a b * up p.n2.id b) (by
      intro a ha
      unfold gemv
      rw [if_pos (by rw [(hp p (List.mem_cons_self ..)).2]; exact ha)]), List.map_cons, List.sum_cons, (hp p (List.mem_cons_self ..)).2, add_assoc]

theorem phi_farT (comp : Nat) (L : List (Node K)) (hid : (L.map Node.id).Nodup) (up : Store K) (d : Nat) (pairs : List (Pair K)) (hp : ∀ p ∈ pairs, p.n2 ∈ L ∧ p.S.cols = p.n2.size) (s : Store K) :
    phi comp L (farT pairs up s) d = phi comp L s d + (pairs.map fun p => ∑ b ∈ Finset.range p.S.cols, basis comp p.n2 d b * ∑ a ∈ Finset.range p.S.rows, p.S.entry a b * up p.n1.id a).sum := by
  induction pairs generalizing s with
  | nil => simp [farT]
  | cons p pairs ih =>
    have := ih (fun p h => hp p (List.mem_cons_of_mem _ h)) (s.put p.n2.id (gemvT p.S (up p.n1.id) (s p.n2.id)))
    unfold farT at this ⊢
    rw [List.foldl_cons, this, phi_put comp L hid s d p.n2 (hp p (List.mem_cons_self ..)).1 _ (fun b => ∑ a ∈ Finset.range p.S.rows, p.S.entry a b * up p.n1.id a) (by
      intro b hb
      unfold gemvT
      rw [if_pos (by rw [(hp p (List.mem_cons_self ..)).2]; exact hb)]), List.map_cons, List.sum_cons, (hp p (List.mem_cons_self ..)).2, add_assoc]

/-- The product with one block. -/
theorem block_mul (comp n : Nat) (x : Nat → K) (p : Pair K) (d : Nat) :
    ∑ a ∈ Finset.range p.S.rows, basis comp p.n1 d a * ∑ b ∈ Finset.range p.S.cols, p.S.entry a b * coeff comp n x p.n2 b = ∑ j ∈ Finset.range n, block comp p d j * x j := by
  simp only [block, coeff, Finset.mul_sum, Finset.sum_mul]
  rw [Finset.sum_comm (s := Finset.range n)]
  refine Finset.sum_congr rfl fun a _ => ?_
  rw [Finset.sum_comm (s := Finset.range n)]
  refine Finset.sum_congr rfl fun b _ => Finset.sum_congr rfl fun j _ => ?_
  ring

theorem block_mulT (comp n : Nat) (x : Nat → K) (p : Pair K) (d : Nat) :
    ∑ b ∈ Finset.range p.S.cols, basis comp p.n2 d b * ∑ a ∈ Finset.range p.S.rows, p.S.entry a b * coeff comp n x p.n1 a = ∑ i ∈ Finset.range n, block comp p i d * x i := by
  simp only [block, coeff, Finset.mul_sum, Finset.sum_mul]
  rw [Finset.sum_comm (s := Finset.range n)]
  rw [Finset.sum_comm]
  refine Finset.sum_congr rfl fun a _ => ?_
  rw [Finset.sum_comm (s := Finset.range n)]
  refine Finset.sum_congr rfl fun b _ => Finset.sum_congr rfl fun j _ => ?_
  ring

/-! ## Products -/

/-- The content of the leaves after the product with the basis matrix. -/
theorem basisMatvec_spec (n : Nat) (x : Nat → K) (t : Node K) (hid : (t.nodes.map Node.id).Nodup) (hd : ∀ m ∈ t.nodes, ∀ d ∈ dofsOf m, d < n) (up : Store K) : LeavesSet 0 n x t (basisMatvec x t up) := by
  unfold LeavesSet basisMatvec
  revert hid hd
  generalize t.nodes = L
  intro hid hd
  induction L generalizing up with
  | nil => simp
  | cons a L ih =>
    simp only [List.map_cons, List.nodup_cons] at hid
    intro m hm hl p hp
    rw [List.foldl_cons]
    by_cases hmL : m ∈ L
    · exact ih (setLeaf x up a) hid.2 (fun m hm => hd m (List.mem_cons_of_mem _ hm)) m hmL hl p hp
    · rcases List.mem_cons.1 hm with rfl | hm
      · have hkeep : ∀ (M : List (Node K)) (s : Store K), m.id ∉ M.map Node.id → M.foldl (setLeaf x) s m.id = s m.id := by
          intro M
          induction M with
          | nil => simp
          | cons b M ihM =>
            intro s hs
            simp only [List.map_cons, List.mem_cons, not_or] at hs
            rw [List.foldl_cons, ihM _ hs.2]
            cases b with
            | leaf id size T dofs value => exact put_other _ _ _ hs.1
            | inner => rfl
        rw [hkeep L _ hid.1]
        obtain ⟨id, size, T, dofs, value, rfl⟩ := hl
        simp only [setLeaf, Node.id]
        rw [put_same, coeff_leaf 0 n x id size T dofs value (by simpa [dofsOf] using hd _ (List.mem_cons_self ..))]
      · exact absurd hm hmL

theorem dofs_nodes (t : Node K) : ∀ m ∈ t.nodes, ∀ d ∈ dofsOf m, d ∈ dofsOf t := by
  induction t using node_ind with
  | hl id size T dofs value =>
    intro m hm
    simp only [Node.nodes, List.mem_singleton] at hm
    subst hm
    exact fun d h => h
  | hn id size T cs ih =>
    intro m hm d hd
    simp only [Node.nodes, List.mem_cons] at hm
    rcases hm with rfl | hm
    · exact hd
    · simp only [dofsOf]
      clear id size T
      induction cs with
      | nil => simp [nodesList] at hm
      | cons c cs ih2 =>
        simp only [nodesList, List.mem_append] at hm
        simp only [dofsOfList, List.mem_append]
        rcases hm with hm | hm
        · exact Or.inl (ih c (List.mem_cons_self ..) m hm d hd)
        · exact Or.inr (ih2 (fun c hc => ih c (List.mem_cons_of_mem _ hc)) hm)

/-- Sum of the contributions of one component to the product. -/
def farMul (H : HMat K) (tr : Bool) (comp : Nat) (x : Nat → K) (d : Nat) : K :=
  ∑ j ∈ Finset.range H.n, (H.pairs.map fun p => if tr then block comp p j d else block comp p d j).sum * x j

theorem list_sum_mul_comm (n : Nat) (x : Nat → K) (pairs : List (Pair K)) (f : Pair K → Nat → K) :
    ∑ j ∈ Finset.range n, (pairs.map fun p => f p j).sum * x j = (pairs.map fun p => ∑ j ∈ Finset.range n, f p j * x j).sum := by
  induction pairs with
  | nil => simp
  | cons p pairs ih => simp only [List.map_cons, List.sum_cons, add_mul, Finset.sum_add_distrib, ih]

theorem component_spec (H : HMat K) (hf : H.Fits) (tr skip : Bool) (x : Nat → K) (s : State K) (comp : Nat) (hskip : skip = true → LeavesSet comp H.n x H.tree s.1) :
    (∀ d, (component H tr skip x s comp).2.2 d = s.2.2 d + farMul H tr comp x d) ∧ ∀ m ∈ H.tree.nodes, ∀ p, p < m.size → (component H tr skip x s comp).1 m.id p = coeff comp H.n x m p := by
  obtain ⟨u1, u2⟩ := upward_spec comp H.n x skip H.tree hf.shaped hf.ids hf.dofs s.1 hskip
  refine ⟨fun d => ?_, u2⟩
  unfold component
  dsimp only
  generalize hup : upward x comp skip H.tree s.1 = up at *
  rw [(downward_spec comp H.tree hf.shaped hf.ids _ s.2.2).2 d]
  congr 1
  cases tr with
  | false =>
    simp only [Bool.false_eq_true, if_false]
    rw [phi_far comp _ hf.ids up d H.pairs (fun p hp => ⟨(hf.pairs p hp).1, (hf.pairs p hp).2.2.1⟩), phi_reset, zero_add]
    unfold farMul
    simp only [Bool.false_eq_true, if_false]
    rw [list_sum_mul_comm H.n x H.pairs (fun p j => block comp p d j)]
    congr 1
    refine List.map_congr_left fun p hp => ?_
    rw [← block_mul]
    refine Finset.sum_congr rfl fun a _ => ?_
    congr 1
    refine Finset.sum_congr rfl fun b hb => ?_
    rw [u2 p.n2 (hf.pairs p hp).2.1 b (by rw [← (hf.pairs p hp).2.2.2]; exact Finset.mem_range.1 hb)]
  | true =>
    simp only [if_true]
    rw [phi_farT comp _ hf.ids up d H.pairs (fun p hp => ⟨(hf.pairs p hp).2.1, (hf.pairs p hp).2.2.2⟩), phi_reset, zero_add]
    unfold farMul
    simp only [if_true]
    rw [list_sum_mul_comm H.n x H.pairs (fun p j => block comp p j d)]
    congr 1
    refine List.map_congr_left fun p hp => ?_
    rw [← block_mulT]
    refine Finset.sum_congr rfl fun b _ => ?_
    congr 1
    refine Finset.sum_congr rfl fun a ha => ?_
    rw [u2 p.n1 (hf.pairs p hp).1 a (by rw [← (hf.pairs p hp).2.2.1]; exact Finset.mem_range.1 ha)]

theorem farField_spec (H : HMat K) (hf : H.Fits) (tr skip : Bool) (hskip : skip = true → H.comps ≤ 1) (x : Nat → K) (s : State K) (d : Nat) :
    (farField H tr skip x s).2.2 d = s.2.2 d + ∑ comp ∈ Finset.range H.comps, farMul H tr comp x d := by
  unfold farField
  split
  · have key : ∀ k ≤ H.comps, ∀ up, (skip = true → LeavesSet 0 H.n x H.tree up) → ((List.range k).foldl (component H tr skip x) (up, s.2)).2.2 d = s.2.2 d + ∑ comp ∈ Finset.range k, farMul H tr comp x d := by
      intro k
      induction k with
      | zero => simp
      | succ k ih =>
        intro hk up hl
        rw [List.range_succ, List.foldl_append, List.foldl_cons, List.foldl_nil, (component_spec H hf tr skip x _ k ?_).1 d, ih (by omega) up hl, Finset.sum_range_succ, add_assoc]
        intro hs
        have := hskip hs
        obtain rfl : k = 0 := by omega
        exact hl hs
    refine key H.comps le_rfl _ ?_
    intro hs
    rw [if_pos hs]
    exact basisMatvec_spec H.n x H.tree hf.ids (fun m hm d hd => hf.dofs d (dofs_nodes H.tree m hm d hd)) s.1
  · rename_i hp
    have : H.pairs = [] := List.length_eq_zero_iff.1 (by omega)
    simp [farMul, this]

/-! ## Dense form -/

theorem passMatrix_dofs (t : Node K) : (passMatrix t).map Prod.fst = dofsOf t := by
  induction t using node_ind with
  | hl id size T dofs value => simp [passMatrix, dofsOf, List.map_map, Function.comp_def]
  | hn id size T cs ih =>
    simp only [passMatrix, dofsOf]
    clear id size T
    induction cs with
    | nil => rfl
    | cons c cs ih2 =>
      simp only [passMatrixList, dofsOfList, List.map_append, List.map_map]
      rw [ih2 fun c hc => ih c (List.mem_cons_of_mem _ hc), ← ih c (List.mem_cons_self ..)]
      rfl

theorem passMatrix_sum (t : Node K) (d p : Nat) : ((passMatrix t).map fun r => if r.1 = d then r.2 p else 0).sum = basis 0 t d p := by
  induction t using node_ind generalizing p with
  | hl id size T dofs value =>
    simp only [passMatrix, basis, List.map_map]
    rfl
  | hn id size T cs ih =>
    simp only [passMatrix, basis]
    clear id size T
    induction cs with
    | nil => rfl
    | cons c cs ih2 =>
      simp only [passMatrixList, basisList, List.map_append, List.sum_append, List.map_map]
      rw [ih2 fun c hc => ih c (List.mem_cons_of_mem _ hc)]
      congr 1
      simp only [← ih c (List.mem_cons_self ..)]
      generalize passMatrix c = rows
      induction rows with
      | nil => simp
      | cons r rows ihr =>
        simp only [List.map_cons, List.sum_cons, Function.comp_apply, mul_add, Finset.sum_add_distrib]
        rw [ihr]
        congr 1
        split
        · exact Finset.sum_congr rfl fun q _ => mul_comm _ _
        · simp

theorem passMatrix_row (t : Node K) (hn : (dofsOf t).Nodup) (r : Nat × (Nat → K)) (hr : r ∈ passMatrix t) (p : Nat) : r.2 p = basis 0 t r.1 p := by
  rw [← passMatrix_sum]
  rw [← passMatrix_dofs] at hn
  generalize passMatrix t = L at *
  induction L with
  | nil => simp at hr
  | cons a L ih =>
    simp only [List.map_cons, List.nodup_cons] at hn
    simp only [List.map_cons, List.sum_cons]
    rcases List.mem_cons.1 hr with rfl | hr
    · rw [if_pos rfl, List.sum_eq_zero, add_zero]
      intro v hv
      obtain ⟨b, hb, rfl⟩ := List.mem_map.1 hv
      refine if_neg ?_
      intro h
      exact hn.1 (h ▸ List.mem_map_of_mem hb)
    · rw [if_neg (by intro h; exact hn.1 (h ▸ List.mem_map_of_mem hr)), zero_add]
      exact ih hn.2 hr

theorem basis_zero (t : Node K) (d : Nat) (hd : d ∉ dofsOf t) (p : Nat) : basis 0 t d p = 0 := by
  rw [← passMatrix_sum]
  refine List.sum_eq_zero ?_
  intro v hv
  obtain ⟨b, hb, rfl⟩ := List.mem_map.1 hv
  refine if_neg ?_
  rintro rfl
  exact hd (by rw [← passMatrix_dofs]; exact List.mem_map_of_mem hb)

theorem block_zero (p : Pair K) (i j : Nat) (h : ¬ (i ∈ dofsOf p.n1 ∧ j ∈ dofsOf p.n2)) : block 0 p i j = 0 := by
  unfold block
  refine Finset.sum_eq_zero fun a _ => Finset.sum_eq_zero fun b _ => ?_
  by_cases hi : i ∈ dofsOf p.n1
  · rw [basis_zero p.n2 j (fun hj => h ⟨hi, hj⟩), mul_zero]
  · rw [basis_zero p.n1 i hi, zero_mul, zero_mul]

theorem write_inner (L : List (Nat × (Nat → K))) (I0 : Nat) (f : Nat × (Nat → K) → K) (D : Nat → Nat → K) (I J : Nat) (v : K) (hv : ∀ r ∈ L, r.1 = J → f r = v) :
    L.foldl (fun D r => fun I J => if I = I0 ∧ J = r.1 then f r else D I J) D I J = if I = I0 ∧ J ∈ L.map Prod.fst then v else D I J := by
  induction L generalizing D with
  | nil => simp
  | cons a L ih =>
    rw [List.foldl_cons, ih _ fun r hr => hv r (List.mem_cons_of_mem _ hr)]
    by_cases hI : I = I0
    · by_cases hm : J ∈ L.map Prod.fst
      · rw [if_pos ⟨hI, hm⟩, if_pos ⟨hI, by simp only [List.map_cons, List.mem_cons]; exact Or.inr hm⟩]
      · rw [if_neg (fun h => hm h.2)]
        by_cases ha : J = a.1
        · rw [if_pos ⟨hI, ha⟩, if_pos ⟨hI, by simp [ha]⟩, hv a (List.mem_cons_self ..) ha.symm]
        · rw [if_neg (fun h => ha h.2), if_neg]
          simp only [List.map_cons, List.mem_cons, not_and, not_or]
          exact fun _ => ⟨ha, hm⟩
    · rw [if_neg (fun h => hI h.1), if_neg (fun h => hI h.1), if_neg (fun h => hI h.1)]

theorem writeBlock_spec (p : Pair K) (h1 : (dofsOf p.n1).Nodup) (h2 : (dofsOf p.n2).Nodup) (D : Nat → Nat → K) (I J : Nat) :
    writeBlock p D I J = if I ∈ dofsOf p.n1 ∧ J ∈ dofsOf p.n2 then block 0 p I J else D I J := by
  unfold writeBlock
  have hrow1 := fun r hr => passMatrix_row p.n1 h1 r hr
  rw [← passMatrix_dofs p.n1]
  revert hrow1
  generalize passMatrix p.n1 = L
  intro hrow1
  induction L generalizing D with
  | nil => simp
  | cons a L ih =>
    rw [List.foldl_cons, ih _ fun r hr => hrow1 r (List.mem_cons_of_mem _ hr)]
    have hin := write_inner (passMatrix p.n2) a.1 (fun r2 => ∑ x ∈ Finset.range p.S.rows, a.2 x * ∑ b ∈ Finset.range p.S.cols, p.S.entry x b * r2.2 b) D I J
      (∑ x ∈ Finset.range p.S.rows, basis 0 p.n1 a.1 x * ∑ b ∈ Finset.range p.S.cols, p.S.entry x b * basis 0 p.n2 J b) (by
        intro r hr hJ
        refine Finset.sum_congr rfl fun x _ => ?_
        rw [hrow1 a (List.mem_cons_self ..)]
        congr 1
        refine Finset.sum_congr rfl fun b _ => ?_
        rw [passMatrix_row p.n2 h2 r hr, hJ])
    rw [hin, passMatrix_dofs]
    by_cases hJ : J ∈ dofsOf p.n2
    · by_cases hI : I ∈ L.map Prod.fst
      · rw [if_pos ⟨hI, hJ⟩, if_pos ⟨by simp only [List.map_cons, List.mem_cons]; exact Or.inr hI, hJ⟩]
      · rw [if_neg (fun h => hI h.1)]
        by_cases ha : I = a.1
        · rw [if_pos ⟨ha, hJ⟩, if_pos ⟨by simp [ha], hJ⟩, ← ha]
          unfold block
          refine Finset.sum_congr rfl fun x _ => ?_
          rw [Finset.mul_sum]
          exact Finset.sum_congr rfl fun b _ => by rw [mul_assoc]
        · rw [if_neg (fun h => ha h.1), if_neg]
          simp only [List.map_cons, List.mem_cons, not_and]
          rintro (h | h)
          · exact absurd h ha
          · exact absurd h hI
    · rw [if_neg (fun h => hJ h.2), if_neg (fun h => hJ h.2), if_neg (fun h => hJ h.2)]

end PyNucleus.H2
