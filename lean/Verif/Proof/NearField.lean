import Verif.Model.NearField
import Verif.Proof.NonlocalAssembly2

/-! # Masks of the near field -/

namespace PyNucleus.NearField

open PyNucleus.Loops PyNucleus.NonlocalAssembly PyNucleus.SSS
open PyNucleus.Simplex (upper)

variable {K σ : Type}

/-! ## The dictionary -/

theorem enter_keys (masks : List ((Nat × Nat) × Nat)) (c : Nat × Nat) (mask : Nat) (h : (masks.map Prod.fst).Nodup) :
    ((enter masks c mask).map Prod.fst).Nodup ∧ ∀ k, k ∈ (enter masks c mask).map Prod.fst ↔ k ∈ masks.map Prod.fst ∨ k = c := by
  unfold enter
  by_cases hc : c ∈ masks.map Prod.fst
  · rw [if_pos hc, List.map_map]
    have : (Prod.fst ∘ fun e : (Nat × Nat) × Nat => if e.1 = c then (c, e.2 ||| mask) else e) = Prod.fst := by
      funext e
      show (if e.1 = c then (c, e.2 ||| mask) else e).1 = e.1
      split
      · rename_i he; exact he.symm
      · rfl
    rw [this]
    exact ⟨h, fun k => ⟨Or.inl, fun hk => hk.elim id fun e => e ▸ hc⟩⟩
  · rw [if_neg hc, List.map_append, List.map_singleton]
    refine ⟨List.nodup_append.2 ⟨h, List.nodup_singleton _, fun a ha b hb e => hc ?_⟩, fun k => by simp⟩
    rw [List.mem_singleton] at hb
    rw [e, hb] at ha
    exact ha

/-- The dictionary after a list of calls. -/
structure Holds (masks evs : List ((Nat × Nat) × Nat)) : Prop where
  nodup : (masks.map Prod.fst).Nodup
  keys : ∀ k, k ∈ masks.map Prod.fst ↔ k ∈ evs.map Prod.fst
  bits : ∀ e ∈ masks, ∀ b, e.2.testBit b = evs.any fun v => decide (v.1 = e.1) && v.2.testBit b

theorem Holds.nil : Holds [] [] := ⟨List.nodup_nil, fun _ => Iff.rfl, fun e he => by cases he⟩

theorem Holds.enter {masks evs : List ((Nat × Nat) × Nat)} (h : Holds masks evs) (c : Nat × Nat) (mask : Nat) : Holds (enter masks c mask) (evs ++ [(c, mask)]) := by
  obtain ⟨h1, h2⟩ := enter_keys masks c mask h.nodup
  refine ⟨h1, fun k => ?_, fun e he b => ?_⟩
  · rw [h2, h.keys, List.map_append, List.mem_append, List.map_singleton, List.mem_singleton]
  · rw [List.any_append]
    simp only [List.any_cons, List.any_nil, Bool.or_false]
    unfold NearField.enter at he
    by_cases hc : c ∈ masks.map Prod.fst
    · rw [if_pos hc] at he
      obtain ⟨e', he', rfl⟩ := List.mem_map.1 he
      by_cases hk : e'.1 = c
      · rw [if_pos hk]
        dsimp only
        rw [Nat.testBit_or, h.bits e' he', hk]
        simp
      · rw [if_neg hk, h.bits e' he']
        simp [Ne.symm hk]
    · rw [if_neg hc, List.mem_append, List.mem_singleton] at he
      rcases he with he | rfl
      · have : ¬ c = e.1 := fun hh => hc (hh ▸ List.mem_map_of_mem he)
        rw [h.bits e he]
        simp [this]
      · have : (evs.any fun v => decide (v.1 = c) && v.2.testBit b) = false := by
          rw [List.any_eq_false]
          intro v hv hh
          rw [Bool.and_eq_true, decide_eq_true_eq] at hh
          exact hc ((h.keys c).2 (hh.1 ▸ List.mem_map_of_mem hv))
        dsimp only
        rw [this]
        simp

theorem Holds.foldl {α : Type} (f : List ((Nat × Nat) × Nat) → α → List ((Nat × Nat) × Nat)) (g : α → List ((Nat × Nat) × Nat)) (l : List α)
    (hf : ∀ masks evs a, a ∈ l → Holds masks evs → Holds (f masks a) (evs ++ g a)) :
    ∀ masks evs, Holds masks evs → Holds (l.foldl f masks) (evs ++ l.flatMap g) := by
  induction l with
  | nil => intro masks evs h; simpa using h
  | cons a t ih =>
    intro masks evs h
    rw [List.foldl_cons, List.flatMap_cons, ← List.append_assoc]
    exact ih (fun masks evs b hb => hf masks evs b (List.mem_cons_of_mem _ hb)) _ _ (hf masks evs a (List.mem_cons_self ..) h)

/-! ## The masks of cells -/

/-- The local dof `p` belongs to the set. -/
def isIn (dofs : List Nat) (row : List Int) (p : Nat) : Bool := decide (0 ≤ row.getD p 0 ∧ (row.getD p 0).toNat ∈ dofs)

theorem cellMask_bit (n : Nat) (dofs : List Nat) (row : List Int) (k : Nat) : (cellMask n dofs row).testBit k = (decide (k < n) && isIn dofs row k) := by
  unfold cellMask forRange
  have h := mask_bit (isIn dofs row) (List.range' 0 (n - 0)) k
  unfold isIn at h ⊢
  simp only [decide_eq_true_eq] at h
  refine Eq.trans h ?_
  rw [Nat.sub_zero]
  by_cases hk : k < n
  · simp [hk]
  · simp [hk]

theorem cellMasks_eq (n : Nat) (cell2dof : Nat → List Int) (C : Cluster) (m : Nat → Nat × Nat) (x : Nat) (hx : x ∈ C.union) :
    cellMasks n cell2dof C m x = (cellMask n C.dofs1 (cell2dof x), cellMask n C.dofs2 (cell2dof x)) := by
  unfold cellMasks
  have : ∀ (l : List Nat) (m : Nat → Nat × Nat), l.foldl (fun m c x => if x = c then (cellMask n C.dofs1 (cell2dof c), cellMask n C.dofs2 (cell2dof c)) else m x) m x =
      if x ∈ l then (cellMask n C.dofs1 (cell2dof x), cellMask n C.dofs2 (cell2dof x)) else m x := by
    intro l
    induction l with
    | nil => intro m; simp
    | cons a t ih =>
      intro m
      rw [List.foldl_cons, ih]
      by_cases ht : x ∈ t
      · rw [if_pos ht, if_pos (List.mem_cons_of_mem _ ht)]
      · rw [if_neg ht]
        by_cases ha : x = a
        · subst ha; rw [if_pos rfl, if_pos (List.mem_cons_self ..)]
        · rw [if_neg ha, if_neg (by simp [ha, ht])]
  rw [this, if_pos hx]

/-- The mask of a pair of cells. -/
def pairMask (n : Nat) (dofs : List Nat) (cell2dof : Nat → List Int) (c : Nat × Nat) : Nat := cellMask n dofs (cell2dof c.1) ||| cellMask n dofs (cell2dof c.2) <<< n

theorem pairMask_bit (n : Nat) (dofs : List Nat) (cell2dof : Nat → List Int) (c : Nat × Nat) (h1 : (cell2dof c.1).length = n) (h2 : (cell2dof c.2).length = n) (k : Nat) :
    (pairMask n dofs cell2dof c).testBit k = (decide (k < 2 * n) && isIn dofs (pairDofs cell2dof c) k) := by
  unfold pairMask
  rw [Nat.testBit_or, Nat.testBit_shiftLeft, cellMask_bit, cellMask_bit]
  unfold isIn pairDofs
  by_cases hk : k < n
  · rw [List.getD_append _ _ _ _ (by omega)]
    simp [hk, show k < 2 * n by omega]
  · rw [List.getD_append_right _ _ _ _ (by omega), h1]
    by_cases hk2 : k < 2 * n
    · simp [hk, hk2, show n ≤ k by omega, show k - n < n by omega]
    · simp [hk, hk2, show ¬ k - n < n by omega]

theorem pairMask_zero (n : Nat) (dofs : List Nat) (cell2dof : Nat → List Int) (c : Nat × Nat) (h1 : (cell2dof c.1).length = n) (h2 : (cell2dof c.2).length = n) :
    pairMask n dofs cell2dof c = 0 ↔ ∀ k, k < 2 * n → isIn dofs (pairDofs cell2dof c) k = false := by
  constructor
  · intro h k hk
    have := pairMask_bit n dofs cell2dof c h1 h2 k
    rw [h, Nat.zero_testBit] at this
    simpa [hk] using this.symm
  · intro h
    refine Nat.eq_of_testBit_eq fun k => ?_
    rw [pairMask_bit n dofs cell2dof c h1 h2, Nat.zero_testBit]
    by_cases hk : k < 2 * n
    · rw [h k hk, Bool.and_false]
    · simp [hk]

/-- The positions of the local matrix, in the order of the array. -/
def positions (symLocal : Bool) (n : Nat) : List (Nat × Nat) := if symLocal then upper n else (List.range n).flatMap fun p => (List.range n).map fun q => (p, q)

/-- The mask that is entered for a pair of cells. -/
def eventMask (symLocal : Bool) (n : Nat) (cell2dof : Nat → List Int) (C : Cluster) (c : Nat × Nat) : Nat :=
  if symLocal then symMask (2 * n) (pairMask n C.dofs1 cell2dof c).testBit (pairMask n C.dofs2 cell2dof c).testBit
  else genMask (2 * n) (pairMask n C.dofs1 cell2dof c).testBit (pairMask n C.dofs2 cell2dof c).testBit

theorem mem_positions {symLocal : Bool} {n : Nat} {q : Nat × Nat} (h : q ∈ positions symLocal n) : q.1 < n ∧ q.2 < n := by
  unfold positions at h
  cases symLocal
  · rw [if_neg (by simp), List.mem_flatMap] at h
    obtain ⟨p, hp, h⟩ := h
    obtain ⟨r, hr, rfl⟩ := List.mem_map.1 h
    exact ⟨List.mem_range.1 hp, List.mem_range.1 hr⟩
  · rw [if_pos rfl] at h
    have := (Simplex.mem_upper _ _).1 h
    exact ⟨by omega, by omega⟩

/-- The dofs of the position belong to the cluster pair. -/
def sel (cell2dof : Nat → List Int) (C : Cluster) (c q : Nat × Nat) : Bool := isIn C.dofs1 (pairDofs cell2dof c) q.1 && isIn C.dofs2 (pairDofs cell2dof c) q.2

theorem eventMask_bit (symLocal : Bool) (n : Nat) (cell2dof : Nat → List Int) (C : Cluster) (c : Nat × Nat) (h1 : (cell2dof c.1).length = n) (h2 : (cell2dof c.2).length = n) (k : Nat) :
    (eventMask symLocal n cell2dof C c).testBit k = ((positions symLocal (2 * n))[k]?).any (sel cell2dof C c) := by
  have e : (eventMask symLocal n cell2dof C c).testBit k =
      ((positions symLocal (2 * n))[k]?).any fun q => (pairMask n C.dofs1 cell2dof c).testBit q.1 && (pairMask n C.dofs2 cell2dof c).testBit q.2 := by
    unfold eventMask positions
    cases symLocal
    · rw [if_neg (by simp), if_neg (by simp), genMask_eq]
      exact mask_bit (fun q : Nat × Nat => (pairMask n C.dofs1 cell2dof c).testBit q.1 && (pairMask n C.dofs2 cell2dof c).testBit q.2) _ k
    · rw [if_pos rfl, if_pos rfl, symMask_eq]
      exact mask_bit (fun q : Nat × Nat => (pairMask n C.dofs1 cell2dof c).testBit q.1 && (pairMask n C.dofs2 cell2dof c).testBit q.2) _ k
  rw [e]
  cases hq : (positions symLocal (2 * n))[k]? with
  | none => rfl
  | some q =>
    obtain ⟨a, b⟩ := mem_positions (List.mem_of_getElem? hq)
    simp only [Option.any_some]
    unfold sel
    rw [pairMask_bit _ _ _ _ h1 h2, pairMask_bit _ _ _ _ h1 h2]
    simp [a, b]

/-- The pairs of cells of the loops. -/
def pairsOf (symCells : Bool) (C : Cluster) : List (Nat × Nat) :=
  if symCells then C.cells1.flatMap fun c1 => C.cells2.map fun c2 => if c2 < c1 then (c2, c1) else (c1, c2) else C.union.flatMap fun c1 => C.union.map fun c2 => (c1, c2)

/-- The pairs with entered masks. -/
def nonzero (n : Nat) (cell2dof : Nat → List Int) (C : Cluster) (c : Nat × Nat) : Bool := !(decide (pairMask n C.dofs1 cell2dof c = 0) || decide (pairMask n C.dofs2 cell2dof c = 0))

/-- The calls of `enterValue` for a cluster pair. -/
def events (symCells symLocal : Bool) (n : Nat) (cell2dof : Nat → List Int) (C : Cluster) : List ((Nat × Nat) × Nat) :=
  (pairsOf symCells C).flatMap fun c => if nonzero n cell2dof C c then [(c, eventMask symLocal n cell2dof C c)] else []

theorem enterCluster_holds (symCells symLocal : Bool) (n : Nat) (cell2dof : Nat → List Int) (C : Cluster) (m : Nat → Nat × Nat)
    (hu : ∀ c, c ∈ C.union ↔ c ∈ C.cells1 ∨ c ∈ C.cells2) (masks evs : List ((Nat × Nat) × Nat)) (h : Holds masks evs) :
    Holds (enterCluster symCells symLocal n (cellMasks n cell2dof C m) C masks) (evs ++ events symCells symLocal n cell2dof C) := by
  have one : ∀ (masks evs : List ((Nat × Nat) × Nat)) (c : Nat × Nat), c.1 ∈ C.union → c.2 ∈ C.union → Holds masks evs →
      Holds (enterPair symLocal n (cellMasks n cell2dof C m) masks c) (evs ++ if nonzero n cell2dof C c then [(c, eventMask symLocal n cell2dof C c)] else []) := by
    intro masks evs c h1 h2 h
    unfold enterPair
    dsimp only
    rw [cellMasks_eq _ _ _ _ _ h1, cellMasks_eq _ _ _ _ _ h2]
    dsimp only
    have hz : nonzero n cell2dof C c = true ↔ ¬ (pairMask n C.dofs1 cell2dof c = 0 ∨ pairMask n C.dofs2 cell2dof c = 0) := by
      unfold nonzero; simp
    by_cases hc : pairMask n C.dofs1 cell2dof c = 0 ∨ pairMask n C.dofs2 cell2dof c = 0
    · rw [if_neg (fun e => hz.1 e hc), List.append_nil]
      unfold pairMask at hc
      rw [if_pos hc]
      exact h
    · rw [if_pos (hz.2 hc)]
      unfold pairMask at hc
      rw [if_neg hc]
      exact h.enter _ _
  unfold enterCluster events pairsOf
  cases symCells
  · rw [if_neg (by simp), if_neg (by simp), List.flatMap_assoc]
    refine Holds.foldl _ _ _ (fun masks evs c1 h1 h => ?_) _ _ h
    rw [List.flatMap_map]
    exact Holds.foldl _ _ _ (fun masks evs c2 h2 h => one masks evs (c1, c2) h1 h2 h) _ _ h
  · rw [if_pos rfl, if_pos rfl, List.flatMap_assoc]
    refine Holds.foldl _ _ _ (fun masks evs c1 h1 h => ?_) _ _ h
    rw [List.flatMap_map]
    refine Holds.foldl _ _ _ (fun masks evs c2 h2 h => one masks evs (if c2 < c1 then (c2, c1) else (c1, c2)) ?_ ?_ h) _ _ h
    · split
      · exact (hu _).2 (Or.inr h2)
      · exact (hu _).2 (Or.inl h1)
    · split
      · exact (hu _).2 (Or.inl h1)
      · exact (hu _).2 (Or.inr h2)

theorem buildLoop_holds (symCells symLocal : Bool) (n : Nat) (cell2dof : Nat → List Int) (maxNNZ : Nat) : ∀ (Cs : List Cluster),
    (∀ C ∈ Cs, ∀ c, c ∈ C.union ↔ c ∈ C.cells1 ∨ c ∈ C.cells2) → ∀ (m : Nat → Nat × Nat) (masks evs : List ((Nat × Nat) × Nat)), Holds masks evs →
    ∃ done, Cs = done ++ (buildLoop symCells symLocal n cell2dof maxNNZ Cs m masks).2 ∧
      Holds (buildLoop symCells symLocal n cell2dof maxNNZ Cs m masks).1 (evs ++ done.flatMap (events symCells symLocal n cell2dof)) := by
  intro Cs
  induction Cs with
  | nil => intro _ m masks evs h; exact ⟨[], rfl, by simpa [buildLoop] using h⟩
  | cons C Cs ih =>
    intro hu m masks evs h
    have h' := enterCluster_holds symCells symLocal n cell2dof C m (hu C (List.mem_cons_self ..)) masks evs h
    unfold buildLoop
    dsimp only
    split
    · exact ⟨[C], rfl, by simpa using h'⟩
    · obtain ⟨done, e1, e2⟩ := ih (fun D hD => hu D (List.mem_cons_of_mem _ hD)) _ _ _ h'
      refine ⟨C :: done, ?_, ?_⟩
      · rw [List.cons_append]; exact congrArg _ e1
      · rw [List.flatMap_cons, ← List.append_assoc]; exact e2

end PyNucleus.NearField
